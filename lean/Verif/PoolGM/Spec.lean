import Verif.PoolGM.Model

/-!
Where the dofs of an element are, as places of the mesh, and when two places are the same.
-/

namespace Phyem.PoolGM

/-- A place: a node of the mesh; the `t`-th of `len` points (or segments) of the edge or face with the
given nodes, counted in the order of the nodes; or a place of its own inside element `label`. -/
inductive Place where
  | node (v : ℕ)
  | on (ent : List ℕ) (len t : ℕ)
  | inside (label : ℕ) (c : Cell)
deriving DecidableEq

/-- Two descriptions of the same place. With `rev` (edges in 2d) the `t`-th point of the edge from `a` to
`b` is also the `t`-th last one of the edge from `b` to `a`. -/
def Same (rev : Bool) (x y : Place) : Prop :=
  x = y ∨ (rev = true ∧ ∃ ent len t s, ent ≠ ent.reverse ∧ t + s + 1 = len ∧ x = .on ent len t ∧
    y = .on ent.reverse len s)

/-- Nodes of degree `(p, q)` on a quadrilateral with corners `a` (`x-y-`), `b` (`x+y-`), `c` (`x-y+`),
`d` (`x+y+`). -/
def quadPoint (label a b c d p q i j : ℕ) : Place :=
  if i = 0 then
    if j = 0 then .node a else if j = q then .node c else .on [a, c] (q - 1) (j - 1)
  else if i = p then
    if j = 0 then .node b else if j = q then .node d else .on [b, d] (q - 1) (j - 1)
  else if j = 0 then .on [a, b] (p - 1) (i - 1)
  else if j = q then .on [c, d] (p - 1) (i - 1)
  else .inside label (0, i, j, 0)

/-- Nodes on a triangle: the side `x-` is collapsed into node `a`. -/
def triPoint (label a b c p q i j : ℕ) : Place :=
  if i = 0 then .node a
  else if i = p then
    if j = 0 then .node b else if j = q then .node c else .on [b, c] (q - 1) (j - 1)
  else if j = 0 then .on [a, b] (p - 1) (i - 1)
  else if j = q then .on [a, c] (p - 1) (i - 1)
  else .inside label (0, i, j, 0)

/-- Segments on a quadrilateral: component 0 along `y`, component 1 along `x`. -/
def quadSegment (label a b c d p q t i j : ℕ) : Place :=
  if t = 0 then
    if i = 0 then .on [a, c] q j else if i = p then .on [b, d] q j else .inside label (0, i, j, 0)
  else
    if j = 0 then .on [a, b] p i else if j = q then .on [c, d] p i else .inside label (1, i, j, 0)

/-- Segments on a triangle; there is none on the collapsed side, and row `i` of component 0 is the line
after `x` segment `i`. -/
def triSegment (label a b c p q t i j : ℕ) : Place :=
  if t = 0 then
    if i + 1 = p then .on [b, c] q j else .inside label (0, i, j, 0)
  else
    if j = 0 then .on [a, b] p i else if j = q then .on [a, c] p i else .inside label (1, i, j, 0)

/-- A list over `j = 0, …, n - 1` and, within it, `i = 0, …, m - 1`. -/
def grid (m n : ℕ) (f : ℕ → ℕ → Place) : List Place :=
  (List.range n).flatMap fun j => (List.range m).map fun i => f i j

/-- The places of the nodes of an element in the order of its local dofs. -/
def nodePlaces (p q label : ℕ) : Shape2 → List Place
  | .quad m0 m1 m2 m3 => grid (p + 1) (q + 1) (quadPoint label m0 m1 m2 m3 p q)
  | .quad9 m0 m1 m2 m3 => grid (p + 1) (q + 1) (quadPoint label m0 m1 m3 m2 p q)
  | .tri m0 m1 m2 => .node m0 :: grid p (q + 1) fun i j => triPoint label m0 m1 m2 p q (i + 1) j

/-- The places of the segments along `y` (those of outer 1-forms with a `dy` component). -/
def ySegments (p q label : ℕ) : Shape2 → List Place
  | .quad m0 m1 m2 m3 => grid (p + 1) q (quadSegment label m0 m1 m2 m3 p q 0)
  | .quad9 m0 m1 m2 m3 => grid (p + 1) q (quadSegment label m0 m1 m3 m2 p q 0)
  | .tri m0 m1 m2 => grid p q (triSegment label m0 m1 m2 p q 0)

/-- The places of the segments along `x`. -/
def xSegments (p q label : ℕ) : Shape2 → List Place
  | .quad m0 m1 m2 m3 => grid p (q + 1) (quadSegment label m0 m1 m2 m3 p q 1)
  | .quad9 m0 m1 m2 m3 => grid p (q + 1) (quadSegment label m0 m1 m3 m2 p q 1)
  | .tri m0 m1 m2 => grid p (q + 1) (triSegment label m0 m1 m2 p q 1)

/-- The edges of an element along `x`, which carry the degree `p`. -/
def xEdges : Shape2 → List (List ℕ)
  | .quad m0 m1 m2 m3 => [[m0, m1], [m2, m3]]
  | .quad9 m0 m1 m2 m3 => [[m0, m1], [m3, m2]]
  | .tri m0 m1 m2 => [[m0, m1], [m0, m2]]

/-- The edges of an element along `y`, which carry the degree `q`. -/
def yEdges : Shape2 → List (List ℕ)
  | .quad m0 m1 m2 m3 => [[m0, m2], [m1, m3]]
  | .quad9 m0 m1 m2 m3 => [[m0, m3], [m1, m2]]
  | .tri _ m1 m2 => [[m1, m2]]

/-- Every edge has one degree: the degrees are equal, or no edge is along `x` in one element and along
`y` in another. -/
def Conforming (p q : ℕ) (mesh : List Item) : Prop :=
  p = q ∨ ∀ x ∈ mesh, ∀ y ∈ mesh, x.inside = true → y.inside = true → ∀ e ∈ xEdges x.shape,
    ∀ f ∈ yEdges y.shape, e ≠ f ∧ e ≠ f.reverse

/-- The elements of the partial mesh with their places. -/
def placesOf (f : ℕ → Shape2 → List Place) (mesh : List Item) : List (ℕ × List Place) :=
  (mesh.filter fun x => x.inside).map fun x => (x.label, f x.label x.shape)

/-- A numbering of a mesh is right: elements have as many numbers as places, two dofs have the same
number exactly when they are the same place, and the numbers are `0, …, total - 1`. `mesh` lists the
elements' labels with their places in the order of the local dofs. -/
structure Right (rev : Bool) (mesh : List (ℕ × List Place)) (gm : Dict ℕ (Option (List ℕ))) (total : ℕ) :
    Prop where
  shape : ∀ e places, (e, places) ∈ mesh → ∃ ns, (e, some ns) ∈ gm ∧ ns.length = places.length
  same : ∀ e places e' places' ns ns', (e, places) ∈ mesh → (e', places') ∈ mesh → (e, some ns) ∈ gm →
    (e', some ns') ∈ gm → ∀ (i i' : ℕ) (x x' : Place) (n n' : ℕ), places[i]? = some x →
      places'[i']? = some x' → ns[i]? = some n → ns'[i']? = some n' → (n = n' ↔ Same rev x x')
  contiguous : ∀ n, n < total ↔ ∃ e ns, (e, some ns) ∈ gm ∧ n ∈ ns

end Phyem.PoolGM
