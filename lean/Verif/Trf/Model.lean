import Mathlib.Data.Rat.Defs
import Mathlib.Algebra.Order.Ring.Unbundled.Rat
import Mathlib.Tactic.Ring

/-!
Triangular refining of a mesh of quadrilaterals: `msehtt/static/mesh/great/config/msehtt_trf.py`.

A base cell that is to be refined is split into four triangles around its centre, and a triangle is
split into two at the midpoint of its bottom edge, level after level.  The coordinates are dyadic
fractions, for which the float arithmetic of the code is exact, so `ℚ` is used.
-/

namespace Phyem.Trf

/-- A point, in the reference square of a base cell or in the domain. -/
structure Pt where
  x : ℚ
  y : ℚ
deriving DecidableEq

/-- The letters `'N'`, `'W'`, `'E'`, `'S'` of an element indicator; msehtt_trf.py:270-275. -/
inductive Dir
  | N | W | E | S
deriving DecidableEq

/-- The numbers `0` and `2` an element indicator is extended with; msehtt_trf.py:312-315. -/
inductive Half
  | zero | two
deriving DecidableEq

/-- The indicator `(cell, letter, 0 or 2, ...)` of a triangle; msehtt_trf.py:270-275, 312-315. -/
structure Tri where
  cell : ℕ
  dir : Dir
  path : List Half
deriving DecidableEq

/-- An element indicator: the index of a base cell or the tuple of a triangle.  The indices of the base
cells are natural numbers here; the code takes anything but tuples (msehtt_trf.py:128-130). -/
inductive Elem
  | quad (c : ℕ)
  | tri (t : Tri)
deriving DecidableEq

/-- The vertices #0, #1 and #2 of a triangle; msehtt_trf.py:587-593. -/
structure Three where
  a : Pt
  b : Pt
  c : Pt
deriving DecidableEq

/-- The four node numbers of a base cell: at `(-1,-1)`, `(1,-1)`, `(1,1)`, `(-1,1)` of the reference square;
msehtt_trf.py:523-530. -/
structure Nodes where
  n0 : ℕ
  n1 : ℕ
  n2 : ℕ
  n3 : ℕ
deriving DecidableEq

/-- The dictionary of the node numbers of the base cells; msehtt_trf.py:511-512. -/
abbrev Base := List (ℕ × Nodes)

/-- `element_vortices[e]`: `none` for the `KeyError`; msehtt_trf.py:517. -/
def nodesOf (B : Base) (c : ℕ) : Option Nodes := (B.find? fun q => q.1 = c).map Prod.snd

/-- The four triangles a cell is split into; msehtt_trf.py:603-625. -/
def start : Dir → Three
  | .N => ⟨⟨0, 0⟩, ⟨-1, 1⟩, ⟨-1, -1⟩⟩
  | .S => ⟨⟨0, 0⟩, ⟨1, -1⟩, ⟨1, 1⟩⟩
  | .W => ⟨⟨0, 0⟩, ⟨-1, -1⟩, ⟨1, -1⟩⟩
  | .E => ⟨⟨0, 0⟩, ⟨1, 1⟩, ⟨-1, 1⟩⟩

/-- `((x1 + x2) / 2, (y1 + y2) / 2)`; msehtt_trf.py:630. -/
def mid (p q : Pt) : Pt := ⟨(p.x + q.x) / 2, (p.y + q.y) / 2⟩

/-- The two triangles a triangle is split into; msehtt_trf.py:627-643. -/
def bisect (V : Three) : Half → Three
  | .zero => ⟨mid V.b V.c, V.a, V.b⟩
  | .two => ⟨mid V.b V.c, V.c, V.a⟩

/-- `_parse_ref_vortices_of_triangle_element_`; msehtt_trf.py:578-646.  The results are kept in a dictionary by
the indicator without the cell; that dictionary is not modelled, its entries are never changed. -/
def verts (t : Tri) : Three := t.path.foldl bisect (start t.dir)

/-- The keys the vertices are numbered by: a node number of the base mesh or a tuple of three numbers. -/
inductive Key
  | node (n : ℕ)
  | triple (p q r : ℚ)
deriving DecidableEq

/-- `face_nodes.sort(); tuple(face_nodes) + (y, )`; msehtt_trf.py:532-534. -/
def edgeKey (a b : ℕ) (t : ℚ) : Key := .triple (min a b : ℕ) (max a b : ℕ) t

/-- `node_indicator` of a vertex; msehtt_trf.py:522-550. -/
def keyAt (n : Nodes) (c : ℕ) (p : Pt) : Key :=
  if p.x = p.y ∧ p.y = -1 then .node n.n0
  else if p.x = 1 ∧ p.y = -1 then .node n.n1
  else if p.x = -1 ∧ p.y = 1 then .node n.n3
  else if p.x = 1 ∧ p.y = 1 then .node n.n2
  else if p.x = -1 then edgeKey n.n0 n.n3 p.y
  else if p.x = 1 then edgeKey n.n1 n.n2 p.y
  else if p.y = -1 then edgeKey n.n0 n.n1 p.x
  else if p.y = 1 then edgeKey n.n3 n.n2 p.x
  else .triple c p.x p.y

/-- `MAP[e]`; msehtt_trf.py:515-554. -/
def keysOf (B : Base) : Elem → Option (List Key)
  | .quad c => (nodesOf B c).map fun n => [.node n.n0, .node n.n1, .node n.n2, .node n.n3]
  | .tri t => (nodesOf B t.cell).map fun n =>
      [keyAt n t.cell (verts t).a, keyAt n t.cell (verts t).b, keyAt n t.cell (verts t).c]

/-- `MAP`: the elements with their keys, in order; msehtt_trf.py:514-554. -/
def allKeys (B : Base) : List Elem → Option (List (Elem × List Key))
  | [] => some []
  | e :: l => (keysOf B e).bind fun k => (allKeys B l).map fun m => (e, k) :: m

/-- The keys of the dictionary `numbering`, in the order they are entered: the number of a key is its position;
msehtt_trf.py:556-564. -/
def addKeys (seen : List Key) : List Key → List Key
  | [] => seen
  | k :: l => if k ∈ seen then addKeys seen l else addKeys (seen ++ [k]) l

/-- `_make_element_map_m2n2_`; msehtt_trf.py:509-572. -/
def elementMap (B : Base) (L : List Elem) : Option (List (Elem × List ℕ)) :=
  (allKeys B L).map fun m =>
    let pool := addKeys [] (m.flatMap Prod.snd)
    m.map fun q => (q.1, q.2.map fun k => pool.idxOf k)

/-- The nodes of the faces 0, 1, 2, 3 of a quadrilateral, smaller first; `face_setting` of
msehtt/static/mesh/great/elements/types/vtu_9_quad.py:199-206 and unique_curvilinear_quad.py:122-129,
msehtt_trf.py:664-669. -/
def faceNodes (n : Nodes) : Dir → ℕ × ℕ
  | .N => (min n.n0 n.n3, max n.n0 n.n3)
  | .S => (min n.n1 n.n2, max n.n1 n.n2)
  | .W => (min n.n0 n.n1, max n.n0 n.n1)
  | .E => (min n.n3 n.n2, max n.n3 n.n2)

/-- The four faces, in the order of their numbers 0, 1, 2, 3; msehtt_trf.py:448-463. -/
def dirs : List Dir := [.N, .S, .W, .E]

/-- All faces of the base cells, by their nodes; msehtt_trf.py:655-681. -/
def allFaces (B : Base) : List (ℕ × ℕ) := B.flatMap fun q => dirs.map (faceNodes q.2)

/-- The faces that appear once; `_parse_boundary_faces_of_a_patch_of_elements_`, msehtt_trf.py:649-737, and the
dictionary made of them (msehtt_trf.py:423-430) as a list of cells and faces. -/
def boundaryMap (B : Base) : List (ℕ × Dir) :=
  B.flatMap fun q => (dirs.filter fun d => (allFaces B).count (faceNodes q.2 d) = 1).map fun d => (q.1, d)

/-- Whether a triangle is entered in `elements_facing_boundary`; msehtt_trf.py:438-471. -/
def facing (bm : List (ℕ × Dir)) (t : Tri) : Bool :=
  let V := verts t
  if V.b.x = V.c.x ∧ V.c.x = -1 then (t.cell, Dir.N) ∈ bm
  else if V.b.x = V.c.x ∧ V.c.x = 1 then (t.cell, Dir.S) ∈ bm
  else if V.b.y = V.c.y ∧ V.c.y = -1 then (t.cell, Dir.W) ∈ bm
  else if V.b.y = V.c.y ∧ V.c.y = 1 then (t.cell, Dir.E) ∈ bm
  else false

/-- The triangles with the sorted numbers of their bottom nodes, in order; msehtt_trf.py:473-486. -/
def bottoms : List (Elem × List ℕ) → List (Tri × (ℕ × ℕ))
  | [] => []
  | (.tri t, [_, b, c]) :: l => (t, (min b c, max b c)) :: bottoms l
  | _ :: l => bottoms l

/-- `bottom_edge_positions[bottom_nodes]`; msehtt_trf.py:473-486. -/
def group (bs : List (Tri × (ℕ × ℕ))) (k : ℕ × ℕ) : List Tri :=
  (bs.filter fun q => q.2 = k).map Prod.fst

/-- `refined_able_pairs.get(e)`; msehtt_trf.py:488-499. -/
def partner (bs : List (Tri × (ℕ × ℕ))) (t : Tri) : Option Tri :=
  (bs.find? fun q => q.1 = t).bind fun q =>
    match group bs q.2 with
    | [s, s'] => if t = s then some s' else if t = s' then some s else none
    | _ => none

/-- The check of the pairs: no bottom edge of three triangles (msehtt_trf.py:500-501), and a triangle that faces
the boundary is the only one with its bottom edge (msehtt_trf.py:503-504). -/
def pairsOK (bs : List (Tri × (ℕ × ℕ))) (bm : List (ℕ × Dir)) : Bool :=
  bs.all fun q => (group bs q.2).length ≤ 2 && (!facing bm q.1 || (group bs q.2).length = 1)

/-- `rcm`: where the refining function is looked at; msehtt_trf.py:350-382. -/
inductive Method
  | center | middle
deriving DecidableEq

/-- The geometry of the cells and the refining function: `none` when it raises;
msehtt_trf.py:119, 354-363. -/
structure World where
  /-- The mapping of a cell, from the reference square. -/
  map : ℕ → Pt → Pt
  /-- `rff`: its value at a point, also when it is called with the coordinates of several points. -/
  rff : Pt → Option ℚ
  /-- Whether its value at one point is a number, and not an array without dimension. -/
  number : Bool := true

/-- The largest of the values at some points; msehtt_trf.py:235-236, 378-379. -/
def maxAt (f : Pt → Option ℚ) : List Pt → Option ℚ
  | [] => none
  | [p] => f p
  | p :: l => (f p).bind fun v => (maxAt f l).map fun w => max v w

/-- `_parse_triangle_ref_center_coo_`; msehtt_trf.py:743-770. -/
def centerOf (V : Three) : Pt :=
  let m := mid V.b V.c
  ⟨m.x + (V.a.x - m.x) / 3, m.y + (V.a.y - m.y) / 3⟩

/-- `_parse_triangle_ref_mean_coo_`; msehtt_trf.py:773-801. -/
def sevenOf (V : Three) : List Pt :=
  [V.a, V.b, V.c, centerOf V, mid V.b V.c, mid V.a V.b, mid V.a V.c]

/-- The value compared with the threshold for a base cell; msehtt_trf.py:187-236.  For the nine points the
averages of the vertices are taken, which for a bilinear mapping are the images of these reference points; the
exception for curvilinear cells is not modelled. -/
def cellValue (w : World) (m : Method) (c : ℕ) : Option ℚ :=
  match m with
  | .center => w.rff (w.map c ⟨0, 0⟩)
  | .middle => maxAt (fun p => w.rff (w.map c p))
      [⟨-1, -1⟩, ⟨0, -1⟩, ⟨1, -1⟩, ⟨-1, 0⟩, ⟨0, 0⟩, ⟨1, 0⟩, ⟨-1, 1⟩, ⟨0, 1⟩, ⟨1, 1⟩]

/-- The value compared with the threshold for a triangle; msehtt_trf.py:347-391.  A value that is no number is
refused (384-391); the largest of several values is one. -/
def triValue (w : World) (m : Method) (t : Tri) : Option ℚ :=
  match m with
  | .center => if w.number then w.rff (w.map t.cell (centerOf (verts t))) else none
  | .middle => maxAt (fun p => w.rff (w.map t.cell p)) (sevenOf (verts t))

/-- `_level_one_refining_m2n2_`; msehtt_trf.py:181-246. -/
def levelOne (w : World) (m : Method) (r : ℚ) : Base → Option (List ℕ)
  | [] => some []
  | q :: B => (cellValue w m q.1).bind fun v => (levelOne w m r B).map fun l =>
      if r ≤ v then q.1 :: l else l

/-- `_parse_level_one_elements_m2n2_`; msehtt_trf.py:260-294. -/
def splitCells (B : Base) (l : List ℕ) : List Elem :=
  B.flatMap fun q => if q.1 ∈ l then
      [.tri ⟨q.1, .N, []⟩, .tri ⟨q.1, .W, []⟩, .tri ⟨q.1, .E, []⟩, .tri ⟨q.1, .S, []⟩]
    else [.quad q.1]

/-- `ei + (2, )`, `ei + (0, )`; msehtt_trf.py:312-315. -/
def child (t : Tri) (h : Half) : Tri := ⟨t.cell, t.dir, t.path ++ [h]⟩

/-- `_parse_level_elements_m2n2_`; msehtt_trf.py:307-320. -/
def splitTris (sel : List Tri) (L : List Elem) : List Elem :=
  L.flatMap fun e => match e with
    | .quad c => [.quad c]
    | .tri t => if t ∈ sel then [.tri (child t .two), .tri (child t .zero)] else [.tri t]

/-- The loop of `_level_high_refining_m2n2_`; msehtt_trf.py:338-408. -/
def select (val : Tri → Option ℚ) (r : ℚ) (par : Tri → Option Tri) (fac : Tri → Bool) :
    List Elem → List Tri → Option (List Tri)
  | [], acc => some acc
  | .quad _ :: L, acc => select val r par fac L acc
  | .tri t :: L, acc =>
    if t ∈ acc then select val r par fac L acc
    else if (par t).isSome ∨ fac t = true then
      match val t with
      | none => none
      | some v =>
        if r ≤ v then
          match par t with
          | some t' => select val r par fac L (acc ++ [t, t'])
          | none => select val r par fac L (acc ++ [t])
        else select val r par fac L acc
    else select val r par fac L acc

/-- `___a_cache___['boundary_faces']`; msehtt_trf.py:14-16. -/
structure State where
  cache : Option (List (ℕ × Dir))
deriving DecidableEq

/-- One level above the first; msehtt_trf.py:162-164, 333-411, 414-506.  The boundary faces are taken from the
cache when it is filled. -/
def levelHigh (B : Base) (w : World) (m : Method) (r : ℚ) (L : List Elem) (s : State) :
    Option (List Elem) × State :=
  match elementMap B L with
  | none => (none, s)
  | some em =>
    let bm := s.cache.getD (boundaryMap B)
    let bs := bottoms em
    (if pairsOK bs bm then
      ((select (triValue w m) r (partner bs) (facing bm) L []).bind fun sel =>
        if sel.Nodup then some (splitTris sel L) else none)
    else none, ⟨some bm⟩)

/-- The levels above the first, one after the other; msehtt_trf.py:162-164. -/
def levels (B : Base) (w : World) (m : Method) : List ℚ → List Elem → State → Option (List Elem) × State
  | [], L, s => (some L, s)
  | r :: rs, L, s =>
    match levelHigh B w m r L s with
    | (none, s) => (none, s)
    | (some L, s) => levels B w m rs L s

/-- `_refining_`; msehtt_trf.py:117-168.  At the end the cache is cleared; an exception leaves it as it is.
The check of the element types is not modelled: all base cells are quadrilaterals. -/
def refining (B : Base) (w : World) (m : Method) (rft : List ℚ) (s : State) : Option (List Elem) × State :=
  match rft with
  | [] => (none, s)
  | r :: rs =>
    match levelOne w m r B with
    | none => (none, s)
    | some l =>
      match levels B w m rs (splitCells B l) s with
      | (none, s) => (none, s)
      | (some L, _) => (some L, ⟨none⟩)

/-- A call of the configuration: what it is given; msehtt_trf.py:27-43. -/
structure Call where
  base : Base
  world : World
  method : Method
  thresholds : List ℚ

/-- One call in a session; msehtt_trf.py:43. -/
def step (s : State) (c : Call) : State := (refining c.base c.world c.method c.thresholds s).2

/-- A session: a fresh process and the calls made before; msehtt_trf.py:14-16. -/
def session (l : List Call) : State := l.foldl step ⟨none⟩

end Phyem.Trf
