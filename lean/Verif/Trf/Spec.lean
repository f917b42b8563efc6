import Verif.Trf.Model

/-!
What a refined mesh should be.  The points of the mesh are pairs of a base cell and a point of its reference
square `[-1, 1]²`, where points on the sides of cells with the same two nodes are the same point when they divide
the side in the same way.
-/

namespace Phyem.Trf

/-- `p` is a point of the triangle. -/
def In (V : Three) (p : Pt) : Prop :=
  ∃ a b c : ℚ, 0 ≤ a ∧ 0 ≤ b ∧ 0 ≤ c ∧ a + b + c = 1 ∧
    p = ⟨a * V.a.x + b * V.b.x + c * V.c.x, a * V.a.y + b * V.b.y + c * V.c.y⟩

/-- `p` is a point of the triangle but not of its edges. -/
def Within (V : Three) (p : Pt) : Prop :=
  ∃ a b c : ℚ, 0 < a ∧ 0 < b ∧ 0 < c ∧ a + b + c = 1 ∧
    p = ⟨a * V.a.x + b * V.b.x + c * V.c.x, a * V.a.y + b * V.b.y + c * V.c.y⟩

/-- `p` is a point of the reference square. -/
def InSquare (p : Pt) : Prop := -1 ≤ p.x ∧ p.x ≤ 1 ∧ -1 ≤ p.y ∧ p.y ≤ 1

/-- `m` lies strictly between `p` and `q`. -/
def Between (p m q : Pt) : Prop :=
  ∃ s : ℚ, 0 < s ∧ s < 1 ∧ m = ⟨(1 - s) * p.x + s * q.x, (1 - s) * p.y + s * q.y⟩

/-- Twice the signed area of the triangle `p q r`: positive when it is run through counterclockwise. -/
def area2 (p q r : Pt) : ℚ := (q.x - p.x) * (r.y - p.y) - (q.y - p.y) * (r.x - p.x)

/-- The node at the beginning and at the end of a side of a cell. -/
def ends (n : Nodes) : Dir → ℕ × ℕ
  | .N => (n.n0, n.n3)
  | .S => (n.n1, n.n2)
  | .W => (n.n0, n.n1)
  | .E => (n.n3, n.n2)

/-- The point of a side: from `-1` at its beginning to `1` at its end. -/
def sidePt : Dir → ℚ → Pt
  | .N, t => ⟨-1, t⟩
  | .S, t => ⟨1, t⟩
  | .W, t => ⟨t, -1⟩
  | .E, t => ⟨t, 1⟩

/-- `p` divides a side of the cell with the nodes `a` and `b`: it is the fraction `f` of the side away from `a`. -/
def Divides (n : Nodes) (a b : ℕ) (f : ℚ) (p : Pt) : Prop :=
  ∃ d, (ends n d = (a, b) ∧ p = sidePt d (2 * f - 1)) ∨ (ends n d = (b, a) ∧ p = sidePt d (1 - 2 * f))

/-- `p` is the corner of the cell with the node `a`. -/
def Corner (n : Nodes) (a : ℕ) (p : Pt) : Prop :=
  (a = n.n0 ∧ p = ⟨-1, -1⟩) ∨ (a = n.n1 ∧ p = ⟨1, -1⟩) ∨ (a = n.n2 ∧ p = ⟨1, 1⟩) ∨ (a = n.n3 ∧ p = ⟨-1, 1⟩)

/-- Two points of cells are the same point of the mesh: the same point of one cell, two corners with the same
node, or two points that divide sides with the same nodes in the same way. -/
def Same (B : Base) (c : ℕ) (p : Pt) (c' : ℕ) (p' : Pt) : Prop :=
  (c = c' ∧ p = p') ∨
  (∃ n n', (c, n) ∈ B ∧ (c', n') ∈ B ∧
    ((∃ a, Corner n a p ∧ Corner n' a p') ∨
     (∃ a b f, 0 ≤ f ∧ f ≤ 1 ∧ Divides n a b f p ∧ Divides n' a b f p')))

/-- The base mesh is a mesh: a cell has one entry and four different nodes, and at most two sides have the same
two nodes. -/
structure Proper (B : Base) : Prop where
  keys : (B.map Prod.fst).Nodup
  nodes : ∀ q ∈ B, [q.2.n0, q.2.n1, q.2.n2, q.2.n3].Nodup
  two : (∀ p, (allFaces B).count p ≤ 2)

/-- Cells that share a side run through it in the same direction. -/
def Aligned (B : Base) : Prop :=
  ∀ q ∈ B, ∀ q' ∈ B, ∀ d d', ends q.2 d ≠ (ends q'.2 d').swap

/-- The base cell of an element. -/
def Elem.cell : Elem → ℕ
  | .quad c => c
  | .tri t => t.cell

/-- The vertices of an element. -/
def Elem.corners : Elem → List Pt
  | .quad _ => [⟨-1, -1⟩, ⟨1, -1⟩, ⟨1, 1⟩, ⟨-1, 1⟩]
  | .tri t => [(verts t).a, (verts t).b, (verts t).c]

/-- The edges of an element. -/
def Elem.edges : Elem → List (Pt × Pt)
  | .quad _ => [(⟨-1, -1⟩, ⟨-1, 1⟩), (⟨1, -1⟩, ⟨1, 1⟩), (⟨-1, -1⟩, ⟨1, -1⟩), (⟨-1, 1⟩, ⟨1, 1⟩)]
  | .tri t => [((verts t).a, (verts t).b), ((verts t).b, (verts t).c), ((verts t).c, (verts t).a)]

/-- No hanging nodes: no vertex of an element lies strictly inside an edge of an element. -/
def NoHanging (B : Base) (L : List Elem) : Prop :=
  ∀ e ∈ L, ∀ e' ∈ L, ∀ p ∈ e.corners, ∀ s ∈ e'.edges, ∀ m,
    Between s.1 m s.2 → ¬ Same B e.cell p e'.cell m

/-- Each cell is kept as it is, or its square is covered by the triangles of the cell without overlap. -/
def Tiles (B : Base) (L : List Elem) : Prop :=
  ∀ c, c ∈ B.map Prod.fst →
    (Elem.quad c ∈ L ∧ ∀ t, Elem.tri t ∈ L → t.cell ≠ c) ∨
    (Elem.quad c ∉ L ∧
      (∀ p, InSquare p → ∃ t, Elem.tri t ∈ L ∧ t.cell = c ∧ In (verts t) p) ∧
      (∀ t t', Elem.tri t ∈ L → Elem.tri t' ∈ L → t.cell = c → t'.cell = c → t ≠ t' →
        ∀ p, Within (verts t) p → ¬ In (verts t') p))

/-- Two triangles on the two sides of one bottom edge: different triangles, and the ends of the bottom edges are the
same points of the mesh. -/
def Opposite (B : Base) (t t' : Tri) : Prop :=
  t' ≠ t ∧
    ((Same B t.cell (verts t).b t'.cell (verts t').b ∧ Same B t.cell (verts t).c t'.cell (verts t').c) ∨
     (Same B t.cell (verts t).b t'.cell (verts t').c ∧ Same B t.cell (verts t).c t'.cell (verts t').b))

/-- The bottom edge is on the boundary: it is part of a side of the cell, and no other side of a cell has the two
nodes of this side. -/
def OnBoundary (B : Base) (t : Tri) : Prop :=
  ∃ n d, (t.cell, n) ∈ B ∧ (∃ u v, (verts t).b = sidePt d u ∧ (verts t).c = sidePt d v) ∧
    ∀ n' c' d', (c', n') ∈ B → (ends n' d' = ends n d ∨ ends n' d' = (ends n d).swap) → c' = t.cell ∧ d' = d

/-- The value of the refining function at the triangle, or the largest of its values, reaches the threshold. -/
def Reaches (w : World) (m : Method) (r : ℚ) (t : Tri) : Prop := ∃ v, triValue w m t = some v ∧ r ≤ v

end Phyem.Trf
