import Verif.PoolGM.Spec
import Verif.PoolGM.Model3

/-!
Where the dofs of a hexahedron are.
-/

namespace Phyem.PoolGM

/-- The corner of a hexahedron at the low (`false`) or high (`true`) end of each axis. -/
def corner (h : Hex) : Bool → Bool → Bool → ℕ
  | false, false, false => h.m0
  | true, false, false => h.m1
  | false, true, false => h.m2
  | true, true, false => h.m3
  | false, false, true => h.m4
  | true, false, true => h.m5
  | false, true, true => h.m6
  | true, true, true => h.m7

/-- At which end of an axis with positions `0, …, p` position `i` is, if at one. -/
def side (p i : ℕ) : Option Bool := if i = 0 then some false else if i = p then some true else none

/-- The edges along an axis, from the low to the high end. -/
def xEdge (h : Hex) (y z : Bool) : List ℕ := [corner h false y z, corner h true y z]
@[inherit_doc xEdge] def yEdge (h : Hex) (x z : Bool) : List ℕ := [corner h x false z, corner h x true z]
@[inherit_doc xEdge] def zEdge (h : Hex) (x y : Bool) : List ℕ := [corner h x y false, corner h x y true]

/-- The faces across an axis: their corners, the first of the two other axes running first. -/
def xFace (h : Hex) (x : Bool) : List ℕ :=
  [corner h x false false, corner h x true false, corner h x false true, corner h x true true]
@[inherit_doc xFace] def yFace (h : Hex) (y : Bool) : List ℕ :=
  [corner h false y false, corner h true y false, corner h false y true, corner h true y true]
@[inherit_doc xFace] def zFace (h : Hex) (z : Bool) : List ℕ :=
  [corner h false false z, corner h true false z, corner h false true z, corner h true true z]

/-- The place of node `(i, j, k)` of degrees `p, q, r`: a corner, a point of an edge, of a face (counted row by row), or inside. -/
def hexPoint (label : ℕ) (h : Hex) (p q r i j k : ℕ) : Place :=
  match side p i, side q j, side r k with
  | some x, some y, some z => .node (corner h x y z)
  | none, some y, some z => .on (xEdge h y z) (p - 1) (i - 1)
  | some x, none, some z => .on (yEdge h x z) (q - 1) (j - 1)
  | some x, some y, none => .on (zEdge h x y) (r - 1) (k - 1)
  | some x, none, none => .on (xFace h x) ((q - 1) * (r - 1)) ((j - 1) + (q - 1) * (k - 1))
  | none, some y, none => .on (yFace h y) ((p - 1) * (r - 1)) ((i - 1) + (p - 1) * (k - 1))
  | none, none, some z => .on (zFace h z) ((p - 1) * (q - 1)) ((i - 1) + (p - 1) * (j - 1))
  | none, none, none => .inside label (0, i, j, k)

/-- How many segments lie on a face with `m` by `n` cells, without those on its edges. -/
def onFace (m n : ℕ) : ℕ := m * (n - 1) + (m - 1) * n

/-- The place of a segment along `x`. On a face, the segments along its first axis are counted before those
along its second. -/
def xSegment (label : ℕ) (h : Hex) (p q r i j k : ℕ) : Place :=
  match side q j, side r k with
  | some y, some z => .on (xEdge h y z) p i
  | some y, none => .on (yFace h y) (onFace p r) (i + p * (k - 1))
  | none, some z => .on (zFace h z) (onFace p q) (i + p * (j - 1))
  | none, none => .inside label (0, i, j, k)

/-- The place of a segment along `y`. -/
def ySegment (label : ℕ) (h : Hex) (p q r i j k : ℕ) : Place :=
  match side p i, side r k with
  | some x, some z => .on (yEdge h x z) q j
  | some x, none => .on (xFace h x) (onFace q r) (j + q * (k - 1))
  | none, some z => .on (zFace h z) (onFace p q) (p * (q - 1) + ((i - 1) + (p - 1) * j))
  | none, none => .inside label (1, i, j, k)

/-- The place of a segment along `z`. -/
def zSegment (label : ℕ) (h : Hex) (p q r i j k : ℕ) : Place :=
  match side p i, side q j with
  | some x, some y => .on (zEdge h x y) r k
  | some x, none => .on (xFace h x) (onFace q r) (q * (r - 1) + ((j - 1) + (q - 1) * k))
  | none, some y => .on (yFace h y) (onFace p r) (p * (r - 1) + ((i - 1) + (p - 1) * k))
  | none, none => .inside label (2, i, j, k)

/-- The place of a small face across `x`. -/
def xCell (label : ℕ) (h : Hex) (p q r i j k : ℕ) : Place :=
  match side p i with
  | some x => .on (xFace h x) (q * r) (j + q * k)
  | none => .inside label (0, i, j, k)

/-- The place of a small face across `y`. -/
def yCell (label : ℕ) (h : Hex) (p q r i j k : ℕ) : Place :=
  match side q j with
  | some y => .on (yFace h y) (p * r) (i + p * k)
  | none => .inside label (1, i, j, k)

/-- The place of a small face across `z`. -/
def zCell (label : ℕ) (h : Hex) (p q r i j k : ℕ) : Place :=
  match side r k with
  | some z => .on (zFace h z) (p * q) (i + p * j)
  | none => .inside label (2, i, j, k)

/-- A list over `i < m`, `j < n`, `k < l`, `i` running fastest. -/
def grid3 (m n l : ℕ) (f : ℕ → ℕ → ℕ → Place) : List Place :=
  (List.range (m * n * l)).map fun s => f (s % m) (s / m % n) (s / (m * n))

/-- The places of the dofs of the forms on a hexahedron. -/
def hexNodes (p q r label : ℕ) (h : Hex) : List Place := grid3 (p + 1) (q + 1) (r + 1) (hexPoint label h p q r)
@[inherit_doc hexNodes] def hexSegments (p q r label : ℕ) (h : Hex) : List Place :=
  grid3 p (q + 1) (r + 1) (xSegment label h p q r) ++ grid3 (p + 1) q (r + 1) (ySegment label h p q r) ++
    grid3 (p + 1) (q + 1) r (zSegment label h p q r)
@[inherit_doc hexNodes] def hexFaces (p q r label : ℕ) (h : Hex) : List Place :=
  grid3 (p + 1) q r (xCell label h p q r) ++ grid3 p (q + 1) r (yCell label h p q r) ++
    grid3 p q (r + 1) (zCell label h p q r)
@[inherit_doc hexNodes] def hexCells (p q r label : ℕ) : List Place :=
  grid3 p q r fun i j k => .inside label (0, i, j, k)

/-- The edges along, and the faces across, an axis. -/
def edgesAlong (h : Hex) : Fin 3 → List (List ℕ)
  | 0 => [xEdge h false false, xEdge h true false, xEdge h false true, xEdge h true true]
  | 1 => [yEdge h false false, yEdge h true false, yEdge h false true, yEdge h true true]
  | 2 => [zEdge h false false, zEdge h true false, zEdge h false true, zEdge h true true]
@[inherit_doc edgesAlong] def facesAcross (h : Hex) : Fin 3 → List (List ℕ)
  | 0 => [xFace h false, xFace h true]
  | 1 => [yFace h false, yFace h true]
  | 2 => [zFace h false, zFace h true]

/-- Edges and faces have one degree: the degrees are equal, or no edge is along two different axes and no face
across two different axes. -/
def Conforming3 (p q r : ℕ) (mesh : List Item3) : Prop :=
  (p = q ∧ q = r) ∨ ∀ x ∈ mesh, ∀ y ∈ mesh, x.inside = true → y.inside = true → ∀ s t : Fin 3, s ≠ t →
    (∀ e ∈ edgesAlong x.hex s, e ∉ edgesAlong y.hex t) ∧ ∀ f ∈ facesAcross x.hex s, f ∉ facesAcross y.hex t

/-- The elements of the partial mesh with their places. -/
def placesOf3 (f : ℕ → Hex → List Place) (mesh : List Item3) : List (ℕ × List Place) :=
  (mesh.filter fun x => x.inside).map fun x => (x.label, f x.label x.hex)

end Phyem.PoolGM
