import Mathlib.Algebra.Order.Field.Rat
import Mathlib.Algebra.Order.AbsoluteValue.Basic
import Mathlib.Tactic.NormNum

/-!
# Geometric objects in space

Model of `tools/miscellaneous/geometries/m3n3.py` (points, segments along an axis, rectangles perpendicular to an axis and boxes, with their tests)
and of `msehtt/static/space/find/dof_geometry/local/findLocalDof_Lambda.py` with the local numberings it searches
(`msehtt/static/space/local_numbering/Lambda/ln_m2n2k{0,1,2}.py` for quadrilaterals, `ln_m3n3k{0,1,2,3}.py`). Floats are rationals; an
exception is `none`. Not modelled: `StraightLine3`, `StraightSegment3`, `Polyhedron3` and `angle3`, which no space uses, and visualization.
-/

namespace Phyem.Boxes

/-- A point, `Point3` (`m3n3.py:9-43`), or three numbers for the axes x, y, z. -/
abbrev P3 := ℚ × ℚ × ℚ

/-- The coordinate along an axis. -/
def P3.at (p : P3) : Fin 3 → ℚ
  | 0 => p.1
  | 1 => p.2.1
  | 2 => p.2.2

/-- The tolerance of lengths and coordinates, `1e-8`. -/
def tol : ℚ := 1 / 10 ^ 8

/-- The tolerance of areas and volumes, `1e-7` (`m3n3.py:486`, `592`). -/
def tolA : ℚ := 1 / 10 ^ 7

/-- The least side, `1e-4` (`m3n3.py:214`, `379`, `385`, `391`, `502`). -/
def least : ℚ := 1 / 10 ^ 4

/-- `Point3.__eq__` (`m3n3.py:45-57`). -/
def eqPoint (a b : P3) : Bool := decide (|a.1 - b.1| < tol) && decide (|a.2.1 - b.2.1| < tol) && decide (|a.2.2 - b.2.2| < tol)

/-- The test that no two of the given points are the same (`m3n3.py:86-95`). -/
def distinct : List P3 → Bool
  | [] => true
  | a :: l => l.all (fun b => !eqPoint a b) && distinct l

/-- `Point3.is_equal_to_a_union_of_a_part_of_separate_geometries_of_same_type` (`m3n3.py:72-101`). -/
def unionPoint (g : P3) (l : List P3) : Option Bool := if distinct l then some (l.any fun b => eqPoint b g) else none

/-- `_bounds.sort()` of two numbers (`m3n3.py:229`, `398-399`, `510-512`). -/
def sort2 (a b : ℚ) : ℚ × ℚ := if a ≤ b then (a, b) else (b, a)

/-- `OrthogonalSegment3` (`m3n3.py:208-234`): its axis, the other two coordinates in cyclic order, the sorted bounds, and `_length`, which keeps
the sign given. -/
structure OSeg where
  axis : Fin 3
  line : ℚ × ℚ
  bounds : ℚ × ℚ
  length : ℚ
  deriving DecidableEq

/-- `OrthogonalSegment3(axis, origin, length)` (`m3n3.py:210-230`). -/
def mkSeg (axis : Fin 3) (o : P3) (l : ℚ) : Option OSeg :=
  if |l| > least then some ⟨axis, (o.at (axis + 1), o.at (axis + 2)), sort2 (o.at axis) (o.at axis + l), l⟩ else none

/-- `OrthogonalSegment3.__eq__` (`m3n3.py:236-256`). -/
def eqSeg (a b : OSeg) : Bool :=
  if a.axis ≠ b.axis then false
  else if |a.line.1 - b.line.1| > tol ∨ |a.line.2 - b.line.2| > tol then false
  else if |a.bounds.1 - b.bounds.1| > tol ∨ |b.bounds.2 - a.bounds.2| > tol then false else true

/-- `OrthogonalSegment3.whether_contain__input__as_a_part_of_same_type` (`m3n3.py:264-284`): whether `a` contains `b`. -/
def inSeg (a b : OSeg) : Bool :=
  if a.axis ≠ b.axis then false
  else if |a.line.1 - b.line.1| > tol ∨ |a.line.2 - b.line.2| > tol then false
  else if a.bounds.1 - b.bounds.1 > tol ∨ b.bounds.2 - a.bounds.2 > tol then false else true

/-- The segments taken as candidates (`m3n3.py:299-312`): the parallel ones that are part of this one. -/
def partsSeg (g : OSeg) (l : List OSeg) : List OSeg := (l.filter fun b => b.axis = g.axis).filter (inSeg g)

/-- `OrthogonalSegment3.is_equal_to_a_union_of_a_part_of_separate_geometries_of_same_type` (`m3n3.py:286-339`). -/
def unionSeg (g : OSeg) (l : List OSeg) : Bool := decide (|g.length - ((partsSeg g l).map OSeg.length).sum| < tol)

/-- `PerpRectangle` (`m3n3.py:354-406`): the axis it is perpendicular to, the coordinate on it, and the bounds along the next two axes. -/
structure PRect where
  axis : Fin 3
  face : ℚ
  bounds0 : ℚ × ℚ
  bounds1 : ℚ × ℚ
  deriving DecidableEq

/-- `area` (`m3n3.py:401-406`). -/
def PRect.area (r : PRect) : ℚ := (r.bounds0.2 - r.bounds0.1) * (r.bounds1.2 - r.bounds1.1)

/-- `PerpRectangle(perp_axis, origin, delta)` (`m3n3.py:356-402`). -/
def mkRect (axis : Fin 3) (o d : P3) : Option PRect :=
  if d.at axis = 0 ∧ |d.at (axis + 1)| > least ∧ |d.at (axis + 2)| > least then
    some ⟨axis, o.at axis, sort2 (o.at (axis + 1)) (o.at (axis + 1) + d.at (axis + 1)), sort2 (o.at (axis + 2)) (o.at (axis + 2) + d.at (axis + 2))⟩
  else none

/-- `PerpRectangle.__eq__` (`m3n3.py:408-426`). -/
def eqRect (a b : PRect) : Bool :=
  if a.axis ≠ b.axis ∨ |a.face - b.face| > tol then false
  else if |a.bounds0.1 - b.bounds0.1| > tol ∨ |b.bounds0.2 - a.bounds0.2| > tol then false
  else if |a.bounds1.1 - b.bounds1.1| > tol ∨ |b.bounds1.2 - a.bounds1.2| > tol then false else true

/-- `PerpRectangle.whether_contain__input__as_a_part_of_same_type` (`m3n3.py:434-451`). -/
def inRect (a b : PRect) : Bool :=
  if a.axis ≠ b.axis ∨ |a.face - b.face| > tol then false
  else if a.bounds0.1 - b.bounds0.1 > tol ∨ b.bounds0.2 - a.bounds0.2 > tol then false
  else if a.bounds1.1 - b.bounds1.1 > tol ∨ b.bounds1.2 - a.bounds1.2 > tol then false else true

/-- The rectangles taken as candidates (`m3n3.py:466-479`). -/
def partsRect (g : PRect) (l : List PRect) : List PRect := (l.filter fun b => b.axis = g.axis ∧ |g.face - b.face| < tol).filter (inRect g)

/-- `PerpRectangle.is_equal_to_a_union_of_a_part_of_separate_geometries_of_same_type` (`m3n3.py:453-489`). -/
def unionRect (g : PRect) (l : List PRect) : Bool := decide (|g.area - ((partsRect g l).map PRect.area).sum| < tolA)

/-- `OrthogonalHexahedron` (`m3n3.py:492-524`): its center, its sides and its bounds. -/
structure Hexa where
  center : P3
  sides : P3
  bounds0 : ℚ × ℚ
  bounds1 : ℚ × ℚ
  bounds2 : ℚ × ℚ
  deriving DecidableEq

/-- `volume` (`m3n3.py:513-525`), from the bounds. -/
def Hexa.volume (h : Hexa) : ℚ := (h.bounds0.2 - h.bounds0.1) * (h.bounds1.2 - h.bounds1.1) * (h.bounds2.2 - h.bounds2.1)

/-- `OrthogonalHexahedron(origin, delta)` (`m3n3.py:494-520`). The bounds along x are made with `dy`, as in the code. -/
def mkHexa (o d : P3) : Option Hexa :=
  if |d.1| > least ∧ |d.2.1| > least ∧ |d.2.2| > least then
    some ⟨(o.1 + d.1 / 2, o.2.1 + d.2.1 / 2, o.2.2 + d.2.2 / 2), (|d.1|, |d.2.1|, |d.2.2|),
      sort2 o.1 (o.1 + d.2.1), sort2 o.2.1 (o.2.1 + d.2.1), sort2 o.2.2 (o.2.2 + d.2.2)⟩
  else none

/-- `OrthogonalHexahedron.__eq__` (`m3n3.py:527-544`). -/
def eqHexa (a b : Hexa) : Bool := eqPoint a.center b.center && eqPoint a.sides b.sides

/-- `OrthogonalHexahedron.whether_contain__input__as_a_part_of_same_type` (`m3n3.py:546-564`). -/
def inHexa (a b : Hexa) : Bool :=
  if a.bounds0.1 - b.bounds0.1 > tol ∨ b.bounds0.2 - a.bounds0.2 > tol then false
  else if a.bounds1.1 - b.bounds1.1 > tol ∨ b.bounds1.2 - a.bounds1.2 > tol then false
  else if a.bounds2.1 - b.bounds2.1 > tol ∨ b.bounds2.2 - a.bounds2.2 > tol then false else true

/-- `OrthogonalHexahedron.is_equal_to_a_union_of_a_part_of_separate_geometries_of_same_type` (`m3n3.py:566-595`). -/
def unionHexa (g : Hexa) (l : List Hexa) : Bool := decide (|g.volume - ((l.filter (inHexa g)).map Hexa.volume).sum| < tolA)

/-! ### The dofs of an element -/

/-- The entry of `arange(off, off + n0 * n1 * n2).reshape((n0, n1, n2), order='F')` at `(i, j, k)`. -/
def numF (off n0 n1 i j k : ℕ) : ℕ := off + i + n0 * j + n0 * n1 * k

/-- `np.where(numbering == d)` of that array. -/
def whereF (off n0 n1 n2 d : ℕ) : List (ℕ × ℕ × ℕ) :=
  (List.range n0).flatMap fun i => (List.range n1).flatMap fun j => ((List.range n2).filter fun k => numF off n0 n1 i j k = d).map fun k => (i, j, k)

/-- An orthogonal hexahedron as an element: origin, sides, degree and nodes (the nodes of a degree are `px + 1` numbers, here a function of the
index). -/
structure Elem3 where
  origin : P3
  delta : P3
  p : ℕ × ℕ × ℕ
  X : ℕ → ℚ
  Y : ℕ → ℚ
  Z : ℕ → ℚ

/-- `ct.mapping` (`orthogonal_hexahedron.py:315-323`). -/
def Elem3.map (e : Elem3) (xi et sg : ℚ) : P3 :=
  (e.origin.1 + (xi + 1) * (e.delta.1 / 2), e.origin.2.1 + (et + 1) * (e.delta.2.1 / 2), e.origin.2.2 + (sg + 1) * (e.delta.2.2 / 2))

/-- `_find_geo_local_dof_m3n3k0_` (`findLocalDof_Lambda.py:172-195`; numbering `ln_m3n3k0.py:19-29`). -/
def point3 (e : Elem3) (d : ℕ) : Option P3 :=
  match whereF 0 (e.p.1 + 1) (e.p.2.1 + 1) (e.p.2.2 + 1) d with
  | [(i, j, k)] => some (e.map (e.X i) (e.Y j) (e.Z k))
  | _ => none

/-- The numbers of segments along x and y (`ln_m3n3k1.py:25-26`). -/
def cnt1 (p : ℕ × ℕ × ℕ) : ℕ × ℕ := (p.1 * (p.2.1 + 1) * (p.2.2 + 1), (p.1 + 1) * p.2.1 * (p.2.2 + 1))

/-- `_find_geo_local_dof_m3n3k1_` (`findLocalDof_Lambda.py:198-271`; numbering `ln_m3n3k1.py:19-38`). The assertions of the first branch are the
empty lists of its pattern. -/
def edge3 (e : Elem3) (d : ℕ) : Option OSeg :=
  match whereF 0 e.p.1 (e.p.2.1 + 1) (e.p.2.2 + 1) d, whereF (cnt1 e.p).1 (e.p.1 + 1) e.p.2.1 (e.p.2.2 + 1) d,
      whereF ((cnt1 e.p).1 + (cnt1 e.p).2) (e.p.1 + 1) (e.p.2.1 + 1) e.p.2.2 d with
  | [(i, j, k)], [], [] =>
    let a := e.map (e.X i) (e.Y j) (e.Z k)
    let b := e.map (e.X (i + 1)) (e.Y j) (e.Z k)
    mkSeg 0 a (b.1 - a.1)
  | [_], _, _ => none
  | _, [(i, j, k)], _ =>
    let a := e.map (e.X i) (e.Y j) (e.Z k)
    let b := e.map (e.X i) (e.Y (j + 1)) (e.Z k)
    mkSeg 1 a (b.2.1 - a.2.1)
  | _, _, [(i, j, k)] =>
    let a := e.map (e.X i) (e.Y j) (e.Z k)
    let b := e.map (e.X i) (e.Y j) (e.Z (k + 1))
    mkSeg 2 a (b.2.2 - a.2.2)
  | _, _, _ => none

/-- The numbers of rectangles across x and y (`ln_m3n3k2.py:26-27`). -/
def cnt2 (p : ℕ × ℕ × ℕ) : ℕ × ℕ := ((p.1 + 1) * p.2.1 * p.2.2, p.1 * (p.2.1 + 1) * p.2.2)

/-- `_find_geo_local_dof_m3n3k2_` (`findLocalDof_Lambda.py:274-369`; numbering `ln_m3n3k2.py:19-39`). -/
def face3 (e : Elem3) (d : ℕ) : Option PRect :=
  match whereF 0 (e.p.1 + 1) e.p.2.1 e.p.2.2 d, whereF (cnt2 e.p).1 e.p.1 (e.p.2.1 + 1) e.p.2.2 d,
      whereF ((cnt2 e.p).1 + (cnt2 e.p).2) e.p.1 e.p.2.1 (e.p.2.2 + 1) d with
  | [(i, j, k)], [], [] =>
    let a := e.map (e.X i) (e.Y j) (e.Z k)
    let b := e.map (e.X i) (e.Y (j + 1)) (e.Z k)
    let c := e.map (e.X i) (e.Y j) (e.Z (k + 1))
    mkRect 0 a (0, b.2.1 - a.2.1, c.2.2 - a.2.2)
  | [_], _, _ => none
  | _, [(i, j, k)], _ =>
    let a := e.map (e.X i) (e.Y j) (e.Z k)
    let b := e.map (e.X (i + 1)) (e.Y j) (e.Z k)
    let c := e.map (e.X i) (e.Y j) (e.Z (k + 1))
    mkRect 1 a (b.1 - a.1, 0, c.2.2 - a.2.2)
  | _, _, [(i, j, k)] =>
    let a := e.map (e.X i) (e.Y j) (e.Z k)
    let b := e.map (e.X (i + 1)) (e.Y j) (e.Z k)
    let c := e.map (e.X i) (e.Y (j + 1)) (e.Z k)
    mkRect 2 a (b.1 - a.1, c.2.1 - a.2.1, 0)
  | _, _, _ => none

/-- `_find_geo_local_dof_m3n3k3_` (`findLocalDof_Lambda.py:372-406`; numbering `ln_m3n3k3.py:19-29`). The second mapped point has `et_0` as its
third coordinate, as in the code. -/
def cell3 (e : Elem3) (d : ℕ) : Option Hexa :=
  match whereF 0 e.p.1 e.p.2.1 e.p.2.2 d with
  | [(i, j, k)] =>
    let a := e.map (e.X i) (e.Y j) (e.Z k)
    let b := e.map (e.X (i + 1)) (e.Y j) (e.Y j)
    let c := e.map (e.X i) (e.Y (j + 1)) (e.Z k)
    let f := e.map (e.X i) (e.Y j) (e.Z (k + 1))
    mkHexa a (b.1 - a.1, c.2.1 - a.2.1, f.2.2 - a.2.2)
  | _ => none

/-- A quadrilateral as an element: its mapping, degree and nodes. -/
structure Elem2 where
  map : ℚ → ℚ → ℚ × ℚ
  p : ℕ × ℕ
  X : ℕ → ℚ
  Y : ℕ → ℚ

/-- `_find_geo_local_dof_m2n2k0_` (`findLocalDof_Lambda.py:27-47`; numbering `ln_m2n2k0.py:27-37`). An array with two indices is one with a single
layer. -/
def point2 (e : Elem2) (d : ℕ) : Option (ℚ × ℚ) :=
  match whereF 0 (e.p.1 + 1) (e.p.2 + 1) 1 d with
  | [(i, j, _)] => some (e.map (e.X i) (e.Y j))
  | _ => none

/-- The two cases of an edge, with `edge == 'dy'` first (`findLocalDof_Lambda.py:62-90`, `106-134`): its two end points. That they are not too
close, an assertion of `StraightSegment2` on the distance, is not modelled. -/
def ends (e : Elem2) (dy dx : List (ℕ × ℕ × ℕ)) : Option ((ℚ × ℚ) × (ℚ × ℚ)) :=
  match dy, dx with
  | [(i, j, _)], [] => some (e.map (e.X i) (e.Y j), e.map (e.X i) (e.Y (j + 1)))
  | [_], _ => none
  | _, [(i, j, _)] => some (e.map (e.X i) (e.Y j), e.map (e.X (i + 1)) (e.Y j))
  | _, _ => none

/-- `_find_geo_local_dof_m2n2k1_inner_` (`findLocalDof_Lambda.py:50-92`; numbering `ln_m2n2k1.py:111-125`): the edges along x come first. -/
def edgeInner (e : Elem2) (d : ℕ) : Option ((ℚ × ℚ) × (ℚ × ℚ)) :=
  ends e (whereF (e.p.1 * (e.p.2 + 1)) (e.p.1 + 1) e.p.2 1 d) (whereF 0 e.p.1 (e.p.2 + 1) 1 d)

/-- `_find_geo_local_dof_m2n2k1_outer_` (`findLocalDof_Lambda.py:95-137`; numbering `ln_m2n2k1.py:28-42`): the edges along y come first. -/
def edgeOuter (e : Elem2) (d : ℕ) : Option ((ℚ × ℚ) × (ℚ × ℚ)) :=
  ends e (whereF 0 (e.p.1 + 1) e.p.2 1 d) (whereF ((e.p.1 + 1) * e.p.2) e.p.1 (e.p.2 + 1) 1 d)

/-- `_find_geo_local_dof_m2n2k2_` (`findLocalDof_Lambda.py:140-169`; numbering `ln_m2n2k2.py:24-34`): the corners of the polygon. Only two opposite
corners are mapped. -/
def cell2 (e : Elem2) (d : ℕ) : Option (List (ℚ × ℚ)) :=
  match whereF 0 e.p.1 e.p.2 1 d with
  | [(i, j, _)] =>
    let a := e.map (e.X i) (e.Y j)
    let b := e.map (e.X (i + 1)) (e.Y (j + 1))
    some [a, (b.1, a.2), b, (a.1, b.2)]
  | _ => none

end Phyem.Boxes
