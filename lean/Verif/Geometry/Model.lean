import Mathlib.Analysis.SpecialFunctions.Trigonometric.Inverse
import Mathlib.Analysis.SpecialFunctions.Sqrt

/-!
Model of the coordinate transformations: the predefined msepy regions (`msepy/manifold/predefined/crazy.py`,
`crazy_multi.py`, `backward_step.py`, `cylinder_channel.py`, `_helpers.py`), the curves and the transfinite mapping they
use (`tools/functions/space/_2d/`), the chaotic msehtt regions (`msehtt/static/manifold/predefined/chaotic.py`) and the
element types of the great mesh (`msehtt/static/mesh/great/elements/types/`).

Simplifications: real arithmetic instead of floating point (`sin`, `arccos`, `sqrt` are the real functions); one point
at a time; a Jacobian matrix is a list of rows. `np.linalg.inv` of a constant matrix is its exact inverse, written out.
-/

namespace Phyem.Geometry

open Real

/-- A nested list read at `[i][j]`. -/
def at2 (l : List (List ℝ)) (i j : ℕ) : ℝ := (l.getD i []).getD j 0

/-! ### crazy -/

/-- `_MesPyRegionCrazyMapping.mapping`, 1d (`crazy.py:219-224`). -/
noncomputable def crazy1 (a b k r : ℝ) : ℝ := (b - a) * (r + 0.5 * k * sin (2 * π * r)) + a

open Classical in
/-- `_MesPyRegionCrazyMapping.mapping`, 2d (`crazy.py:226-237`). -/
noncomputable def crazy2 (a b c d k r s : ℝ) : ℝ × ℝ :=
  if k = 0 then ((b - a) * r + a, (d - c) * s + c)
  else
    ((b - a) * (r + 0.5 * k * sin (2 * π * r) * sin (2 * π * s)) + a,
      (d - c) * (s + 0.5 * k * sin (2 * π * r) * sin (2 * π * s)) + c)

open Classical in
/-- `_MesPyRegionCrazyMapping.mapping`, 3d (`crazy.py:239-265`). -/
noncomputable def crazy3 (a b c d e f k r s t : ℝ) : ℝ × ℝ × ℝ :=
  if k = 0 then ((b - a) * r + a, (d - c) * s + c, (f - e) * t + e)
  else
    ((b - a) * (r + 0.5 * k * sin (2 * π * r) * sin (2 * π * s) * sin (2 * π * t)) + a,
      (d - c) * (s + 0.5 * k * sin (2 * π * r) * sin (2 * π * s) * sin (2 * π * t)) + c,
      (f - e) * (t + 0.5 * k * sin (2 * π * r) * sin (2 * π * s) * sin (2 * π * t)) + e)

open Classical in
/-- `_MesPyRegionCrazyMapping.Jacobian_matrix`, 1d (`crazy.py:274-281`). -/
noncomputable def crazy1J (a b k r : ℝ) : List (List ℝ) :=
  if k = 0 then [[b - a]] else [[(b - a) + (b - a) * 2 * π * 0.5 * k * cos (2 * π * r)]]

open Classical in
/-- `_MesPyRegionCrazyMapping.Jacobian_matrix`, 2d (`crazy.py:283-300`). -/
noncomputable def crazy2J (a b c d k r s : ℝ) : List (List ℝ) :=
  if k = 0 then [[b - a, 0], [0, d - c]]
  else
    [[(b - a) + (b - a) * 2 * π * 0.5 * k * cos (2 * π * r) * sin (2 * π * s),
        (b - a) * 2 * π * 0.5 * k * sin (2 * π * r) * cos (2 * π * s)],
      [(d - c) * 2 * π * 0.5 * k * cos (2 * π * r) * sin (2 * π * s),
        (d - c) + (d - c) * 2 * π * 0.5 * k * sin (2 * π * r) * cos (2 * π * s)]]

open Classical in
/-- `_MesPyRegionCrazyMapping.Jacobian_matrix`, 3d (`crazy.py:302-345`). -/
noncomputable def crazy3J (a b c d e f k r s t : ℝ) : List (List ℝ) :=
  if k = 0 then [[b - a, 0, 0], [0, d - c, 0], [0, 0, f - e]]
  else
    [[(b - a) + (b - a) * 2 * π * 0.5 * k * cos (2 * π * r) * sin (2 * π * s) * sin (2 * π * t),
        (b - a) * 2 * π * 0.5 * k * sin (2 * π * r) * cos (2 * π * s) * sin (2 * π * t),
        (b - a) * 2 * π * 0.5 * k * sin (2 * π * r) * sin (2 * π * s) * cos (2 * π * t)],
      [(d - c) * 2 * π * 0.5 * k * cos (2 * π * r) * sin (2 * π * s) * sin (2 * π * t),
        (d - c) + (d - c) * 2 * π * 0.5 * k * sin (2 * π * r) * cos (2 * π * s) * sin (2 * π * t),
        (d - c) * 2 * π * 0.5 * k * sin (2 * π * r) * sin (2 * π * s) * cos (2 * π * t)],
      [(f - e) * 2 * π * 0.5 * k * cos (2 * π * r) * sin (2 * π * s) * sin (2 * π * t),
        (f - e) * 2 * π * 0.5 * k * sin (2 * π * r) * cos (2 * π * s) * sin (2 * π * t),
        (f - e) + (f - e) * 2 * π * 0.5 * k * sin (2 * π * r) * sin (2 * π * s) * cos (2 * π * t)]]

/-! ### Linear transformation -/

open Classical in
/-- The loop of `_LinearTransformation.__init__` (`_helpers.py:27-32`): lower bound and extent of every axis; `none` is the
failed assertion `ub > lb`. -/
noncomputable def linBounds : List ℝ → Option (List (ℝ × ℝ))
  | lb :: ub :: l =>
    if lb < ub then (match linBounds l with
      | none => none
      | some p => some ((lb, ub - lb) :: p)) else none
  | _ => some []

/-- `_LinearTransformation.__init__` with its assertion on the number of bounds (`_helpers.py:22-34`). -/
noncomputable def linInit (l : List ℝ) : Option (List (ℝ × ℝ)) :=
  if l.length % 2 = 0 ∧ 2 ≤ l.length then linBounds l else none

/-- `_LinearTransformation.mapping` (`_helpers.py:36-44`). -/
noncomputable def linMap (p : List (ℝ × ℝ)) (rst : List ℝ) : Option (List ℝ) :=
  if rst.length = p.length then some (List.zipWith (fun q r => r * q.2 + q.1) p rst) else none

/-- `_LinearTransformation.Jacobian_matrix` (`_helpers.py:46-54`). -/
noncomputable def linJ (p : List (ℝ × ℝ)) (rst : List ℝ) : Option (List (List ℝ)) :=
  if rst.length = p.length then
    some ((List.range p.length).map fun i => (List.range p.length).map fun j =>
      if i = j then (p.getD i (0, 0)).2 else 0)
  else none

/-! ### Curves -/

/-- `distance` (`tools/functions/space/_2d/distance.py:6-8`). -/
noncomputable def distance (p q : ℝ × ℝ) : ℝ := √((p.1 - q.1) ^ 2 + (p.2 - q.2) ^ 2)

open Classical in
/-- `angle` (`tools/functions/space/_2d/angle.py:6-26`); `np.hypot` is the root of the sum of squares. -/
noncomputable def angle (o p : ℝ × ℝ) : ℝ :=
  let x2 := p.1 - o.1
  let y2 := p.2 - o.2
  let inner := 1 * x2 + 0 * y2
  let len1 := √((1 : ℝ) ^ 2 + 0 ^ 2)
  let len2 := √(x2 ^ 2 + y2 ^ 2)
  if y2 < 0 then 2 * π - arccos (inner / (len1 * len2)) else arccos (inner / (len1 * len2))

/-- A curve of `geo_func2_parser`: `gamma` and `dgamma`. -/
structure Curve where
  gamma : ℝ → ℝ × ℝ
  dgamma : ℝ → ℝ × ℝ

/-- `StraightLine` (`geometrical_functions/straight_line.py`). -/
noncomputable def straightLine (p q : ℝ × ℝ) : Curve where
  gamma o := (p.1 + o * (q.1 - p.1), p.2 + o * (q.2 - p.2))
  dgamma _ := (q.1 - p.1, q.2 - p.2)

/-- The arc once the angles are known (`anticlockwise_arc.py:26-33`, `clockwise_arc.py:25-32`). -/
noncomputable def arcOf (center : ℝ × ℝ) (r t0 t1 : ℝ) : Curve where
  gamma o := (center.1 + r * cos (o * (t1 - t0) + t0), center.2 + r * sin (o * (t1 - t0) + t0))
  dgamma o := (-r * sin (o * (t1 - t0) + t0) * (t1 - t0), r * cos (o * (t1 - t0) + t0) * (t1 - t0))

open Classical in
/-- `ArcAntiClockWise` (`anticlockwise_arc.py:12-24`); `none`: the centre is not at a proper place. -/
noncomputable def arcAnti (center p q : ℝ × ℝ) : Option Curve :=
  if |distance p center - distance q center| < 10e-13 then
    some (arcOf center (distance p center) (angle center p)
      (if angle center q < angle center p then angle center q + 2 * π else angle center q))
  else none

open Classical in
/-- `ArcClockWise` (`clockwise_arc.py:12-23`). -/
noncomputable def arcClock (center p q : ℝ × ℝ) : Option Curve :=
  if |distance p center - distance q center| < 10e-13 then
    some (arcOf center (distance p center) (angle center p)
      (if angle center p < angle center q then angle center q - 2 * π else angle center q))
  else none

/-! ### Transfinite mapping -/

/-- `TransfiniteMapping.mapping`, one coordinate (`transfinite.py:77-92`): `g0 … g3` are that coordinate of
`gamma[0] … gamma[3]`. -/
noncomputable def tf (g0 g1 g2 g3 : ℝ → ℝ) (r s : ℝ) : ℝ :=
  (1 - r) * g3 s + r * g1 s + (1 - s) * g0 r + s * g2 r -
    (1 - r) * ((1 - s) * g0 0 + s * g2 0) - r * ((1 - s) * g0 1 + s * g2 1)

/-- `dx_dr`, `dy_dr` (`transfinite.py:112-121`, `134-143`). -/
noncomputable def tfdr (g0 g1 g2 g3 dg0 dg2 : ℝ → ℝ) (r s : ℝ) : ℝ :=
  -g3 s + g1 s + (1 - s) * dg0 r + s * dg2 r +
    ((1 - s) * g0 0 + s * g2 0) - ((1 - s) * g0 1 + s * g2 1)

/-- `dx_ds`, `dy_ds` (`transfinite.py:123-132`, `145-154`). -/
noncomputable def tfds (g0 g2 dg1 dg3 : ℝ → ℝ) (r s : ℝ) : ℝ :=
  (1 - r) * dg3 s + r * dg1 s - g0 r + g2 r -
    (1 - r) * (-g0 0 + g2 0) - r * (-g0 1 + g2 1)

/-- `_Transfinite2.mapping` (`_helpers.py:106-131`): the curves are given as `x0, x1, y0, y1` and used as
`gamma = [y0, x1, y1, x0]`. -/
noncomputable def tfMap (x0 x1 y0 y1 : Curve) (r s : ℝ) : ℝ × ℝ :=
  (tf (fun o => (y0.gamma o).1) (fun o => (x1.gamma o).1) (fun o => (y1.gamma o).1) (fun o => (x0.gamma o).1) r s,
    tf (fun o => (y0.gamma o).2) (fun o => (x1.gamma o).2) (fun o => (y1.gamma o).2) (fun o => (x0.gamma o).2) r s)

/-- `_Transfinite2.Jacobian_matrix` (`_helpers.py:133-138`). -/
noncomputable def tfJ (x0 x1 y0 y1 : Curve) (r s : ℝ) : List (List ℝ) :=
  [[tfdr (fun o => (y0.gamma o).1) (fun o => (x1.gamma o).1) (fun o => (y1.gamma o).1) (fun o => (x0.gamma o).1)
        (fun o => (y0.dgamma o).1) (fun o => (y1.dgamma o).1) r s,
      tfds (fun o => (y0.gamma o).1) (fun o => (y1.gamma o).1) (fun o => (x1.dgamma o).1) (fun o => (x0.dgamma o).1)
        r s],
    [tfdr (fun o => (y0.gamma o).2) (fun o => (x1.gamma o).2) (fun o => (y1.gamma o).2) (fun o => (x0.gamma o).2)
        (fun o => (y0.dgamma o).2) (fun o => (y1.dgamma o).2) r s,
      tfds (fun o => (y0.gamma o).2) (fun o => (y1.gamma o).2) (fun o => (x1.dgamma o).2) (fun o => (x0.dgamma o).2)
        r s]]

/-! ### Bilinear quadrilaterals -/

/-- `___A___` (`vtu_9_quad.py:22-27`, `chaotic.py:12-17`). -/
def quadA : List (List ℝ) := [[1, 0, 0, 0], [1, 1, 0, 0], [1, 1, 1, 1], [1, 0, 1, 0]]

/-- `___invA___ = np.linalg.inv(___A___)`. -/
def quadInvA : List (List ℝ) := [[1, 0, 0, 0], [-1, 1, 0, 0], [-1, 0, 0, 1], [1, -1, 1, -1]]

/-- Row `i` of a matrix times a vector. -/
noncomputable def dot (row v : List ℝ) : ℝ := (List.zipWith (· * ·) row v).sum

/-- `alpha = ___invA___ @ x` (`vtu_9_quad.py:361-362`). -/
noncomputable def quadCoef (x : List ℝ) : List ℝ := quadInvA.map fun row => dot row x

/-- `a1 + a2 * r + a3 * s + a4 * r * s`. -/
noncomputable def bilin (a : List ℝ) (r s : ℝ) : ℝ :=
  a.getD 0 0 + a.getD 1 0 * r + a.getD 2 0 * s + a.getD 3 0 * r * s

/-- `Vtu9Quad_CT.mapping` (`vtu_9_quad.py:369-377`): `x`, `y` are the coordinates of the four nodes. -/
noncomputable def quadMap (x y : List ℝ) (xi et : ℝ) : ℝ × ℝ :=
  (bilin (quadCoef x) ((xi + 1) * 0.5) ((et + 1) * 0.5), bilin (quadCoef y) ((xi + 1) * 0.5) ((et + 1) * 0.5))

/-- `Vtu9Quad_CT.___Jacobian_matrix___` (`vtu_9_quad.py:379-398`). -/
noncomputable def quadJ (x y : List ℝ) (xi et : ℝ) : List (List ℝ) :=
  let r := (xi + 1) * 0.5
  let s := (et + 1) * 0.5
  let a := quadCoef x
  let b := quadCoef y
  [[(a.getD 1 0 + a.getD 3 0 * s) * 0.5, (a.getD 2 0 + a.getD 3 0 * r) * 0.5],
    [(b.getD 1 0 + b.getD 3 0 * s) * 0.5, (b.getD 2 0 + b.getD 3 0 * r) * 0.5]]

/-! ### Triangles -/

/-- `___invA___` (`vtu_5_triangle.py:163-167`). -/
noncomputable def triInvA : List (List ℝ) := [[-0.5, 0, 0.5], [0.25, -0.5, 0.25], [0.25, 0.5, 0.25]]

/-- Row of `T = X @ ___invA___` (`vtu_5_triangle.py:202-214`): `x` are the coordinates of the three nodes along one axis. -/
noncomputable def triCoef (x : List ℝ) : List ℝ := (List.range 3).map fun j => dot x (triInvA.map fun row => row.getD j 0)

/-- `Vtu5Triangle_CT.mapping` (`vtu_5_triangle.py:218-226`). -/
noncomputable def triMap (x y : List ℝ) (xi et : ℝ) : ℝ × ℝ :=
  let r := xi
  let s := et * (xi + 1) / 2
  ((triCoef x).getD 0 0 * r + (triCoef x).getD 1 0 * s + (triCoef x).getD 2 0 * 1,
    (triCoef y).getD 0 0 * r + (triCoef y).getD 1 0 * s + (triCoef y).getD 2 0 * 1)

/-- `Vtu5Triangle_CT.___Jacobian_matrix___` (`vtu_5_triangle.py:228-251`). -/
noncomputable def triJ (x y : List ℝ) (xi et : ℝ) : List (List ℝ) :=
  let dsdxi := et / 2
  let dsdet := (xi + 1) / 2
  [[(triCoef x).getD 0 0 * 1 + (triCoef x).getD 1 0 * dsdxi, (triCoef x).getD 1 0 * dsdet],
    [(triCoef y).getD 0 0 * 1 + (triCoef y).getD 1 0 * dsdxi, (triCoef y).getD 1 0 * dsdet]]

/-! ### Orthogonal elements -/

/-- `MseHttGreatMeshOrthogonalRectangleElementCooTrans.mapping` (`orthogonal_rectangle.py:288-295`). -/
noncomputable def rectMap (ox oy dx dy xi et : ℝ) : ℝ × ℝ := (ox + (xi + 1) * (dx / 2), oy + (et + 1) * (dy / 2))

/-- Its Jacobian matrix, through `___ct_helper_parser___` (`orthogonal_rectangle.py:297-335`): the ratios are rounded
(`round8`) before they are used. -/
noncomputable def rectJ (round8 : ℝ → ℝ) (dx dy : ℝ) : List (List ℝ) := [[round8 (dx / 2), 0], [0, round8 (dy / 2)]]

/-- The orthogonal hexahedron (`orthogonal_hexahedron.py:315-324`, `354-366`). -/
noncomputable def hexMap (ox oy oz dx dy dz xi et sg : ℝ) : ℝ × ℝ × ℝ :=
  (ox + (xi + 1) * (dx / 2), oy + (et + 1) * (dy / 2), oz + (sg + 1) * (dz / 2))

/-- Its Jacobian matrix. -/
noncomputable def hexJ (round8 : ℝ → ℝ) (dx dy dz : ℝ) : List (List ℝ) :=
  [[round8 (dx / 2), 0, 0], [0, round8 (dy / 2), 0], [0, 0, round8 (dz / 2)]]

/-! ### Elements cut out of a region -/

/-- `(_ + 1) * 0.5 * delta + origin` (`msepy/mesh/coordinate_transformation.py:77`,
`unique_msepy_curvilinear_quadrilateral.py:231`). -/
noncomputable def toRegion (o d xi : ℝ) : ℝ := (xi + 1) * 0.5 * d + o

/-- The mapping of an element of a 2d region (`unique_msepy_curvilinear_quadrilateral.py:227-236`,
`msepy/mesh/coordinate_transformation.py:75-81`). -/
noncomputable def elemMap2 (f : ℝ → ℝ → ℝ × ℝ) (o d : ℝ × ℝ) (xi et : ℝ) : ℝ × ℝ :=
  f (toRegion o.1 d.1 xi) (toRegion o.2 d.2 et)

/-- Its Jacobian matrix (`unique_msepy_curvilinear_quadrilateral.py:238-260`): the region's entries times
`delta[j] * 0.5`, when the region returns separate arrays (see `Metric`). -/
noncomputable def elemJ2 (J : ℝ → ℝ → List (List ℝ)) (o d : ℝ × ℝ) (xi et : ℝ) : List (List ℝ) :=
  let jm := J (toRegion o.1 d.1 xi) (toRegion o.2 d.2 et)
  [[at2 jm 0 0 * (d.1 * 0.5), at2 jm 0 1 * (d.2 * 0.5)], [at2 jm 1 0 * (d.1 * 0.5), at2 jm 1 1 * (d.2 * 0.5)]]

/-- The 3d element. -/
noncomputable def elemMap3 (f : ℝ → ℝ → ℝ → ℝ × ℝ × ℝ) (o d : ℝ × ℝ × ℝ) (xi et sg : ℝ) : ℝ × ℝ × ℝ :=
  f (toRegion o.1 d.1 xi) (toRegion o.2.1 d.2.1 et) (toRegion o.2.2 d.2.2 sg)

/-- Its Jacobian matrix (`unique_msepy_curvilinear_hexahedron.py`, `msepy/mesh/coordinate_transformation.py:130-166`). -/
noncomputable def elemJ3 (J : ℝ → ℝ → ℝ → List (List ℝ)) (o d : ℝ × ℝ × ℝ) (xi et sg : ℝ) : List (List ℝ) :=
  let jm := J (toRegion o.1 d.1 xi) (toRegion o.2.1 d.2.1 et) (toRegion o.2.2 d.2.2 sg)
  [[at2 jm 0 0 * (d.1 * 0.5), at2 jm 0 1 * (d.2.1 * 0.5), at2 jm 0 2 * (d.2.2 * 0.5)],
    [at2 jm 1 0 * (d.1 * 0.5), at2 jm 1 1 * (d.2.1 * 0.5), at2 jm 1 2 * (d.2.2 * 0.5)],
    [at2 jm 2 0 * (d.1 * 0.5), at2 jm 2 1 * (d.2.1 * 0.5), at2 jm 2 2 * (d.2.2 * 0.5)]]

/-- The curvilinear triangle (`unique_msepy_curvilinear_triangle.py:251-269`): the collapsed square into the reference
triangle with nodes `(px, py)`, then as an element of the region. -/
noncomputable def ctriMap (f : ℝ → ℝ → ℝ × ℝ) (px py : List ℝ) (o d : ℝ × ℝ) (xi et : ℝ) : ℝ × ℝ :=
  elemMap2 f o d (triMap px py xi et).1 (triMap px py xi et).2

/-- Its Jacobian matrix (`unique_msepy_curvilinear_triangle.py:271-336`). -/
noncomputable def ctriJ (J : ℝ → ℝ → List (List ℝ)) (px py : List ℝ) (o d : ℝ × ℝ) (xi et : ℝ) : List (List ℝ) :=
  let t := triJ px py xi et
  let e := elemJ2 J o d (triMap px py xi et).1 (triMap px py xi et).2
  [[at2 e 0 0 * at2 t 0 0 + at2 e 0 1 * at2 t 1 0, at2 e 0 0 * at2 t 0 1 + at2 e 0 1 * at2 t 1 1],
    [at2 e 1 0 * at2 t 0 0 + at2 e 1 1 * at2 t 1 0, at2 e 1 0 * at2 t 0 1 + at2 e 1 1 * at2 t 1 1]]

/-! ### chaotic -/

open Classical in
/-- `TotalMapping2D.mapping` (`chaotic.py:240-254`): note `c += c` where `y += c` is meant, and that `x`, `y` are not
multiplied by the extents. -/
noncomputable def chaosMap (a b c d k p q : ℝ) : ℝ × ℝ :=
  if k = 0 then (p, q)
  else
    let r := (p - a) / (b - a)
    let s := (q - c) / (d - c)
    (r + 0.5 * k * sin (2 * π * r) * sin (2 * π * s) + a, s + 0.5 * k * sin (2 * π * r) * sin (2 * π * s))

open Classical in
/-- `TotalMapping2D.Jacobian_matrix` (`chaotic.py:256-284`). -/
noncomputable def chaosJ (a b c d k p q : ℝ) : List (List ℝ) :=
  if k = 0 then [[1, 0], [0, 1]]
  else
    let r := (p - a) / (b - a)
    let s := (q - c) / (d - c)
    [[(1 + 0.5 * k * 2 * π * cos (2 * π * r) * sin (2 * π * s)) / (b - a),
        (0.5 * k * sin (2 * π * r) * 2 * π * cos (2 * π * s)) / (d - c)],
      [(0.5 * k * 2 * π * cos (2 * π * r) * sin (2 * π * s)) / (b - a),
        (1 + 0.5 * k * sin (2 * π * r) * 2 * π * cos (2 * π * s)) / (d - c)]]

/-- `_Single_Map_.mapping` (`chaotic.py:191-198`). -/
noncomputable def singleMap (f : ℝ → ℝ → ℝ × ℝ) (x y : List ℝ) (r s : ℝ) : ℝ × ℝ :=
  f (bilin (quadCoef x) r s) (bilin (quadCoef y) r s)

/-- `_Single_Map_.Jacobian_matrix` (`chaotic.py:200-229`). -/
noncomputable def singleJ (J : ℝ → ℝ → List (List ℝ)) (x y : List ℝ) (r s : ℝ) : List (List ℝ) :=
  let a := quadCoef x
  let b := quadCoef y
  let qr := a.getD 1 0 + a.getD 3 0 * s
  let qs := a.getD 2 0 + a.getD 3 0 * r
  let wr := b.getD 1 0 + b.getD 3 0 * s
  let ws := b.getD 2 0 + b.getD 3 0 * r
  let jm := J (bilin a r s) (bilin b r s)
  [[at2 jm 0 0 * qr + at2 jm 0 1 * wr, at2 jm 0 0 * qs + at2 jm 0 1 * ws],
    [at2 jm 1 0 * qr + at2 jm 1 1 * wr, at2 jm 1 0 * qs + at2 jm 1 1 * ws]]

end Phyem.Geometry
