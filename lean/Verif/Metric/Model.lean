import Mathlib.Algebra.Field.Basic
import Mathlib.Data.List.Range

/-!
Model of the metric quantities of an element: `msepy/mesh/coordinate_transformation.py:170-400` and, with the
same formulas, `msehtt/static/mesh/great/elements/types/base.py:628-851`; of the constants an orthogonal
rectangle or hexahedron keeps instead (`orthogonal_rectangle.py:338-400`, `orthogonal_hexahedron.py:370-440`); and of the
scaling of a region's Jacobian matrix to an element (`coordinate_transformation.py:96-168`).

Simplifications: exact arithmetic in a field; one element and one point at a time (the code computes the same
entries for arrays of points); the caches are those of `ArrayCache`. A Jacobian matrix is a function of row and
column (`jm[i][j]`); `m` is the dimension of the space, `n` that of the element.
-/

namespace Phyem.Metric

variable {K : Type} [Field K]

/-- The explicit determinants (`coordinate_transformation.py:184-194`, `base.py:711-724`): `none` is the
exception for other dimensions. -/
def jacobian (m n : ℕ) (jm : ℕ → ℕ → K) : Option K :=
  if m = 1 ∧ n = 1 then some (jm 0 0)
  else if m = 2 ∧ n = 2 then some (jm 0 0 * jm 1 1 - jm 0 1 * jm 1 0)
  else if m = 3 ∧ n = 3 then some
    (jm 0 0 * jm 1 1 * jm 2 2 + jm 0 1 * jm 1 2 * jm 2 0
      + jm 0 2 * jm 1 0 * jm 2 1 - jm 0 0 * jm 1 2 * jm 2 1
      - jm 0 1 * jm 1 0 * jm 2 2 - jm 0 2 * jm 1 1 * jm 2 0)
  else none

/-- `metric` (`coordinate_transformation.py:200-224`, `base.py:743-749`): the square of the Jacobian, only for
`m == n`. -/
def metric (m n : ℕ) (jm : ℕ → ℕ → K) : Option K :=
  match jacobian m n jm with
  | none => none
  | some d => if m = n then some (d ^ 2) else none

/-- A nested list given by its rows, read at `[i][j]`. -/
def rows (l : List (List K)) (i j : ℕ) : K := (l.getD i []).getD j 0

/-- `inverse_Jacobian_matrix` (`coordinate_transformation.py:226-284`, `base.py:648-697`); `none`: not implemented.
Division by a zero determinant gives infinities in numpy; here it gives 0, and the theorems ask for a determinant
different from zero. -/
def inverseJM (m n : ℕ) (jm : ℕ → ℕ → K) : Option (List (List K)) :=
  if m = 1 ∧ n = 1 then some [[1 / jm 0 0]]
  else if m = 2 ∧ n = 2 then
    let r := 1 / (jm 0 0 * jm 1 1 - jm 0 1 * jm 1 0)
    some [[r * jm 1 1, - r * jm 0 1], [- r * jm 1 0, r * jm 0 0]]
  else if m = 3 ∧ n = 3 then
    let r := 1 / (jm 0 0 * jm 1 1 * jm 2 2 + jm 0 1 * jm 1 2 * jm 2 0
      + jm 0 2 * jm 1 0 * jm 2 1 - jm 0 0 * jm 1 2 * jm 2 1
      - jm 0 1 * jm 1 0 * jm 2 2 - jm 0 2 * jm 1 1 * jm 2 0)
    some
      [[r * (jm 1 1 * jm 2 2 - jm 1 2 * jm 2 1), r * (jm 2 1 * jm 0 2 - jm 2 2 * jm 0 1),
          r * (jm 0 1 * jm 1 2 - jm 0 2 * jm 1 1)],
        [r * (jm 1 2 * jm 2 0 - jm 1 0 * jm 2 2), r * (jm 2 2 * jm 0 0 - jm 2 0 * jm 0 2),
          r * (jm 0 2 * jm 1 0 - jm 0 0 * jm 1 2)],
        [r * (jm 1 0 * jm 2 1 - jm 1 1 * jm 2 0), r * (jm 2 0 * jm 0 1 - jm 2 1 * jm 0 0),
          r * (jm 0 0 * jm 1 1 - jm 0 1 * jm 1 0)]]
  else none

/-- `inverse_Jacobian` (`coordinate_transformation.py:286-318`, `base.py:769-789`): the same determinant formula
on the inverse Jacobian matrix. -/
def inverseJacobian (m n : ℕ) (jm : ℕ → ℕ → K) : Option K :=
  match inverseJM m n jm with
  | none => none
  | some l => jacobian m n (rows l)

/-- The inner loop of `metric_matrix`: `G[i][j] = jm[0][i]*jm[0][j]; for L in range(1, m): G[i][j] += …`. -/
def gsum (m : ℕ) (jm : ℕ → ℕ → K) (i j : ℕ) : K :=
  (List.range' 1 (m - 1)).foldl (fun g L => g + jm L i * jm L j) (jm 0 i * jm 0 j)

/-- `metric_matrix` (`coordinate_transformation.py:320-357`, `base.py:805-818`): entry `[i][j]`. The loop fills
`j ≥ i` and copies to `[j][i]`. -/
def metricMatrix (m n : ℕ) (jm : ℕ → ℕ → K) (i j : ℕ) : Option K :=
  if i < n ∧ j < n then (if i ≤ j then some (gsum m jm i j) else some (gsum m jm j i)) else none

/-- The inner loop of `inverse_metric_matrix`. -/
def igsum (n : ℕ) (ijm : ℕ → ℕ → K) (i j : ℕ) : K :=
  (List.range' 1 (n - 1)).foldl (fun g L => g + ijm i L * ijm j L) (ijm i 0 * ijm j 0)

/-- `inverse_metric_matrix` (`coordinate_transformation.py:359-400`, `base.py:838-851`): entry `[i][j]`. -/
def inverseMetricMatrix (m n : ℕ) (jm : ℕ → ℕ → K) (i j : ℕ) : Option K :=
  match inverseJM m n jm with
  | none => none
  | some l =>
    if i < m ∧ j < m then (if i ≤ j then some (igsum n (rows l) i j) else some (igsum n (rows l) j i)) else none

/-- The constants of `___OrthogonalRectangle___` (`orthogonal_rectangle.py:338-371`): Jacobian, metric,
inverse Jacobian, and the matrices row by row. -/
structure Orth (K : Type) where
  jac : K
  met : K
  ijac : K
  jm : List (List K)
  ijm : List (List K)
  mm : List (List K)
  imm : List (List K)

/-- `___OrthogonalRectangle___.__init__`. -/
def orth2 (rx ry : K) : Orth K :=
  let jac := rx * ry
  let r := 1 / jac
  let i00 := r * ry
  let i11 := r * rx
  { jac := jac, met := jac ^ 2, ijac := i00 * i11
    jm := [[rx, 0], [0, ry]]
    ijm := [[i00, 0], [0, i11]]
    mm := [[rx ^ 2, 0], [0, ry ^ 2]]
    imm := [[i00 ^ 2, 0], [0, i11 ^ 2]] }

/-- `___Orthogonal_Hexahedron___.__init__` (`orthogonal_hexahedron.py:372-411`). -/
def orth3 (rx ry rz : K) : Orth K :=
  let jac := rx * ry * rz
  let r := 1 / jac
  let i00 := r * ry * rz
  let i11 := r * rz * rx
  let i22 := r * rx * ry
  { jac := jac, met := jac ^ 2, ijac := i00 * i11 * i22
    jm := [[rx, 0, 0], [0, ry, 0], [0, 0, rz]]
    ijm := [[i00, 0, 0], [0, i11, 0], [0, 0, i22]]
    mm := [[rx ^ 2, 0, 0], [0, ry ^ 2, 0], [0, 0, rz ^ 2]]
    imm := [[i00 ^ 2, 0, 0], [0, i11 ^ 2, 0], [0, 0, i22 ^ 2]] }

/-! ### From the region to the element -/

/-- An entry of a region's Jacobian matrix: the integer 0, or an array object (its identity). -/
inductive Entry
  | zero
  | arr (id : ℕ)
  deriving DecidableEq

/-- The loop over `i`, `j` of `Jacobian_matrix` (`coordinate_transformation.py:151-166`): `jm_ij *= ref_Jacobian[j]`
works in place on the array object. `heap id` is the value of the array (at one point of one element). -/
def scaleAll (r : ℕ → K) :
    List (ℕ × ℕ) → (ℕ → ℕ → Entry) → (ℕ → K) → (ℕ → K)
  | [], _, heap => heap
  | (i, j) :: l, jm, heap =>
    scaleAll r l jm (match jm i j with
      | .zero => heap
      | .arr a => fun b => if b = a then heap a * r j else heap b)

/-- The positions in loop order: `for i in range(s0): for j in range(s1)`. -/
def positions (n : ℕ) : List (ℕ × ℕ) :=
  (List.range n).flatMap fun i => (List.range n).map fun j => (i, j)

/-- What the element's `JM[e][i][j]` reads after the loop: `jm_ij[..., k]` is a view of the array, so it shows
the value the array has at the end (`coordinate_transformation.py:163-166`); the entries that are the integer 0
stay 0. `r j` is `delta[j] / 2`. -/
def elementJM (n : ℕ) (r : ℕ → K) (jm : ℕ → ℕ → Entry) (heap : ℕ → K) (i j : ℕ) : K :=
  match jm i j with
  | .zero => 0
  | .arr a => scaleAll r (positions n) jm heap a

/-- The value of an entry as the region returned it. -/
def val (heap : ℕ → K) : Entry → K
  | .zero => 0
  | .arr a => heap a

end Phyem.Metric
