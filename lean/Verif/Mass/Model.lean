import Verif.Poly.Model
import Verif.Metric.Model

/-!
Model of the local mass matrices: `msepy/space/mass_matrix/Lambda.py` and
`msehtt/static/space/mass_matrix/Lambda/MM_*.py`, over any field. A matrix is a function of row and column.
-/

namespace Phyem.Mass

variable {K : Type} [Field K]

/-- What the mass matrix is computed from at one quadrature point: the weight, the Jacobian matrix of the element, and the
values of the basis functions, one list for each component. -/
structure Pt (K : Type) where
  w : K
  jm : ℕ → ℕ → K
  bf : List (List K)

/-- Basis function `i` of component `r`: `bf[r][i, m]`. -/
def comp (q : Pt K) (r i : ℕ) : K := (q.bf.getD r []).getD i 0

/-- `np.einsum('m, im, jm -> ij', metric, bf[r], bf[s])` (`Lambda.py:292-296`). -/
def einsum (pts : List (Pt K)) (met : Pt K → K) (r s i j : ℕ) : K :=
  (pts.map fun q => met q * comp q r i * comp q s j).sum

/-- `ct.Jacobian`, `ct.inverse_Jacobian_matrix` and `ct.inverse_metric_matrix` at a point. -/
def det (n : ℕ) (q : Pt K) : K := (Metric.jacobian n n q.jm).getD 0
def iJ (n : ℕ) (q : Pt K) : ℕ → ℕ → K := Metric.rows ((Metric.inverseJM n n q.jm).getD [])
def g (n : ℕ) (q : Pt K) (i j : ℕ) : K := (Metric.inverseMetricMatrix n n q.jm i j).getD 0

/-- 0-forms (`Lambda.py:197-234`, `_m1_n1_k0`; `MM_m2n2k0.py`, `MM_m3n3k0.py`); `n` is the dimension. -/
def mass0 (n : ℕ) (pts : List (Pt K)) (i j : ℕ) : K := einsum pts (fun q => det n q * q.w) 0 0 i j

/-- Top forms (`Lambda.py:76-95`, `236-255`, `_m1_n1_k1`; `MM_m2n2k2.py`, `MM_m3n3k3.py`). -/
def massTop (n : ℕ) (pts : List (Pt K)) (i j : ℕ) : K := einsum pts (fun q => (det n q)⁻¹ * q.w) 0 0 i j

/-- `bmat` of two by two blocks, the first with `n0` rows and columns. -/
def block2 (n0 : ℕ) (B : ℕ → ℕ → ℕ → ℕ → K) (i j : ℕ) : K :=
  if i < n0 then (if j < n0 then B 0 0 i j else B 0 1 i (j - n0))
  else (if j < n0 then B 1 0 (i - n0) j else B 1 1 (i - n0) (j - n0))

/-- Inner 1-forms in the plane (`Lambda.py:257-290`; `MM_m2n2k1.py:235-400`). `diag`: the blocks off the diagonal are left
out; `msepy` does so for elements of type 'Linear', `msehtt` for orthogonal rectangles. -/
def mass21i (diag : Bool) (pts : List (Pt K)) (n0 : ℕ) : ℕ → ℕ → K :=
  block2 n0 fun r s i j =>
    if r = 0 ∧ s = 0 then einsum pts (fun q => q.w * det 2 q * g 2 q 0 0) 0 0 i j
    else if r = 1 ∧ s = 1 then einsum pts (fun q => q.w * det 2 q * g 2 q 1 1) 1 1 i j
    else if diag then 0
    else if r = 0 then einsum pts (fun q => q.w * det 2 q * g 2 q 0 1) 0 1 i j
    else einsum pts (fun q => q.w * det 2 q * g 2 q 0 1) 0 1 j i

/-- Outer 1-forms in the plane (`Lambda.py:298-331`; `MM_m2n2k1.py:43-205`). -/
def mass21o (diag : Bool) (pts : List (Pt K)) (n0 : ℕ) : ℕ → ℕ → K :=
  block2 n0 fun r s i j =>
    if r = 0 ∧ s = 0 then einsum pts (fun q => q.w * det 2 q * g 2 q 1 1) 0 0 i j
    else if r = 1 ∧ s = 1 then einsum pts (fun q => q.w * det 2 q * g 2 q 0 0) 1 1 i j
    else if diag then 0
    else if r = 0 then -einsum pts (fun q => q.w * det 2 q * g 2 q 1 0) 0 1 i j
    else -einsum pts (fun q => q.w * det 2 q * g 2 q 1 0) 0 1 j i

/-- `bmat` of three by three blocks, the first two with `n0` and `n1` rows and columns. -/
def block3 (n0 n1 : ℕ) (B : ℕ → ℕ → ℕ → ℕ → K) (i j : ℕ) : K :=
  if i < n0 then
    (if j < n0 then B 0 0 i j else if j < n0 + n1 then B 0 1 i (j - n0) else B 0 2 i (j - (n0 + n1)))
  else if i < n0 + n1 then
    (if j < n0 then B 1 0 (i - n0) j else if j < n0 + n1 then B 1 1 (i - n0) (j - n0)
      else B 1 2 (i - n0) (j - (n0 + n1)))
  else
    (if j < n0 then B 2 0 (i - (n0 + n1)) j else if j < n0 + n1 then B 2 1 (i - (n0 + n1)) (j - n0)
      else B 2 2 (i - (n0 + n1)) (j - (n0 + n1)))

/-- 1-forms in space (`Lambda.py:150-195`). `diag`: `msepy` for elements of type 'Linear'; `msehtt` for orthogonal
hexahedra **and** for curvilinear ones (`MM_m3n3k1.py:40-134`). -/
def mass31 (diag : Bool) (pts : List (Pt K)) (n0 n1 : ℕ) : ℕ → ℕ → K :=
  block3 n0 n1 fun r s i j =>
    if r = s then einsum pts (fun q => q.w * det 3 q * g 3 q r r) r r i j
    else if diag then 0
    else if r < s then einsum pts (fun q => q.w * det 3 q * g 3 q r s) r s i j
    else einsum pts (fun q => q.w * det 3 q * g 3 q s r) s r j i

/-- The coefficients of the diagonal blocks of 2-forms in space, for elements of type 'Linear' (`Lambda.py:114-117`) and for
others (`Lambda.py:125-127`). -/
def cofDiag (diag : Bool) (g : ℕ → ℕ → K) (r : ℕ) : K :=
  if diag then
    (if r = 0 then g 1 1 * g 2 2 else if r = 1 then g 2 2 * g 0 0 else g 0 0 * g 1 1)
  else
    (if r = 0 then g 1 1 * g 2 2 - g 1 2 * g 2 1 else if r = 1 then g 2 2 * g 0 0 - g 2 0 * g 0 2
      else g 0 0 * g 1 1 - g 0 1 * g 1 0)

/-- The coefficients of the blocks above the diagonal (`Lambda.py:128-133`). -/
def cofOff (g : ℕ → ℕ → K) (r s : ℕ) : K :=
  if r = 0 ∧ s = 1 then g 1 2 * g 2 0 - g 1 0 * g 2 2
  else if r = 0 ∧ s = 2 then g 1 0 * g 2 1 - g 1 1 * g 2 0
  else g 2 0 * g 0 1 - g 2 1 * g 0 0

/-- 2-forms in space (`Lambda.py:97-148`; `MM_m3n3k2.py:40-134`, where `diag` holds for every element). -/
def mass32 (diag : Bool) (pts : List (Pt K)) (n0 n1 : ℕ) : ℕ → ℕ → K :=
  block3 n0 n1 fun r s i j =>
    if r = s then einsum pts (fun q => q.w * det 3 q * cofDiag diag (g 3 q) r) r r i j
    else if diag then 0
    else if r < s then einsum pts (fun q => q.w * det 3 q * cofOff (g 3 q) r s) r s i j
    else einsum pts (fun q => q.w * det 3 q * cofOff (g 3 q) s r) s r j i

/-! ### The quadrature points of an element -/

/-- The points of the plane: `quad_weights_ravel` (tensor product of the one-dimensional weights, raveled with the first
index fastest, `quadrature.py:149-169`) goes with `meshgrid(…, indexing='ij').ravel('F')` (`basis_functions/Lambda.py`).
`jm x y` is the Jacobian matrix of the element, `bf x y` the values of the basis functions. -/
def grid2 (qx qy : List (K × K)) (jm : K → K → ℕ → ℕ → K) (bf : K → K → List (List K)) : List (Pt K) :=
  qy.flatMap fun y => qx.map fun x => ⟨x.2 * y.2, jm x.1 y.1, bf x.1 y.1⟩

/-- The same in space. -/
def grid3 (qx qy qz : List (K × K)) (jm : K → K → K → ℕ → ℕ → K) (bf : K → K → K → List (List K)) : List (Pt K) :=
  qz.flatMap fun z => qy.flatMap fun y => qx.map fun x =>
    ⟨x.2 * y.2 * z.2, jm x.1 y.1 z.1, bf x.1 y.1 z.1⟩

open Poly in
/-- The basis functions (`basis_functions/Lambda.py:53-189`). -/
def bf20 (xs ys : List K) (x y : K) : List (List K) := [kron (nodes ys y) (nodes xs x)]
open Poly in
def bf21i (xs ys : List K) (x y : K) : List (List K) :=
  [kron (nodes ys y) (edges xs x), kron (edges ys y) (nodes xs x)]
open Poly in
def bf21o (xs ys : List K) (x y : K) : List (List K) :=
  [kron (edges ys y) (nodes xs x), kron (nodes ys y) (edges xs x)]
open Poly in
def bf22 (xs ys : List K) (x y : K) : List (List K) := [kron (edges ys y) (edges xs x)]
open Poly in
def bf30 (xs ys zs : List K) (x y z : K) : List (List K) := [kron (kron (nodes zs z) (nodes ys y)) (nodes xs x)]
open Poly in
def bf31 (xs ys zs : List K) (x y z : K) : List (List K) :=
  [kron (kron (nodes zs z) (nodes ys y)) (edges xs x), kron (kron (nodes zs z) (edges ys y)) (nodes xs x),
    kron (kron (edges zs z) (nodes ys y)) (nodes xs x)]
open Poly in
def bf32 (xs ys zs : List K) (x y z : K) : List (List K) :=
  [kron (kron (edges zs z) (edges ys y)) (nodes xs x), kron (kron (edges zs z) (nodes ys y)) (edges xs x),
    kron (kron (nodes zs z) (edges ys y)) (edges xs x)]
open Poly in
def bf33 (xs ys zs : List K) (x y z : K) : List (List K) := [kron (kron (edges zs z) (edges ys y)) (edges xs x)]

end Phyem.Mass
