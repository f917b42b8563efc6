import Mathlib.Algebra.Field.Basic
import Mathlib.Data.List.Range

/-!
Model of the one-dimensional polynomials (`msepy/tools/polynomials.py`), of the basis functions of the
spaces (`msepy/space/basis_functions/Lambda.py`) and of the reconstruction
(`msepy/space/reconstruct/Lambda.py`).

Simplifications: exact arithmetic in a field instead of floating point; one evaluation point at a time
(the code evaluates at all points of a grid; `np.kron` of matrices has, in the column of a grid point,
the Kronecker product of the columns); the caches of basis values are those of `ArrayCache`; one
element at a time; the cochain of an element is a function of the local dof.
-/

namespace Phyem.Poly

variable {K : Type} [Field K]

/-- `self.nodes[j]`. -/
def node (xs : List K) (j : ℕ) : K := xs.getD j 0

/-- Row `i` of `lagrange_basis(x)` (`msepy/tools/polynomials.py:108-126`). -/
def lagrange (xs : List K) (i : ℕ) (x : K) : K :=
  (List.range xs.length).foldl
    (fun b j => if i ≠ j then b * ((x - node xs j) / (node xs i - node xs j)) else b) 1

/-- `c_i[k]` of `__derivative_poly_nodes__` (`polynomials.py:194-199`): product of row `k` of `xi_xj`,
whose diagonal is set to 1. -/
def cw (xs : List K) (k : ℕ) : K :=
  ((List.range xs.length).map fun l => if k = l then 1 else node xs k - node xs l).prod

/-- `derivative[k, j]` with the diagonal put to zero (`polynomials.py:200-205`). -/
def off (xs : List K) (k j : ℕ) : K :=
  if k = j then 0 else cw xs k / cw xs j / (node xs k - node xs j)

/-- `__derivative_poly_nodes__` (`polynomials.py:171-208`): entry `[k, j]`. -/
def dmat (xs : List K) (k j : ℕ) : K :=
  if k = j then -((List.range xs.length).map fun m => off xs k m).sum else off xs k j

/-- Row `j` of `_derivative_poly_` (`polynomials.py:210-214`): `transpose(D) @ lagrange_basis(x)`. -/
def dpoly (xs : List K) (j : ℕ) (x : K) : K :=
  ((List.range xs.length).map fun k => dmat xs k j * lagrange xs k x).sum

/-- Row `i` of `edge_basis(x)` (`polynomials.py:128-144`). -/
def edge (xs : List K) (i : ℕ) (x : K) : K :=
  (List.range (i + 1)).foldl (fun e j => e - dpoly xs j x) 0

/-- `node_basis(x)`, all rows (`polynomials.py:104-126`). -/
def nodes (xs : List K) (x : K) : List K := (List.range xs.length).map fun i => lagrange xs i x

/-- `edge_basis(x)`, all rows (`polynomials.py:128-144`). -/
def edges (xs : List K) (x : K) : List K := (List.range (xs.length - 1)).map fun i => edge xs i x

/-- `np.kron` of two vectors. -/
def kron (u v : List K) : List K := u.flatMap fun a => v.map fun b => a * b

/-- `np.einsum('ij, ei -> ej', bf, local_cochain[:, o:])` for one element and one point. -/
def dot (bf : List K) (o : ℕ) (c : ℕ → K) : K :=
  ((List.range bf.length).map fun i => bf.getD i 0 * c (o + i)).sum

/-- `_m1_n1_k0` (`basis_functions/Lambda.py:196-199`, `reconstruct/Lambda.py:39-46`). -/
def rec10 (xs : List K) (c : ℕ → K) (x : K) : K := dot (nodes xs x) 0 c

/-- `_m1_n1_k1` on the reference element (`basis_functions/Lambda.py:191-194`,
`reconstruct/Lambda.py:48-62` before the factor `iJ`). -/
def rec11 (xs : List K) (c : ℕ → K) (x : K) : K := dot (edges xs x) 0 c

/-- `_m2_n2_k0` (`basis_functions/Lambda.py:181-189`, `reconstruct/Lambda.py:64-89`). -/
def rec20 (xs ys : List K) (c : ℕ → K) (x y : K) : K := dot (kron (nodes ys y) (nodes xs x)) 0 c

/-- `num_local_dof_components` of inner 1-forms: the length of the first component. -/
def n21i (xs ys : List K) : ℕ := (xs.length - 1) * ys.length

/-- `_m2_n2_k1_inner` on the reference element: `(u, v)` (`basis_functions/Lambda.py:134-145`,
`reconstruct/Lambda.py:91-107`). -/
def rec21i (xs ys : List K) (c : ℕ → K) (x y : K) : K × K :=
  (dot (kron (nodes ys y) (edges xs x)) 0 c, dot (kron (edges ys y) (nodes xs x)) (n21i xs ys) c)

/-- `num_local_dof_components` of outer 1-forms: the length of the first component. -/
def n21o (xs ys : List K) : ℕ := xs.length * (ys.length - 1)

/-- `_m2_n2_k1_outer` on the reference element: `(u, v)` (`basis_functions/Lambda.py:147-158`,
`reconstruct/Lambda.py:151-167`). -/
def rec21o (xs ys : List K) (c : ℕ → K) (x y : K) : K × K :=
  (dot (kron (edges ys y) (nodes xs x)) 0 c, dot (kron (nodes ys y) (edges xs x)) (n21o xs ys) c)

/-- `_m2_n2_k2` on the reference element (`basis_functions/Lambda.py:124-132`,
`reconstruct/Lambda.py:259-283` before the factor `iJ`). -/
def rec22 (xs ys : List K) (c : ℕ → K) (x y : K) : K := dot (kron (edges ys y) (edges xs x)) 0 c

/-- `_m3_n3_k0` (`basis_functions/Lambda.py:112-122`, `reconstruct/Lambda.py:298-323`). -/
def rec30 (xs ys zs : List K) (c : ℕ → K) (x y z : K) : K :=
  dot (kron (kron (nodes zs z) (nodes ys y)) (nodes xs x)) 0 c

/-- `num_local_dof_components` of 1-forms in 3d. -/
def n31 (xs ys zs : List K) : List ℕ :=
  [(xs.length - 1) * ys.length * zs.length, xs.length * (ys.length - 1) * zs.length]

/-- `_m3_n3_k1` on the reference element: `(u, v, w)` (`basis_functions/Lambda.py:90-110`,
`reconstruct/Lambda.py:325-343`). -/
def rec31 (xs ys zs : List K) (c : ℕ → K) (x y z : K) : K × K × K :=
  (dot (kron (kron (nodes zs z) (nodes ys y)) (edges xs x)) 0 c,
   dot (kron (kron (nodes zs z) (edges ys y)) (nodes xs x))
     ((xs.length - 1) * ys.length * zs.length) c,
   dot (kron (kron (edges zs z) (nodes ys y)) (nodes xs x))
     ((xs.length - 1) * ys.length * zs.length + xs.length * (ys.length - 1) * zs.length) c)

/-- `_m3_n3_k2` on the reference element: `(u, v, w)` (`basis_functions/Lambda.py:66-88`,
`reconstruct/Lambda.py:391-409`). -/
def rec32 (xs ys zs : List K) (c : ℕ → K) (x y z : K) : K × K × K :=
  (dot (kron (kron (edges zs z) (edges ys y)) (nodes xs x)) 0 c,
   dot (kron (kron (edges zs z) (nodes ys y)) (edges xs x))
     (xs.length * (ys.length - 1) * (zs.length - 1)) c,
   dot (kron (kron (nodes zs z) (edges ys y)) (edges xs x))
     (xs.length * (ys.length - 1) * (zs.length - 1) +
       (xs.length - 1) * ys.length * (zs.length - 1)) c)

/-- `_m3_n3_k3` on the reference element (`basis_functions/Lambda.py:53-64`,
`reconstruct/Lambda.py:463-485` before the factor `iJ`). -/
def rec33 (xs ys zs : List K) (c : ℕ → K) (x y z : K) : K :=
  dot (kron (kron (edges zs z) (edges ys y)) (edges xs x)) 0 c

/-- The factor `bf * iJ` of `_m1_n1_k1` (`reconstruct/Lambda.py:58`). -/
def push11 (iJ : K) (u : K) : K := u * iJ

/-- Inner 1-forms with the inverse Jacobian matrix `iJ i a` (`reconstruct/Lambda.py:118-131`; the
branches for a scalar zero entry have the same value). -/
def push21i (iJ : ℕ → ℕ → K) (u : K × K) : K × K :=
  (u.1 * iJ 0 0 + u.2 * iJ 1 0, u.1 * iJ 0 1 + u.2 * iJ 1 1)

/-- Outer 1-forms with the inverse Jacobian matrix (`reconstruct/Lambda.py:184-194`). -/
def push21o (iJ : ℕ → ℕ → K) (u : K × K) : K × K :=
  (u.1 * iJ 1 1 - u.2 * iJ 0 1, -u.1 * iJ 1 0 + u.2 * iJ 0 0)

/-- 1-forms in 3d with the inverse Jacobian matrix (`reconstruct/Lambda.py:363-365`). -/
def push31 (iJ : ℕ → ℕ → K) (u : K × K × K) : K × K × K :=
  (u.1 * iJ 0 0 + u.2.1 * iJ 1 0 + u.2.2 * iJ 2 0,
   u.1 * iJ 0 1 + u.2.1 * iJ 1 1 + u.2.2 * iJ 2 1,
   u.1 * iJ 0 2 + u.2.1 * iJ 1 2 + u.2.2 * iJ 2 2)

/-- 2-forms in 3d with the inverse Jacobian matrix (`reconstruct/Lambda.py:424-437`). -/
def push32 (ij : ℕ → ℕ → K) (u : K × K × K) : K × K × K :=
  (u.1 * (ij 1 1 * ij 2 2 - ij 1 2 * ij 2 1) + u.2.1 * (ij 2 1 * ij 0 2 - ij 2 2 * ij 0 1) +
     u.2.2 * (ij 0 1 * ij 1 2 - ij 0 2 * ij 1 1),
   u.1 * (ij 1 2 * ij 2 0 - ij 1 0 * ij 2 2) + u.2.1 * (ij 2 2 * ij 0 0 - ij 2 0 * ij 0 2) +
     u.2.2 * (ij 0 2 * ij 1 0 - ij 0 0 * ij 1 2),
   u.1 * (ij 1 0 * ij 2 1 - ij 1 1 * ij 2 0) + u.2.1 * (ij 2 0 * ij 0 1 - ij 2 1 * ij 0 0) +
     u.2.2 * (ij 0 0 * ij 1 1 - ij 0 1 * ij 1 0))

end Phyem.Poly
