import Verif.Poly.Model
import Verif.Mass.Model
import Verif.Triangle.Model

/-!
Model of the two ways of `msehtt` to the values of a form at points of an element: the reconstruction
(`msehtt/static/space/reconstruct/Lambda/Rc_*.py`) and the reconstruction matrices
(`msehtt/static/space/reconstruction_matrix/Lambda/RM_*.py`). One element and one point at a time; over any field. `none` is an
exception (numpy refuses arrays of different lengths; simplification: an array of length one is refused as well). The caches of the
reconstruction matrices are not modelled here (see C41, C42, C77).
-/

namespace Phyem.Recon

variable {K : Type} [Field K]

/-- `np.einsum('ij, i -> j', bf, local)` at one point `j`, and a row of a matrix times a vector. -/
def contract (bf c : List K) : Option K :=
  if bf.length = c.length then some (List.zipWith (· * ·) bf c).sum else none

/-- `u * iJ`: the values of the basis functions of a component times a number. -/
def scale (bf : List K) (a : K) : List K := bf.map (· * a)

/-- `local_cochain[-n:]`. -/
def pyTail (c : List K) (n : ℕ) : List K := if n = 0 then c else c.drop (c.length - n)

/-! ### Reconstruction -/

/-- 0-forms (`Rc_m2n2k0.py:38-53`, `Rc_m3n3k0.py`). -/
def rc0 (bf : List (List K)) (c : List K) : Option (List K) := do
  let v ← contract (bf.getD 0 []) c
  some [v]

/-- Top forms (`Rc_m2n2k2.py:41-71`, `Rc_m3n3k3.py:36-70`): `const` if `iJ` is one number for the element. -/
def rcTop (const : Bool) (iJ : K) (bf : List (List K)) (c : List K) : Option (List K) := do
  if const then
    let v ← contract (bf.getD 0 []) (c.map (iJ * ·))
    some [v]
  else
    if (bf.getD 0 []).length = c.length then
      some [(List.zipWith (fun b x => x * iJ * b) (bf.getD 0 []) c).sum]
    else none

/-- Inner 1-forms in the plane (`Rc_m2n2k1.py:48-90` quadrilaterals with `n0 = px*(py+1)`; `93-135` triangles with the same `n0`).
`z10`: `iJ10` is the number zero, `z01` likewise. -/
def rc21i (z10 z01 : Bool) (iJ : ℕ → ℕ → K) (n0 : ℕ) (bf : List (List K)) (c : List K) : Option (List K) := do
  let u ← contract (bf.getD 0 []) (c.take n0)
  let v ← contract (bf.getD 1 []) (c.drop n0)
  let v0 := if z10 then u * iJ 0 0 else u * iJ 0 0 + v * iJ 1 0
  let v1 := if z01 then v * iJ 1 1 else u * iJ 0 1 + v * iJ 1 1
  some [v0, v1]

/-- Outer 1-forms in the plane (`Rc_m2n2k1.py:181-238` with `n0 = (px+1)*py`; `241-284` triangles with `n0 = px*py`). -/
def rc21o (z10 z01 : Bool) (iJ : ℕ → ℕ → K) (n0 : ℕ) (bf : List (List K)) (c : List K) : Option (List K) := do
  let u ← contract (bf.getD 0 []) (c.take n0)
  let v ← contract (bf.getD 1 []) (c.drop n0)
  let v0 := if z01 then u * iJ 1 1 else u * iJ 1 1 - v * iJ 0 1
  let v1 := if z10 then v * iJ 0 0 else -u * iJ 1 0 + v * iJ 0 0
  some [v0, v1]

/-- The three components of a cochain in space (`Rc_m3n3k1.py:41-49`, `Rc_m3n3k2.py:41-49`). -/
def parts (n0 n1 n2 : ℕ) (bf : List (List K)) (c : List K) : Option (K × K × K) := do
  let u ← contract (bf.getD 0 []) (c.take n0)
  let v ← contract (bf.getD 1 []) ((c.take (n0 + n1)).drop n0)
  let w ← contract (bf.getD 2 []) (pyTail c n2)
  some (u, v, w)

/-- 1-forms in space (`Rc_m3n3k1.py:36-85`). `orth`: the element is an orthogonal hexahedron. -/
def rc31 (orth : Bool) (iJ : ℕ → ℕ → K) (n0 n1 n2 : ℕ) (bf : List (List K)) (c : List K) : Option (List K) := do
  let (u, v, w) ← parts n0 n1 n2 bf c
  if orth then some [u * iJ 0 0, v * iJ 1 1, w * iJ 2 2]
  else some [u * iJ 0 0 + v * iJ 1 0 + w * iJ 2 0, u * iJ 0 1 + v * iJ 1 1 + w * iJ 2 1,
    u * iJ 0 2 + v * iJ 1 2 + w * iJ 2 2]

/-- 2-forms in space (`Rc_m3n3k2.py:36-89`). -/
def rc32 (orth : Bool) (ij : ℕ → ℕ → K) (n0 n1 n2 : ℕ) (bf : List (List K)) (c : List K) : Option (List K) := do
  let (u, v, w) ← parts n0 n1 n2 bf c
  if orth then some [u * ij 1 1 * ij 2 2, v * ij 2 2 * ij 0 0, w * ij 0 0 * ij 1 1]
  else some [
    u * (ij 1 1 * ij 2 2 - ij 1 2 * ij 2 1) + v * (ij 2 1 * ij 0 2 - ij 2 2 * ij 0 1) + w * (ij 0 1 * ij 1 2 - ij 0 2 * ij 1 1),
    u * (ij 1 2 * ij 2 0 - ij 1 0 * ij 2 2) + v * (ij 2 2 * ij 0 0 - ij 2 0 * ij 0 2) + w * (ij 0 2 * ij 1 0 - ij 0 0 * ij 1 2),
    u * (ij 1 0 * ij 2 1 - ij 1 1 * ij 2 0) + v * (ij 2 0 * ij 0 1 - ij 2 1 * ij 0 0) + w * (ij 0 0 * ij 1 1 - ij 0 1 * ij 1 0)]

/-! ### Reconstruction matrices: for each component the row of the point -/

/-- 0-forms (`RM_m2n2k0.py:32-43`, `RM_m3n3k0.py`). -/
def rm0 (bf : List (List K)) : List (List K) := [bf.getD 0 []]

/-- Top forms (`RM_m2n2k2.py:36-60`, `RM_m3n3k3.py:38-62`). -/
def rmTop (iJ : K) (bf : List (List K)) : List (List K) := [scale (bf.getD 0 []) iJ]

/-- Inner 1-forms in the plane (`RM_m2n2k1.py:139-179`, `182-216`). -/
def rm21i (iJ : ℕ → ℕ → K) (bf : List (List K)) : List (List K) :=
  [scale (bf.getD 0 []) (iJ 0 0) ++ scale (bf.getD 1 []) (iJ 1 0),
   scale (bf.getD 0 []) (iJ 0 1) ++ scale (bf.getD 1 []) (iJ 1 1)]

/-- Outer 1-forms in the plane (`RM_m2n2k1.py:37-76`, `79-110`). -/
def rm21o (iJ : ℕ → ℕ → K) (bf : List (List K)) : List (List K) :=
  [scale (bf.getD 0 []) (iJ 1 1) ++ scale ((bf.getD 1 []).map (-·)) (iJ 0 1),
   scale ((bf.getD 0 []).map (-·)) (iJ 1 0) ++ scale (bf.getD 1 []) (iJ 0 0)]

/-- 1-forms in space (`RM_m3n3k1.py:37-80`). -/
def rm31 (iJ : ℕ → ℕ → K) (bf : List (List K)) : List (List K) :=
  [scale (bf.getD 0 []) (iJ 0 0) ++ scale (bf.getD 1 []) (iJ 1 0) ++ scale (bf.getD 2 []) (iJ 2 0),
   scale (bf.getD 0 []) (iJ 0 1) ++ scale (bf.getD 1 []) (iJ 1 1) ++ scale (bf.getD 2 []) (iJ 2 1),
   scale (bf.getD 0 []) (iJ 0 2) ++ scale (bf.getD 1 []) (iJ 1 2) ++ scale (bf.getD 2 []) (iJ 2 2)]

/-- 2-forms in space (`RM_m3n3k2.py:37-80`). -/
def rm32 (ij : ℕ → ℕ → K) (bf : List (List K)) : List (List K) :=
  [scale (bf.getD 0 []) (ij 1 1 * ij 2 2 - ij 1 2 * ij 2 1) ++ scale (bf.getD 1 []) (ij 2 1 * ij 0 2 - ij 2 2 * ij 0 1) ++
     scale (bf.getD 2 []) (ij 0 1 * ij 1 2 - ij 0 2 * ij 1 1),
   scale (bf.getD 0 []) (ij 1 2 * ij 2 0 - ij 1 0 * ij 2 2) ++ scale (bf.getD 1 []) (ij 2 2 * ij 0 0 - ij 2 0 * ij 0 2) ++
     scale (bf.getD 2 []) (ij 0 2 * ij 1 0 - ij 0 0 * ij 1 2),
   scale (bf.getD 0 []) (ij 1 0 * ij 2 1 - ij 1 1 * ij 2 0) ++ scale (bf.getD 1 []) (ij 2 0 * ij 0 1 - ij 2 1 * ij 0 0) ++
     scale (bf.getD 2 []) (ij 0 0 * ij 1 1 - ij 0 1 * ij 1 0)]

/-- The matrices times a local cochain: the value of each component. -/
def values (rm : List (List K)) (c : List K) : Option (List K) := rm.mapM fun row => contract row c

end Phyem.Recon
