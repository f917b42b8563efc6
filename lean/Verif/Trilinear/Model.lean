import Verif.Recon.Model
import Verif.Nonlinear.Model
import Verif.Base.Dict

/-!
Model of the trilinear terms of `msehtt` (`msehtt/static/form/addons/nop_data_computer/trilinear_*.py`): the three-dimensional
arrays of the elements, and the vectors and matrices that are made of them. `none` is an exception.
-/

namespace Phyem.Trilinear

variable {K : Type} [Field K]

/-- What the array of an element is computed from at one quadrature point: `qw_ravel * detJ`, and for each of the forms A, B, C the
rows of the point in its reconstruction matrices, one for each component. -/
structure Pt (K : Type) where
  m : K
  a : List (List K)
  b : List (List K)
  c : List (List K)

/-- `rm[r][e][l, i]`. -/
def at_ (rm : List (List K)) (r i : ℕ) : K := (rm.getD r []).getD i 0

/-- `np.einsum('li, lj, lk, l -> ijk', rmA[r][e], rmB[s][e], rmC[t][e], qw_ravel * detJ)`. -/
def ein (pts : List (Pt K)) (r s t : ℕ) (i j k : ℕ) : K :=
  (pts.map fun q => at_ q.a r i * at_ q.b s j * at_ q.c t k * q.m).sum

/-- The array of an element in `AxB_ip_C`, `AxB_dp_C` and `AxB_ip_dC` (`trilinear_AxB_ip_C.py:136-186`,
`trilinear_AxB_ip_dC.py:140-191`) for a mesh of dimension `n` and forms with `la`, `lb`, `lc` components. -/
def cross (n la lb lc : ℕ) (pts : List (Pt K)) : Option (ℕ → ℕ → ℕ → K) :=
  if (n, la, lb, lc) = (2, 1, 2, 2) then
    some fun i j k => -ein pts 0 1 0 i j k + ein pts 0 0 1 i j k
  else if (n, la, lb, lc) = (2, 2, 2, 1) then
    some fun i j k => ein pts 0 1 0 i j k - ein pts 1 0 0 i j k
  else if (n, la, lb, lc) = (3, 3, 3, 3) then
    some fun i j k => (ein pts 1 2 0 i j k - ein pts 2 1 0 i j k) + (ein pts 2 0 1 i j k - ein pts 0 2 1 i j k) +
      (ein pts 0 1 2 i j k - ein pts 1 0 2 i j k)
  else none

/-- The array of an element in `T_ABC`, `AB_ip_dC`, `AdB_ip_C` and `AdB_ip_dC` (`trilinear_ABC.py:134-160`,
`trilinear_AdB_ip_dC.py:148-176`). -/
def prod (n la lb lc : ℕ) (pts : List (Pt K)) : Option (ℕ → ℕ → ℕ → K) :=
  if (n, la, lb, lc) = (2, 1, 2, 2) then some fun i j k => ein pts 0 0 0 i j k + ein pts 0 1 1 i j k
  else if (n, la, lb, lc) = (2, 1, 1, 1) then some fun i j k => ein pts 0 0 0 i j k
  else none

/-- `rm @ E` (`trilinear_AxB_ip_dC.py:93-102`): a row of the reconstruction matrix of the derivative times the incidence matrix, which
has `n` columns. -/
def rowD (E : ℕ → ℕ → K) (n : ℕ) (row : List K) : List K :=
  (List.range n).map fun j => ((List.range row.length).map fun i => row.getD i 0 * E i j).sum

/-- The loop over the elements with its cache (`trilinear_AxB_ip_C.py:97-199`): `key` is the cache key, if it is a string, and `data`
what is computed. -/
def generate {κ D : Type} [DecidableEq κ] (key : ℕ → Option κ) (data : ℕ → Option D) :
    List ℕ → List (κ × D) → Option (List (ℕ × D))
  | [], _ => some []
  | e :: es, cache =>
    match (key e).bind fun k => (cache.find? fun p => p.1 = k).map Prod.snd with
    | some d => (generate key data es cache).map ((e, d) :: ·)
    | none => (data e).bind fun d =>
      (generate key data es (match key e with | some k => (k, d) :: cache | none => cache)).map ((e, d) :: ·)

/-- The three-dimensional array of an element, `n` being the numbers of dofs of the forms. -/
def arr (n : List ℕ) (d : ℕ → ℕ → ℕ → K) : Nonlinear.Arr K := ⟨n, fun idx => d (idx.getD 0 0) (idx.getD 1 0) (idx.getD 2 0)⟩

/-- The places of a form in `(A, B, C)`; a form is its address. -/
def places (abc : List ℕ) (f : ℕ) : List ℕ := (List.range abc.length).filter fun i => abc.getD i 0 = f

/-- `_OneDimVectorCaller` (`trilinear_base.py:115-159`) with the local cochains of the forms in an element. -/
def vectorCall (abc : List ℕ) (data : Nonlinear.Arr K) (test : ℕ) (coch : ℕ → Nonlinear.Arr1 K) : Option (Nonlinear.Arr K) :=
  match places abc test with
  | [t] =>
    let given := (List.range 3).filter fun i => abc.getD i 0 ≠ test
    Nonlinear.einsum ⟨[0, 1, 2], given, [t]⟩ data (given.map fun i => coch (abc.getD i 0))
  | _ => none

/-- `__call__` with two dimensions (`trilinear_base.py:46-62`), `_TwoDimMatrixCaller` and `_2dMatrixCallerHelper`
(`trilinear_base.py:172-226`). -/
def matrixCall (abc : List ℕ) (data : Nonlinear.Arr K) (row col : ℕ) (coch : ℕ → Nonlinear.Arr1 K) : Option (Nonlinear.Arr K) :=
  match places abc row, places abc col with
  | [r], [c] =>
    if r ≠ c then
      match (List.range 3).filter fun i => i ≠ r ∧ i ≠ c with
      | [g] => Nonlinear.einsum ⟨[0, 1, 2], [g], [r, c]⟩ data [coch (abc.getD g 0)]
      | _ => none
    else none
  | _, _ => none

end Phyem.Trilinear
