import Verif.Triangle.Model
import Verif.Mass.Model

/-!
Model of the reversal of edge dofs in two dimensions: `msehtt/static/space/find/local_dofs_on_face/Lambda/m2n2k1.py`, and
the places where the dofs of the reversed faces get a minus: the incidence matrices (`incidence_matrix/Lambda/IM_m2n2k0.py`,
`IM_m2n2k1.py`), the basis functions (`mesh/great/elements/types/base.py`) and the reduction (`reduce/Lambda/Rd_m2n2k1.py`).
The caches of these functions are not modelled here (`Reversal/Keys.lean` has their keys).
-/

namespace Phyem.Reversal

open Phyem.Numbering Phyem.Incidence Phyem.Triangle

/-- Element types 9, `'unique curvilinear quad'`, … and 5, `'unique msepy curvilinear triangle'`. -/
inductive Shape where
  | quad
  | tri
deriving DecidableEq, Repr

/-- `'m2n2k1_inner'`, `'m2n2k1_outer'`. -/
inductive Ori where
  | inner
  | outer
deriving DecidableEq, Repr

/-- `ln[i, :]` of a 2d array. -/
def rowAt (x : Comp) (i : ℕ) : List ℕ := (List.range x.b).map fun j => x.num i j 0

/-- `ln[:, j]`. -/
def colAt (x : Comp) (j : ℕ) : List ℕ := (List.range x.a).map fun i => x.num i j 0

/-- `np.max(ln) + 1`. -/
def top (x : Comp) : ℕ := ((List.range x.b).flatMap fun j => (List.range x.a).map fun i => x.num i j 0).foldl max 0 + 1

/-- `ln_dy` of an outer form, `_ln_m2n2k1_outer_*` (`ln_m2n2k1.py:24-42`, `48-87`). -/
def dyO : Shape → ℕ → ℕ → Comp
  | .quad, p, q => ⟨0, p + 1, q, 1⟩
  | .tri, p, q => ⟨0, p, q, 1⟩

/-- `ln_dx` of an outer form. -/
def dxO : Shape → ℕ → ℕ → Comp
  | .quad, p, q => ⟨(p + 1) * q, p, q + 1, 1⟩
  | .tri, p, q => ⟨p * q, p, q + 1, 1⟩

/-- `ln_dx` of an inner form, `_ln_m2n2k1_inner_*` (`ln_m2n2k1.py:111-125`, `131-162`). -/
def dxI : Shape → ℕ → ℕ → Comp
  | .quad, p, q => ⟨0, p, q + 1, 1⟩
  | .tri, p, q => ⟨0, p, q + 1, 1⟩

/-- `ln_dy` of an inner form. -/
def dyI : Shape → ℕ → ℕ → Comp
  | .quad, p, q => ⟨p * (q + 1), p + 1, q, 1⟩
  | .tri, p, q => ⟨p * (q + 1), p, q, 1⟩

/-- `find_local_dofs_on_face__m2n2k1_outer` and `…_inner`, `component_wise=False` (`m2n2k1.py:29-46`, `65-99`, `136-153`,
`172-205`). `none`: `NotImplementedError`. -/
def faceDofs : Shape → Ori → ℕ → ℕ → ℕ → Option (List ℕ)
  | .quad, .outer, p, q, f =>
    if f = 0 then some (rowAt (dyO .quad p q) 0)
    else if f = 1 then some (rowAt (dyO .quad p q) ((dyO .quad p q).a - 1))
    else if f = 2 then some (colAt (dxO .quad p q) 0)
    else if f = 3 then some (colAt (dxO .quad p q) ((dxO .quad p q).b - 1))
    else none
  | .tri, .outer, p, q, f =>
    if f = 1 then some (rowAt (dyO .tri p q) ((dyO .tri p q).a - 1))
    else if f = 0 then some (colAt (dxO .tri p q) 0)
    else if f = 2 then some (colAt (dxO .tri p q) ((dxO .tri p q).b - 1))
    else none
  | .quad, .inner, p, q, f =>
    if f = 0 then some (rowAt (dyI .quad p q) 0)
    else if f = 1 then some (rowAt (dyI .quad p q) ((dyI .quad p q).a - 1))
    else if f = 2 then some (colAt (dxI .quad p q) 0)
    else if f = 3 then some (colAt (dxI .quad p q) ((dxI .quad p q).b - 1))
    else none
  | .tri, .inner, p, q, f =>
    if f = 1 then some (rowAt (dyI .tri p q) ((dyI .tri p q).a - 1))
    else if f = 0 then some (colAt (dxI .tri p q) 0)
    else if f = 2 then some (colAt (dxI .tri p q) ((dxI .tri p q).b - 1))
    else none

/-- The same with `component_wise=True` (`m2n2k1.py:48-54`, `101-107`, `155-161`, `207-213`): the component, and the dofs
counted from its first one. -/
def faceDofsC : Shape → Ori → ℕ → ℕ → ℕ → Option (ℕ × List ℕ)
  | .quad, .outer, p, q, f => (faceDofs .quad .outer p q f).map fun l =>
    if f = 2 ∨ f = 3 then (1, l.map fun d => d - top (dyO .quad p q)) else (0, l)
  | .tri, .outer, p, q, f => (faceDofs .tri .outer p q f).map fun l =>
    if f = 0 ∨ f = 2 then (1, l.map fun d => d - top (dyO .tri p q)) else (0, l)
  | .quad, .inner, p, q, f => (faceDofs .quad .inner p q f).map fun l =>
    if f = 2 ∨ f = 3 then (0, l) else (1, l.map fun d => d - top (dxI .quad p q))
  | .tri, .inner, p, q, f => (faceDofs .tri .inner p q f).map fun l =>
    if f = 0 ∨ f = 2 then (0, l) else (1, l.map fun d => d - top (dxI .tri p q))

/-- `new_E = E.copy(); for fi in face_indices: new_E[local_dofs, :] = -1 * E[local_dofs, :]` (`IM_m2n2k0.py:111-118`,
`207-214`, `311-317`). -/
def revRows (s : Shape) (o : Ori) (p q : ℕ) (E : Mat) (faces : List ℕ) : Option Mat :=
  faces.foldlM (fun new f => (faceDofs s o p q f).map fun l => fun r c => if r ∈ l then -1 * E r c else new r c) E

/-- The same for columns (`IM_m2n2k1.py:104-111`, `200-207`, `297-304`, `393-400`). -/
def revCols (s : Shape) (o : Ori) (p q : ℕ) (E : Mat) (faces : List ℕ) : Option Mat :=
  faces.foldlM (fun new f => (faceDofs s o p q f).map fun l => fun r c => if c ∈ l then -1 * E r c else new r c) E

variable {K : Type} [Field K]

/-- `new[l] = -old[l]` on arrays of the same length. -/
def assignNeg (old new : List K) (l : List ℕ) : List K :=
  (List.range new.length).map fun i => if i ∈ l then -old.getD i 0 else new.getD i 0

/-- The end of `bf` (`base.py:266-294`) at one point: `bf0[local_dofs, :] = - bf[0][local_dofs, :]` for every reversed
face. -/
def revBf (s : Shape) (o : Ori) (p q : ℕ) (bf : List K × List K) (faces : List ℕ) : Option (List K × List K) :=
  faces.foldlM (fun new f => (faceDofsC s o p q f).bind fun tl =>
    if tl.1 = 0 then some (assignNeg bf.1 new.1 tl.2, new.2)
    else if tl.1 = 1 then some (new.1, assignNeg bf.2 new.2 tl.2)
    else none) bf

/-- The end of the reduction (`Rd_m2n2k1.py:115-131`, `191-207`, `314-330`, `390-406`): `cochain[local_dofs] =
- cochain[local_dofs]` in place, for every reversed face, then `np.concatenate`. -/
def revCochain (s : Shape) (o : Ori) (p q : ℕ) (c : List K × List K) (faces : List ℕ) : Option (List K) :=
  (faces.foldlM (fun new f => (faceDofsC s o p q f).bind fun tl =>
    if tl.1 = 0 then some (assignNeg new.1 new.1 tl.2, new.2)
    else if tl.1 = 1 then some (new.1, assignNeg new.2 new.2 tl.2)
    else none) c).map fun c => c.1 ++ c.2

/-- A quadrature point of the mass matrix, with the basis functions of the element (`MM_m2n2k1.py:141-201`, `333-393`: the
mass matrix of element type 9 is computed from `element.bf`). -/
def revPt (s : Shape) (o : Ori) (p q : ℕ) (faces : List ℕ) (m : Mass.Pt K) : Option (Mass.Pt K) :=
  (revBf s o p q (m.bf.getD 0 [], m.bf.getD 1 []) faces).map fun b => { m with bf := [b.1, b.2] }

end Phyem.Reversal
