import Verif.Geometry.Faces
import Verif.Reversal.Model
import Verif.LocalDofs.Model
import Verif.Recon.Model
import Verif.Mass.Main

/-!
Model of boundary integrals in the plane: `msehtt/static/form/bi/main.py`, `msehtt/static/form/bi/vc/Lambda/bi_vc_m2n2k0.py` and
`bi_vc_m2n2k1.py` (`with_vc_over_boundary_section`), and of the flux over a boundary section
(`msehtt/static/form/addons/static.py:118-165`). Exact real numbers instead of floats; `none` is an exception. Elements with reversed
faces (type 9 only) and the caches of the matrices are not modelled; nor are the checks of the arguments (`bi/main.py:18-22`) and the
choice of the function by the space.
-/

namespace Phyem.Boundary

open Phyem.Poly Phyem.Geometry Phyem.Recon

/-- A quadrilateral element as the functions below see it: the degrees, the nodes, the mapping, `ct.Jacobian_matrix` and
`ct.inverse_Jacobian_matrix` (C72). -/
structure El where
  p : ℕ
  q : ℕ
  xs : List ℝ
  ys : List ℝ
  Φ : ℝ → ℝ → ℝ × ℝ
  J : ℝ → ℝ → List (List ℝ)
  iJ : ℝ → ℝ → ℕ → ℕ → ℝ

/-- `face.ct.mapping` (`orthogonal_rectangle.py:478-497`). -/
noncomputable def El.pt (e : El) (f : ℕ) (t : ℝ) : ℝ × ℝ := e.Φ (facePoint2 f t).1 (facePoint2 f t).2

/-- `nx, ny = face.ct.outward_unit_normal_vector(nodes)` at one node (`bi_vc_m2n2k1.py:91-92`). The default is for face numbers
that are refused (`Geometry.normal2_faces`). -/
noncomputable def El.n (e : El) (f : ℕ) (t : ℝ) : ℝ × ℝ := (normal2 e.J f t).getD (0, 0)

/-- `Jacobian = np.sqrt(JM[0]**2 + JM[1]**2)` (`bi_vc_m2n2k1.py:95-96`). -/
noncomputable def El.len (e : El) (f : ℕ) (t : ℝ) : ℝ :=
  let JM := (faceJ2 e.J f t).getD (0, 0)
  √(JM.1 ^ 2 + JM.2 ^ 2)

/-- `rm_nodes` (`bi_vc_m2n2k1.py:72-81`): at one quadrature node the matrices of the reconstruction, one row for each component. -/
noncomputable def El.rm21o (e : El) (f : ℕ) (t : ℝ) : List (List ℝ) :=
  let P := if f = 0 then (-1, t) else if f = 1 then (1, t) else if f = 2 then (t, -1) else (t, 1)
  Recon.rm21o (e.iJ P.1 P.2) [kron (edges e.ys P.2) (nodes e.xs P.1), kron (nodes e.ys P.2) (edges e.xs P.1)]

/-- The same for inner 1-forms (`bi_vc_m2n2k1.py:210-219`). -/
noncomputable def El.rm21i (e : El) (f : ℕ) (t : ℝ) : List (List ℝ) :=
  let P := if f = 0 then (-1, t) else if f = 1 then (1, t) else if f = 2 then (t, -1) else (t, 1)
  Recon.rm21i (e.iJ P.1 P.2) [kron (nodes e.ys P.2) (edges e.xs P.1), kron (edges e.ys P.2) (nodes e.xs P.1)]

/-- The same for 0-forms (`bi_vc_m2n2k0.py:73-82`). -/
noncomputable def El.rm20 (e : El) (f : ℕ) (t : ℝ) : List (List ℝ) :=
  let P := if f = 0 then (-1, t) else if f = 1 then (1, t) else if f = 2 then (t, -1) else (t, 1)
  Recon.rm0 [kron (nodes e.ys P.2) (nodes e.xs P.1)]

/-- Entry `d` of component `r` of a reconstruction matrix at a node: `v.T[d]`. -/
def entry (rm : List (List ℝ)) (r d : ℕ) : ℝ := (rm.getD r []).getD d 0

/-- `np.sum(trStar_vc * trace * weights * Jacobian, axis=1)` for the local dofs `l` (`bi_vc_m2n2k1.py:97`). -/
noncomputable def faceVec (l : List ℕ) (star : ℝ → ℝ) (trace : ℝ → ℕ → ℝ) (jac : ℝ → ℝ) (ts ws : List ℝ) : List ℝ :=
  l.map fun d => (List.zipWith (fun t w => star t * trace t d * w * jac t) ts ws).sum

/-- The quadrature rule of degree `n`: `quadrature(n, 'Gauss').quad`. -/
abbrev Rule := ℕ → List ℝ × List ℝ

/-- `___bi_vc_221o_msepy_quadrilateral___`, `___bi_vc_221o_quad_9___` (`bi_vc_m2n2k1.py:60-99`, `105-144`): the local dofs and the
vector. -/
noncomputable def face21o (Q : Rule) (φ : ℝ × ℝ → ℝ) (e : El) (f : ℕ) : Option (List ℕ × List ℝ) :=
  let q := Q (max e.p e.q + 1)
  (Reversal.faceDofs .quad .outer e.p e.q f).map fun l =>
    (l, faceVec l (fun t => φ (e.pt f t))
      (fun t d => entry (e.rm21o f t) 0 d * (e.n f t).1 + entry (e.rm21o f t) 1 d * (e.n f t).2) (e.len f) q.1 q.2)

/-- `___bi_vc_221i_msepy_quadrilateral___`, `___bi_vc_221i_quad_9___` (`bi_vc_m2n2k1.py:202-241`, `247-286`). -/
noncomputable def face21i (Q : Rule) (φ : ℝ × ℝ → ℝ) (e : El) (f : ℕ) : Option (List ℕ × List ℝ) :=
  let q := Q (max e.p e.q + 1)
  (Reversal.faceDofs .quad .inner e.p e.q f).map fun l =>
    (l, faceVec l (fun t => φ (e.pt f t))
      (fun t d => entry (e.rm21i f t) 0 d * (e.n f t).2 - entry (e.rm21i f t) 1 d * (e.n f t).1) (e.len f) q.1 q.2)

/-- `__m2n2k0_msepy_quadrilateral_` (`find/local_dofs_on_face/Lambda/m2n2k0.py:27-46`): the slice of the local numbering. -/
def dofs20 (p q f : ℕ) : Option (List ℕ) :=
  if f = 0 then LocalDofs.sliceOf (Numbering.ln20 p q) 0 0 0
  else if f = 1 then LocalDofs.sliceOf (Numbering.ln20 p q) 0 0 1
  else if f = 2 then LocalDofs.sliceOf (Numbering.ln20 p q) 0 1 0
  else if f = 3 then LocalDofs.sliceOf (Numbering.ln20 p q) 0 1 1
  else none

/-- `___bi_vc_220o_msepy_quadrilateral___` (`bi_vc_m2n2k0.py:61-100`): the function given is a vector. -/
noncomputable def face20o (Q : Rule) (u : ℝ × ℝ → ℝ × ℝ) (e : El) (f : ℕ) : Option (List ℕ × List ℝ) :=
  let q := Q (max e.p e.q + 1)
  (dofs20 e.p e.q f).map fun l =>
    (l, faceVec l (fun t => (u (e.pt f t)).1 * (e.n f t).2 - (u (e.pt f t)).2 * (e.n f t).1)
      (fun t d => entry (e.rm20 f t) 0 d) (e.len f) q.1 q.2)

/-- `___bi_vc_220i_msepy_quadrilateral___` (`bi_vc_m2n2k0.py:158-200`). -/
noncomputable def face20i (Q : Rule) (u : ℝ × ℝ → ℝ × ℝ) (e : El) (f : ℕ) : Option (List ℕ × List ℝ) :=
  let q := Q (max e.p e.q + 1)
  (dofs20 e.p e.q f).map fun l =>
    (l, faceVec l (fun t => (u (e.pt f t)).1 * (e.n f t).1 + (u (e.pt f t)).2 * (e.n f t).2)
      (fun t d => entry (e.rm20 f t) 0 d) (e.len f) q.1 q.2)

/-- The numbers of local dofs (`bi_vc_m2n2k1.py:63`, `bi_vc_m2n2k0.py:64`). -/
def El.num1 (e : El) : ℕ := (e.p + 1) * e.q + e.p * (e.q + 1)
def El.num0 (e : El) : ℕ := (e.p + 1) * (e.q + 1)

/-- `array[l] = v`. -/
def assign (old : List ℝ) (l : List ℕ) (v : List ℝ) : List ℝ := (l.zip v).foldl (fun a iv => a.set iv.1 iv.2) old

/-- The vector of the element so far, whose length is checked, or zeros (`bi_vc_m2n2k1.py:47-50`). -/
def start (num : ℕ) : Option (List ℝ) → Option (List ℝ)
  | some a => if a.length = num then some a else none
  | none => some (List.replicate num 0)

/-- The dictionary of the vectors of the elements (`bi_vc_m2n2k1.py:28-52`, `166-195`, `bi_vc_m2n2k0.py:29-55`, `129-155`): `face e f`
the local dofs and the vector of face `f` of element `e`, `num e` the number of local dofs, `sec` the faces of the boundary section
on the rank. A value of the dictionary is *assigned* to the dofs of a face. -/
def bi (face : ℕ → ℕ → Option (List ℕ × List ℝ)) (num : ℕ → ℕ) (sec : List (ℕ × ℕ)) : Option (ℕ → Option (List ℝ)) :=
  sec.foldlM (fun dict ef =>
    (face ef.1 ef.2).bind fun lv => (start (num ef.1) (dict ef.1)).map fun old =>
      fun e => if e = ef.1 then some (assign old lv.1 lv.2) else dict e) fun _ => none

/-- `flux_over_boundary_section` (`static.py:118-165`) of one face: `RoF` (`RConEF_m2n2k1.py:37-56`) reconstructs the outer 1-form
with local cochain `c` on the face (`Rc_m2n2k1.py`; the shortcuts for zero entries of the inverse of the Jacobian matrix are in C96).
`none`: other face numbers, cochains of another length. -/
noncomputable def faceFlux (ts ws : List ℝ) (e : El) (c : List ℝ) (f : ℕ) : Option ℝ :=
  if f < 4 then
    (ts.mapM fun t =>
      let P := if f = 0 then (-1, t) else if f = 1 then (1, t) else if f = 2 then (t, -1) else (t, 1)
      (Recon.rc21o false false (e.iJ P.1 P.2) ((e.p + 1) * e.q)
        [kron (edges e.ys P.2) (nodes e.xs P.1), kron (nodes e.ys P.2) (edges e.xs P.1)] c).map fun UV =>
        (UV.getD 0 0 * (e.n f t).1 + (e.n f t).2 * UV.getD 1 0, e.len f t)).map fun F =>
      (List.zipWith (fun x w => x.1 * w * x.2) F ws).sum
  else none

/-- The sum over the faces of the section on a rank, then over the ranks. -/
noncomputable def flux (ts ws : List ℝ) (els : ℕ → El) (c : ℕ → List ℝ) (ranks : List (List (ℕ × ℕ))) : Option ℝ :=
  (ranks.mapM fun sec : List (ℕ × ℕ) => (sec.mapM fun ef => faceFlux ts ws (els ef.1) (c ef.1) ef.2).map List.sum).map List.sum

end Phyem.Boundary
