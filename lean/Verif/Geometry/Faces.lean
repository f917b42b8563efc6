import Verif.Geometry.Jac
import Verif.Metric.Model
import Mathlib.Analysis.Calculus.DerivativeTest
import Mathlib.Tactic.LinearCombination
import Mathlib.Tactic.Positivity

/-!
C76: the outward unit normal vectors of element faces. Model of
`MseHttGreatMeshOrthogonalRectangleElementFaceCT` (`orthogonal_rectangle.py:461-541`, inherited by all quadrilateral
elements), `_VTU5_Triangle_OneFace_CT_` (`vtu_5_triangle.py:311-392`),
`MseHtt_GreatMesh_OrthogonalHexahedron_Element_OneFace_CT` (`orthogonal_hexahedron.py:520-637`, inherited by all hexahedral
elements) and `_FaceCooTrans` (`msepy/mesh/elements/element.py:274-505`), which have the same formulas.
-/

namespace Phyem.Geometry

open Real Filter Topology

/-! ### Model -/

/-- The reference point of face `fid` at parameter `t`: axis `fid // 2`, side `fid % 2`
(`orthogonal_rectangle.py:478-497`). -/
noncomputable def facePoint2 (fid : ℕ) (t : ℝ) : ℝ × ℝ :=
  if fid / 2 = 0 then (if fid % 2 = 0 then (-1, t) else (1, t)) else (if fid % 2 = 0 then (t, -1) else (t, 1))

/-- `Jacobian_matrix` of a face (`orthogonal_rectangle.py:499-523`; `element.py:368-397`). -/
noncomputable def faceJ2 (J : ℝ → ℝ → List (List ℝ)) (fid : ℕ) (t : ℝ) : Option (ℝ × ℝ) :=
  let JM := J (facePoint2 fid t).1 (facePoint2 fid t).2
  if fid / 2 = 0 then some (at2 JM 0 1, at2 JM 1 1)
  else if fid / 2 = 1 then some (at2 JM 0 0, at2 JM 1 0)
  else none

/-- `vx / magnitude, vy / magnitude`. -/
noncomputable def normalise2 (v : ℝ × ℝ) : ℝ × ℝ := (v.1 / √(v.1 ^ 2 + v.2 ^ 2), v.2 / √(v.1 ^ 2 + v.2 ^ 2))

/-- `outward_unit_normal_vector` (`orthogonal_rectangle.py:525-537`; `element.py:448-470`). -/
noncomputable def normal2 (J : ℝ → ℝ → List (List ℝ)) (fid : ℕ) (t : ℝ) : Option (ℝ × ℝ) :=
  match faceJ2 J fid t with
  | none => none
  | some xy =>
    if fid / 2 = 0 ∧ fid % 2 = 0 then some (normalise2 (-xy.2, xy.1))
    else if fid / 2 = 1 ∧ fid % 2 = 1 then some (normalise2 (-xy.2, xy.1))
    else some (normalise2 (xy.2, -xy.1))

/-- Axis and side of the faces of a triangle (`vtu_5_triangle.py:315-326`), as a face number of the square. -/
def triFace (fid : ℕ) : Option ℕ :=
  if fid = 0 then some 2 else if fid = 1 then some 1 else if fid = 2 then some 3 else none

/-- `outward_unit_normal_vector` of a triangle (`vtu_5_triangle.py:352-388`). -/
noncomputable def normalTri (J : ℝ → ℝ → List (List ℝ)) (fid : ℕ) (t : ℝ) : Option (ℝ × ℝ) :=
  match triFace fid with
  | none => none
  | some q =>
    match faceJ2 J q t with
    | none => none
    | some xy =>
      if q / 2 = 1 ∧ q % 2 = 1 then some (normalise2 (-xy.2, xy.1)) else some (normalise2 (xy.2, -xy.1))

/-- The reference point of a face of a hexahedron (`orthogonal_hexahedron.py:536-562`); the coordinate along the axis of
the face is ignored. -/
noncomputable def facePoint3 (fid : ℕ) (xi et sg : ℝ) : ℝ × ℝ × ℝ :=
  if fid / 2 = 0 then (if fid % 2 = 0 then (-1, et, sg) else (1, et, sg))
  else if fid / 2 = 1 then (if fid % 2 = 0 then (xi, -1, sg) else (xi, 1, sg))
  else (if fid % 2 = 0 then (xi, et, -1) else (xi, et, 1))

/-- Column `j` of a matrix. -/
def col (JM : List (List ℝ)) (j : ℕ) : ℝ × ℝ × ℝ := (at2 JM 0 j, at2 JM 1 j, at2 JM 2 j)

/-- `Jacobian_matrix` of a face, as its two columns (`orthogonal_hexahedron.py:564-609`; `element.py:399-440`). -/
noncomputable def faceJ3 (J : ℝ → ℝ → ℝ → List (List ℝ)) (fid : ℕ) (xi et sg : ℝ) :
    Option ((ℝ × ℝ × ℝ) × (ℝ × ℝ × ℝ)) :=
  let p := facePoint3 fid xi et sg
  let JM := J p.1 p.2.1 p.2.2
  if fid / 2 = 0 then some (col JM 1, col JM 2)
  else if fid / 2 = 1 then some (col JM 2, col JM 0)
  else if fid / 2 = 2 then some (col JM 0, col JM 1)
  else none

/-- `outward_unit_normal_vector` (`orthogonal_hexahedron.py:611-637`; `element.py:472-500`). -/
noncomputable def normal3 (J : ℝ → ℝ → ℝ → List (List ℝ)) (fid : ℕ) (xi et sg : ℝ) : Option (ℝ × ℝ × ℝ) :=
  match faceJ3 J fid xi et sg with
  | none => none
  | some ab =>
    let a := ab.1
    let b := ab.2
    let acb0 := a.2.1 * b.2.2 - a.2.2 * b.2.1
    let acb1 := a.2.2 * b.1 - a.1 * b.2.2
    let acb2 := a.1 * b.2.1 - a.2.1 * b.1
    let norm := √(acb0 ^ 2 + acb1 ^ 2 + acb2 ^ 2)
    if fid % 2 = 0 then some (-(acb0 / norm), -(acb1 / norm), -(acb2 / norm))
    else some (acb0 / norm, acb1 / norm, acb2 / norm)

/-! ### Specification -/

/-- The scalar products. -/
def dot2 (a b : ℝ × ℝ) : ℝ := a.1 * b.1 + a.2 * b.2
def dot3 (a b : ℝ × ℝ × ℝ) : ℝ := a.1 * b.1 + a.2.1 * b.2.1 + a.2.2 * b.2.2

/-- The unit vector of the reference square that leaves it through face `fid`. -/
def out2 (fid : ℕ) : ℝ × ℝ :=
  if fid = 0 then (-1, 0) else if fid = 1 then (1, 0) else if fid = 2 then (0, -1) else (0, 1)

/-- The unit vector along face `fid` of the reference square. -/
def along2 (fid : ℕ) : ℝ × ℝ := if fid < 2 then (0, 1) else (1, 0)

/-- `v` is the outward unit normal vector, at the image of `P`, of an element with mapping `F` whose face at `P` runs along
`tang` and is left along `out`: it has length one; points moving along the face do not, to first order, move along `v`;
points entering the element from the face move against `v`. -/
structure OutwardUnitNormal2 (F : ℝ × ℝ → ℝ × ℝ) (P tang out v : ℝ × ℝ) : Prop where
  unit : dot2 v v = 1
  perp : HasDerivAt (fun h : ℝ => dot2 (F (P + h • tang)) v) 0 0
  outward : ∀ᶠ h in 𝓝[>] (0 : ℝ), dot2 (F (P - h • out)) v < dot2 (F P) v

/-- The unit vector of the reference cube that leaves it through face `fid`, and two along it. -/
def out3 (fid : ℕ) : ℝ × ℝ × ℝ :=
  if fid = 0 then (-1, 0, 0) else if fid = 1 then (1, 0, 0) else if fid = 2 then (0, -1, 0)
  else if fid = 3 then (0, 1, 0) else if fid = 4 then (0, 0, -1) else (0, 0, 1)
def along3 (fid : ℕ) : ℝ × ℝ × ℝ := if fid < 2 then (0, 1, 0) else if fid < 4 then (0, 0, 1) else (1, 0, 0)
def along3' (fid : ℕ) : ℝ × ℝ × ℝ := if fid < 2 then (0, 0, 1) else if fid < 4 then (1, 0, 0) else (0, 1, 0)

/-- The same in three dimensions. -/
structure OutwardUnitNormal3 (F : ℝ × ℝ × ℝ → ℝ × ℝ × ℝ) (P tang tang' out v : ℝ × ℝ × ℝ) : Prop where
  unit : dot3 v v = 1
  perp : HasDerivAt (fun h : ℝ => dot3 (F (P + h • tang)) v) 0 0
  perp' : HasDerivAt (fun h : ℝ => dot3 (F (P + h • tang')) v) 0 0
  outward : ∀ᶠ h in 𝓝[>] (0 : ℝ), dot3 (F (P - h • out)) v < dot3 (F P) v

/-! ### Proofs -/

/-- Moving in direction `u`, a linear functional of the image changes at the rate the derivative says. -/
theorem moving {E E' : Type*} [NormedAddCommGroup E] [NormedSpace ℝ E] [NormedAddCommGroup E'] [NormedSpace ℝ E']
    {F : E → E'} {L : E →L[ℝ] E'} {P : E} (hF : HasFDerivAt F L P) (φ : E' →L[ℝ] ℝ) (u : E) :
    HasDerivAt (fun h : ℝ => φ (F (P + h • u))) (φ (L u)) 0 := by
  have h1 : HasDerivAt (fun h : ℝ => P + h • u) u 0 := by
    have := ((hasDerivAt_id (0 : ℝ)).smul_const u).const_add P
    simpa using this
  have hF' : HasFDerivAt F L (P + (0 : ℝ) • u) := by simpa using hF
  have h2 := hF'.comp_hasDerivAt (0 : ℝ) h1
  exact φ.hasFDerivAt.comp_hasDerivAt (0 : ℝ) h2

theorem entering {E E' : Type*} [NormedAddCommGroup E] [NormedSpace ℝ E] [NormedAddCommGroup E'] [NormedSpace ℝ E']
    {F : E → E'} {L : E →L[ℝ] E'} {P : E} (hF : HasFDerivAt F L P) (φ : E' →L[ℝ] ℝ) (u : E) (hpos : 0 < φ (L u)) :
    ∀ᶠ h in 𝓝[>] (0 : ℝ), φ (F (P - h • u)) < φ (F P) := by
  have hd := (moving hF φ (-u)).const_sub (φ (F P))
  have hd' : HasDerivAt (fun h : ℝ => φ (F P) - φ (F (P + h • -u))) (φ (L u)) 0 := by simpa using hd
  have hp : 0 < deriv (fun h : ℝ => φ (F P) - φ (F (P + h • -u))) 0 := by rw [hd'.deriv]; exact hpos
  have h0 : (fun h : ℝ => φ (F P) - φ (F (P + h • -u))) 0 = 0 := by simp
  have := eventually_nhdsWithin_sign_eq_of_deriv_pos hp h0
  filter_upwards [nhdsWithin_le_nhds this, self_mem_nhdsWithin] with h hs hh
  have hh' : 0 < h := hh
  rw [sub_zero, sign_pos hh', sign_eq_one_iff] at hs
  have e : P + h • -u = P - h • u := by rw [smul_neg, sub_eq_add_neg]
  rw [e] at hs
  linarith

/-- The scalar product with a fixed vector, as a linear functional. -/
noncomputable def dotL2 (v : ℝ × ℝ) : ℝ × ℝ →L[ℝ] ℝ :=
  v.1 • ContinuousLinearMap.fst ℝ ℝ ℝ + v.2 • ContinuousLinearMap.snd ℝ ℝ ℝ
noncomputable def dotL3 (v : ℝ × ℝ × ℝ) : ℝ × ℝ × ℝ →L[ℝ] ℝ := v.1 • p0 + v.2.1 • p1 + v.2.2 • p2

theorem dotL2_apply (v a : ℝ × ℝ) : dotL2 v a = dot2 a v := by simp [dotL2, dot2]; ring
theorem dotL3_apply (v a : ℝ × ℝ × ℝ) : dotL3 v a = dot3 a v := by simp [dotL3, dot3, p0, p1, p2]; ring

theorem outward2_of {F : ℝ × ℝ → ℝ × ℝ} {M : List (List ℝ)} {P : ℝ × ℝ} (hF : HasFDerivAt F (lin2 M) P)
    {tang out v : ℝ × ℝ} (h1 : dot2 v v = 1) (h2 : dot2 (lin2 M tang) v = 0) (h3 : 0 < dot2 (lin2 M out) v) :
    OutwardUnitNormal2 F P tang out v := by
  refine ⟨h1, ?_, ?_⟩
  · have := moving hF (dotL2 v) tang
    simp only [dotL2_apply, h2] at this
    exact this
  · have := entering hF (dotL2 v) out (by rw [dotL2_apply]; exact h3)
    simpa only [dotL2_apply] using this

theorem outward3_of {F : ℝ × ℝ × ℝ → ℝ × ℝ × ℝ} {M : List (List ℝ)} {P : ℝ × ℝ × ℝ} (hF : HasFDerivAt F (lin3 M) P)
    {tang tang' out v : ℝ × ℝ × ℝ} (h1 : dot3 v v = 1) (h2 : dot3 (lin3 M tang) v = 0)
    (h2' : dot3 (lin3 M tang') v = 0) (h3 : 0 < dot3 (lin3 M out) v) :
    OutwardUnitNormal3 F P tang tang' out v := by
  refine ⟨h1, ?_, ?_, ?_⟩
  · have := moving hF (dotL3 v) tang
    simp only [dotL3_apply, h2] at this
    exact this
  · have := moving hF (dotL3 v) tang'
    simp only [dotL3_apply, h2'] at this
    exact this
  · have := entering hF (dotL3 v) out (by rw [dotL3_apply]; exact h3)
    simpa only [dotL3_apply] using this

theorem lin2_apply (M : List (List ℝ)) (u : ℝ × ℝ) :
    lin2 M u = (at2 M 0 0 * u.1 + at2 M 0 1 * u.2, at2 M 1 0 * u.1 + at2 M 1 1 * u.2) := by simp [lin2]

theorem lin3_apply (M : List (List ℝ)) (u : ℝ × ℝ × ℝ) :
    lin3 M u = (at2 M 0 0 * u.1 + at2 M 0 1 * u.2.1 + at2 M 0 2 * u.2.2,
      at2 M 1 0 * u.1 + at2 M 1 1 * u.2.1 + at2 M 1 2 * u.2.2,
      at2 M 2 0 * u.1 + at2 M 2 1 * u.2.1 + at2 M 2 2 * u.2.2) := by simp [lin3, p0, p1, p2]

theorem normalise2_spec (v : ℝ × ℝ) (h : v.1 ^ 2 + v.2 ^ 2 ≠ 0) :
    dot2 (normalise2 v) (normalise2 v) = 1 ∧ ∃ c, 0 < c ∧ normalise2 v = (c * v.1, c * v.2) := by
  have hp : 0 < v.1 ^ 2 + v.2 ^ 2 := lt_of_le_of_ne (by positivity) (Ne.symm h)
  have hs : 0 < √(v.1 ^ 2 + v.2 ^ 2) := Real.sqrt_pos.2 hp
  have h2 := Real.sq_sqrt hp.le
  refine ⟨?_, 1 / √(v.1 ^ 2 + v.2 ^ 2), by positivity, ?_⟩
  · simp only [dot2, normalise2]
    generalize √(v.1 ^ 2 + v.2 ^ 2) = m at *
    field_simp
    linarith
  · simp only [normalise2, Prod.mk.injEq]
    constructor <;> ring

theorem outward2_normalise {F : ℝ × ℝ → ℝ × ℝ} {M : List (List ℝ)} {P : ℝ × ℝ} (hF : HasFDerivAt F (lin2 M) P)
    {tang out w : ℝ × ℝ} (h2 : dot2 (lin2 M tang) w = 0) (h3 : 0 < dot2 (lin2 M out) w) :
    OutwardUnitNormal2 F P tang out (normalise2 w) := by
  have hne : w.1 ^ 2 + w.2 ^ 2 ≠ 0 := by
    intro e
    have e1 : w.1 = 0 := by nlinarith [sq_nonneg w.1, sq_nonneg w.2]
    have e2 : w.2 = 0 := by nlinarith [sq_nonneg w.1, sq_nonneg w.2]
    simp [dot2, e1, e2] at h3
  obtain ⟨hu, c, hc, e⟩ := normalise2_spec w hne
  refine outward2_of hF hu ?_ ?_
  · rw [e]; simp only [dot2] at h2 ⊢; linear_combination c * h2
  · rw [e]; simp only [dot2] at h3 ⊢
    have := mul_pos hc h3
    linarith

theorem jac22 (M : List (List ℝ)) :
    Metric.jacobian 2 2 (at2 M) = some (at2 M 0 0 * at2 M 1 1 - at2 M 0 1 * at2 M 1 0) := rfl

/-- Elements of the plane with positive Jacobian: the vector returned on each of the four faces, at each of its points, is
the outward unit normal vector. -/
theorem normal2_outward (f : ℝ → ℝ → ℝ × ℝ) (J : ℝ → ℝ → List (List ℝ)) (hJ : IsJac2 f J) (fid : ℕ) (hf : fid < 4)
    (t : ℝ) (D : ℝ) (hD : Metric.jacobian 2 2 (at2 (J (facePoint2 fid t).1 (facePoint2 fid t).2)) = some D)
    (hpos : 0 < D) :
    ∃ v, normal2 J fid t = some v ∧
      OutwardUnitNormal2 (fun p => f p.1 p.2) (facePoint2 fid t) (along2 fid) (out2 fid) v := by
  have hF := hJ (facePoint2 fid t).1 (facePoint2 fid t).2
  rw [jac22] at hD
  obtain rfl := Option.some.inj hD
  clear hD
  have hff : fid = 0 ∨ fid = 1 ∨ fid = 2 ∨ fid = 3 := by omega
  unfold normal2 faceJ2
  generalize hM : J (facePoint2 fid t).1 (facePoint2 fid t).2 = M at hF hpos
  rcases hff with rfl | rfl | rfl | rfl <;> simp only [hM] <;> norm_num <;>
    refine outward2_normalise hF ?_ ?_ <;> rw [lin2_apply] <;> simp [dot2, along2, out2] <;> nlinarith

/-- No other face number is answered. -/
theorem normal2_faces (J : ℝ → ℝ → List (List ℝ)) (fid : ℕ) (t : ℝ) : (normal2 J fid t).isSome ↔ fid < 4 := by
  unfold normal2 faceJ2
  rcases (by omega : fid = 0 ∨ fid = 1 ∨ fid = 2 ∨ fid = 3 ∨ 4 ≤ fid) with rfl | rfl | rfl | rfl | h
  · simp
  · simp
  · simp
  · simp
  · have h1 : ¬ fid / 2 = 0 := by omega
    have h2 : ¬ fid / 2 = 1 := by omega
    simp only [h1, h2, if_false]
    simp; omega

/-- Hexahedral elements with positive Jacobian: the vector returned on each of the six faces is the outward unit normal
vector. -/
theorem normal3_outward (f : ℝ → ℝ → ℝ → ℝ × ℝ × ℝ) (J : ℝ → ℝ → ℝ → List (List ℝ)) (hJ : IsJac3 f J) (fid : ℕ)
    (hf : fid < 6) (xi et sg : ℝ) (P : ℝ × ℝ × ℝ) (hP : P = facePoint3 fid xi et sg) (D : ℝ)
    (hD : Metric.jacobian 3 3 (at2 (J P.1 P.2.1 P.2.2)) = some D) (hpos : 0 < D) :
    ∃ v, normal3 J fid xi et sg = some v ∧
      OutwardUnitNormal3 (fun p => f p.1 p.2.1 p.2.2) P (along3 fid) (along3' fid) (out3 fid) v := by
  have hF := hJ P.1 P.2.1 P.2.2
  have hD' : some (at2 (J P.1 P.2.1 P.2.2) 0 0 * at2 (J P.1 P.2.1 P.2.2) 1 1 * at2 (J P.1 P.2.1 P.2.2) 2 2
      + at2 (J P.1 P.2.1 P.2.2) 0 1 * at2 (J P.1 P.2.1 P.2.2) 1 2 * at2 (J P.1 P.2.1 P.2.2) 2 0
      + at2 (J P.1 P.2.1 P.2.2) 0 2 * at2 (J P.1 P.2.1 P.2.2) 1 0 * at2 (J P.1 P.2.1 P.2.2) 2 1
      - at2 (J P.1 P.2.1 P.2.2) 0 0 * at2 (J P.1 P.2.1 P.2.2) 1 2 * at2 (J P.1 P.2.1 P.2.2) 2 1
      - at2 (J P.1 P.2.1 P.2.2) 0 1 * at2 (J P.1 P.2.1 P.2.2) 1 0 * at2 (J P.1 P.2.1 P.2.2) 2 2
      - at2 (J P.1 P.2.1 P.2.2) 0 2 * at2 (J P.1 P.2.1 P.2.2) 1 1 * at2 (J P.1 P.2.1 P.2.2) 2 0) = some D := hD
  clear hD
  obtain rfl := Option.some.inj hD'
  clear hD'
  unfold normal3 faceJ3
  rw [← hP]
  generalize hM : J P.1 P.2.1 P.2.2 = M at hF hpos
  have key : ∀ (a b o w : ℝ × ℝ × ℝ) (s : ℝ) (ta tb : ℝ × ℝ × ℝ), s = 1 ∨ s = -1 → lin3 M ta = a → lin3 M tb = b →
      (0 < s * dot3 (lin3 M o) (a.2.1 * b.2.2 - a.2.2 * b.2.1, a.2.2 * b.1 - a.1 * b.2.2, a.1 * b.2.1 - a.2.1 * b.1)) →
      w = (s * ((a.2.1 * b.2.2 - a.2.2 * b.2.1) / √((a.2.1 * b.2.2 - a.2.2 * b.2.1) ^ 2 + (a.2.2 * b.1 - a.1 * b.2.2) ^ 2 + (a.1 * b.2.1 - a.2.1 * b.1) ^ 2)),
        s * ((a.2.2 * b.1 - a.1 * b.2.2) / √((a.2.1 * b.2.2 - a.2.2 * b.2.1) ^ 2 + (a.2.2 * b.1 - a.1 * b.2.2) ^ 2 + (a.1 * b.2.1 - a.2.1 * b.1) ^ 2)),
        s * ((a.1 * b.2.1 - a.2.1 * b.1) / √((a.2.1 * b.2.2 - a.2.2 * b.2.1) ^ 2 + (a.2.2 * b.1 - a.1 * b.2.2) ^ 2 + (a.1 * b.2.1 - a.2.1 * b.1) ^ 2))) →
      OutwardUnitNormal3 (fun p => f p.1 p.2.1 p.2.2) P ta tb o w := by
    rintro a b o w s ta tb hs ha hb ho rfl
    have hx : a.1 * (a.2.1 * b.2.2 - a.2.2 * b.2.1) + a.2.1 * (a.2.2 * b.1 - a.1 * b.2.2)
        + a.2.2 * (a.1 * b.2.1 - a.2.1 * b.1) = 0 := by ring
    have hy : b.1 * (a.2.1 * b.2.2 - a.2.2 * b.2.1) + b.2.1 * (a.2.2 * b.1 - a.1 * b.2.2)
        + b.2.2 * (a.1 * b.2.1 - a.2.1 * b.1) = 0 := by ring
    generalize a.2.1 * b.2.2 - a.2.2 * b.2.1 = X at *
    generalize a.2.2 * b.1 - a.1 * b.2.2 = Y at *
    generalize a.1 * b.2.1 - a.2.1 * b.1 = Z at *
    have hp : 0 < X ^ 2 + Y ^ 2 + Z ^ 2 := by
      by_contra h
      have h1 : X = 0 := by nlinarith [sq_nonneg X, sq_nonneg Y, sq_nonneg Z]
      have h2 : Y = 0 := by nlinarith [sq_nonneg X, sq_nonneg Y, sq_nonneg Z]
      have h3 : Z = 0 := by nlinarith [sq_nonneg X, sq_nonneg Y, sq_nonneg Z]
      simp [dot3, h1, h2, h3] at ho
    have hs2 : s ^ 2 = 1 := by rcases hs with rfl | rfl <;> norm_num
    have hm : 0 < √(X ^ 2 + Y ^ 2 + Z ^ 2) := Real.sqrt_pos.2 hp
    have hm2 := Real.sq_sqrt hp.le
    generalize √(X ^ 2 + Y ^ 2 + Z ^ 2) = m at *
    have hF' : HasFDerivAt (fun p : ℝ × ℝ × ℝ => f p.1 p.2.1 p.2.2) (lin3 M) P := hF
    refine outward3_of hF' ?_ ?_ ?_ ?_
    · simp only [dot3]; field_simp; rw [hs2]; linarith
    · rw [ha]; simp only [dot3]; field_simp; linear_combination s * hx
    · rw [hb]; simp only [dot3]; field_simp; linear_combination s * hy
    · have e : dot3 (lin3 M o) (s * (X / m), s * (Y / m), s * (Z / m)) = s * dot3 (lin3 M o) (X, Y, Z) / m := by
        simp only [dot3]; ring
      rw [e]; exact div_pos ho hm
  have hff : fid = 0 ∨ fid = 1 ∨ fid = 2 ∨ fid = 3 ∨ fid = 4 ∨ fid = 5 := by omega
  rcases hff with rfl | rfl | rfl | rfl | rfl | rfl
  · refine ⟨_, rfl, key (col M 1) (col M 2) _ _ (-1) _ _ (Or.inr rfl) ?_ ?_ ?_ ?_⟩
    · rw [lin3_apply]; simp [col, along3]
    · rw [lin3_apply]; simp [col, along3']
    · rw [lin3_apply]; simp [col, dot3, out3]; nlinarith
    · simp [hM]
  · refine ⟨_, rfl, key (col M 1) (col M 2) _ _ 1 _ _ (Or.inl rfl) ?_ ?_ ?_ ?_⟩
    · rw [lin3_apply]; simp [col, along3]
    · rw [lin3_apply]; simp [col, along3']
    · rw [lin3_apply]; simp [col, dot3, out3]; nlinarith
    · simp [hM]
  · refine ⟨_, rfl, key (col M 2) (col M 0) _ _ (-1) _ _ (Or.inr rfl) ?_ ?_ ?_ ?_⟩
    · rw [lin3_apply]; simp [col, along3]
    · rw [lin3_apply]; simp [col, along3']
    · rw [lin3_apply]; simp [col, dot3, out3]; nlinarith
    · simp [hM]
  · refine ⟨_, rfl, key (col M 2) (col M 0) _ _ 1 _ _ (Or.inl rfl) ?_ ?_ ?_ ?_⟩
    · rw [lin3_apply]; simp [col, along3]
    · rw [lin3_apply]; simp [col, along3']
    · rw [lin3_apply]; simp [col, dot3, out3]; nlinarith
    · simp [hM]
  · refine ⟨_, rfl, key (col M 0) (col M 1) _ _ (-1) _ _ (Or.inr rfl) ?_ ?_ ?_ ?_⟩
    · rw [lin3_apply]; simp [col, along3]
    · rw [lin3_apply]; simp [col, along3']
    · rw [lin3_apply]; simp [col, dot3, out3]; nlinarith
    · simp [hM]
  · refine ⟨_, rfl, key (col M 0) (col M 1) _ _ 1 _ _ (Or.inl rfl) ?_ ?_ ?_ ?_⟩
    · rw [lin3_apply]; simp [col, along3]
    · rw [lin3_apply]; simp [col, along3']
    · rw [lin3_apply]; simp [col, dot3, out3]; nlinarith
    · simp [hM]

/-- The nodes at the ends of side `fid` of a triangle, and the opposite node (`vtu_5_triangle.py:15-37`). -/
def triSide (P : Fin 3 → ℝ × ℝ) (fid : ℕ) : (ℝ × ℝ) × (ℝ × ℝ) × (ℝ × ℝ) :=
  if fid = 0 then (P 0, P 1, P 2) else if fid = 1 then (P 1, P 2, P 0) else (P 0, P 2, P 1)

/-- Triangles with nodes in anticlockwise order: on each side, at every point, the returned vector has length one, is
orthogonal to the side and points away from the opposite node. -/
theorem triangle_normal_outward (P : Fin 3 → ℝ × ℝ)
    (hP : 0 < ((P 1).1 - (P 0).1) * ((P 2).2 - (P 0).2) - ((P 2).1 - (P 0).1) * ((P 1).2 - (P 0).2))
    (fid : ℕ) (hf : fid < 3) (t : ℝ) :
    ∃ v, normalTri (triJ [(P 0).1, (P 1).1, (P 2).1] [(P 0).2, (P 1).2, (P 2).2]) fid t = some v ∧
      dot2 v v = 1 ∧ dot2 ((triSide P fid).2.1 - (triSide P fid).1) v = 0 ∧
      dot2 ((triSide P fid).2.2 - (triSide P fid).1) v < 0 := by
  have key : ∀ w a b : ℝ × ℝ, dot2 a w = 0 → dot2 b w < 0 →
      dot2 (normalise2 w) (normalise2 w) = 1 ∧ dot2 a (normalise2 w) = 0 ∧ dot2 b (normalise2 w) < 0 := by
    intro w a b ha hb
    have hne : w.1 ^ 2 + w.2 ^ 2 ≠ 0 := by
      intro e
      have e1 : w.1 = 0 := by nlinarith [sq_nonneg w.1, sq_nonneg w.2]
      have e2 : w.2 = 0 := by nlinarith [sq_nonneg w.1, sq_nonneg w.2]
      simp [dot2, e1, e2] at hb
    obtain ⟨hu, c, hc, e⟩ := normalise2_spec w hne
    refine ⟨hu, ?_, ?_⟩
    · rw [e]; simp only [dot2] at ha ⊢; linear_combination c * ha
    · rw [e]; simp only [dot2] at hb ⊢
      have := mul_pos hc (neg_pos.2 hb)
      linarith
  have hff : fid = 0 ∨ fid = 1 ∨ fid = 2 := by omega
  rcases hff with rfl | rfl | rfl
  · refine ⟨_, rfl, key _ _ _ ?_ ?_⟩ <;>
      simp [dot2, triSide, facePoint2, triJ, triCoef, triInvA, dot, at2, List.range, List.range.loop]
    · ring
    · nlinarith
  · refine ⟨_, rfl, key _ _ _ ?_ ?_⟩ <;>
      simp [dot2, triSide, facePoint2, triJ, triCoef, triInvA, dot, at2, List.range, List.range.loop]
    · ring
    · nlinarith
  · refine ⟨_, rfl, key _ _ _ ?_ ?_⟩ <;>
      simp [dot2, triSide, facePoint2, triJ, triCoef, triInvA, dot, at2, List.range, List.range.loop]
    · ring
    · nlinarith

/-- The nodes at the ends of side `fid` of a quadrilateral. -/
def quadSide (P : Fin 4 → ℝ × ℝ) (fid : ℕ) : (ℝ × ℝ) × (ℝ × ℝ) :=
  if fid = 0 then (P 0, P 3) else if fid = 1 then (P 1, P 2) else if fid = 2 then (P 0, P 1) else (P 3, P 2)

/-- Every three consecutive nodes turn to the left: the quadrilateral is strictly convex and its nodes are in
anticlockwise order. -/
def LeftTurns (P : Fin 4 → ℝ × ℝ) : Prop :=
  ∀ i : Fin 4, 0 < ((P (i + 1)).1 - (P i).1) * ((P (i + 2)).2 - (P i).2)
    - ((P (i + 2)).1 - (P i).1) * ((P (i + 1)).2 - (P i).2)

/-- Convex quadrilaterals with nodes in anticlockwise order: on each side, at every point, the returned vector has length
one, is orthogonal to the side and points away from every node that is not on the side. -/
theorem quad_normal_outward (P : Fin 4 → ℝ × ℝ) (hP : LeftTurns P) (fid : ℕ) (hf : fid < 4) (t : ℝ) :
    ∃ v, normal2 (quadJ [(P 0).1, (P 1).1, (P 2).1, (P 3).1] [(P 0).2, (P 1).2, (P 2).2, (P 3).2]) fid t = some v ∧
      dot2 v v = 1 ∧ dot2 ((quadSide P fid).2 - (quadSide P fid).1) v = 0 ∧
      ∀ j, P j = (quadSide P fid).1 ∨ P j = (quadSide P fid).2 ∨ dot2 (P j - (quadSide P fid).1) v < 0 := by
  have key : ∀ w a b c : ℝ × ℝ, dot2 a w = 0 → dot2 b w < 0 → dot2 c w < 0 →
      dot2 (normalise2 w) (normalise2 w) = 1 ∧ dot2 a (normalise2 w) = 0 ∧ dot2 b (normalise2 w) < 0 ∧
        dot2 c (normalise2 w) < 0 := by
    intro w a b d ha hb hd
    have hne : w.1 ^ 2 + w.2 ^ 2 ≠ 0 := by
      intro e
      have e1 : w.1 = 0 := by nlinarith [sq_nonneg w.1, sq_nonneg w.2]
      have e2 : w.2 = 0 := by nlinarith [sq_nonneg w.1, sq_nonneg w.2]
      simp [dot2, e1, e2] at hb
    obtain ⟨hu, c, hc, e⟩ := normalise2_spec w hne
    refine ⟨hu, ?_, ?_, ?_⟩
    · rw [e]; simp only [dot2] at ha ⊢; linear_combination c * ha
    · rw [e]; simp only [dot2] at hb ⊢
      have := mul_pos hc (neg_pos.2 hb)
      linarith
    · rw [e]; simp only [dot2] at hd ⊢
      have := mul_pos hc (neg_pos.2 hd)
      linarith
  have h0 := hP 0
  have h1 := hP 1
  have h2 := hP 2
  have h3 := hP 3
  simp only [show (0 : Fin 4) + 1 = 1 from rfl, show (0 : Fin 4) + 2 = 2 from rfl, show (1 : Fin 4) + 1 = 2 from rfl,
    show (1 : Fin 4) + 2 = 3 from rfl, show (2 : Fin 4) + 1 = 3 from rfl, show (2 : Fin 4) + 2 = 0 from rfl,
    show (3 : Fin 4) + 1 = 0 from rfl, show (3 : Fin 4) + 2 = 1 from rfl] at h0 h1 h2 h3
  have fin4 : ∀ j : Fin 4, j = 0 ∨ j = 1 ∨ j = 2 ∨ j = 3 := by decide
  have hff : fid = 0 ∨ fid = 1 ∨ fid = 2 ∨ fid = 3 := by omega
  rcases hff with rfl | rfl | rfl | rfl
  · refine ⟨_, rfl, ?_⟩
    obtain ⟨k1, k2, k3, k4⟩ := key (-(at2 (quadJ [(P 0).1, (P 1).1, (P 2).1, (P 3).1]
        [(P 0).2, (P 1).2, (P 2).2, (P 3).2] (-1) t) 1 1),
        at2 (quadJ [(P 0).1, (P 1).1, (P 2).1, (P 3).1]
        [(P 0).2, (P 1).2, (P 2).2, (P 3).2] (-1) t) 0 1)
      (P 3 - P 0) (P 1 - P 0) (P 2 - P 0)
      (by simp [dot2, quadJ, quadCoef, quadInvA, dot, at2]; ring)
      (by simp [dot2, quadJ, quadCoef, quadInvA, dot, at2]; nlinarith)
      (by simp [dot2, quadJ, quadCoef, quadInvA, dot, at2]; nlinarith)
    refine ⟨k1, k2, fun j => ?_⟩
    rcases fin4 j with rfl | rfl | rfl | rfl
    · exact Or.inl rfl
    · exact Or.inr (Or.inr k3)
    · exact Or.inr (Or.inr k4)
    · exact Or.inr (Or.inl rfl)
  · refine ⟨_, rfl, ?_⟩
    obtain ⟨k1, k2, k3, k4⟩ := key (at2 (quadJ [(P 0).1, (P 1).1, (P 2).1, (P 3).1]
        [(P 0).2, (P 1).2, (P 2).2, (P 3).2] 1 t) 1 1,
        -(at2 (quadJ [(P 0).1, (P 1).1, (P 2).1, (P 3).1]
        [(P 0).2, (P 1).2, (P 2).2, (P 3).2] 1 t) 0 1))
      (P 2 - P 1) (P 0 - P 1) (P 3 - P 1)
      (by simp [dot2, quadJ, quadCoef, quadInvA, dot, at2]; ring)
      (by simp [dot2, quadJ, quadCoef, quadInvA, dot, at2]; nlinarith)
      (by simp [dot2, quadJ, quadCoef, quadInvA, dot, at2]; nlinarith)
    refine ⟨k1, k2, fun j => ?_⟩
    rcases fin4 j with rfl | rfl | rfl | rfl
    · exact Or.inr (Or.inr k3)
    · exact Or.inl rfl
    · exact Or.inr (Or.inl rfl)
    · exact Or.inr (Or.inr k4)
  · refine ⟨_, rfl, ?_⟩
    obtain ⟨k1, k2, k3, k4⟩ := key (at2 (quadJ [(P 0).1, (P 1).1, (P 2).1, (P 3).1]
        [(P 0).2, (P 1).2, (P 2).2, (P 3).2] t (-1)) 1 0,
        -(at2 (quadJ [(P 0).1, (P 1).1, (P 2).1, (P 3).1]
        [(P 0).2, (P 1).2, (P 2).2, (P 3).2] t (-1)) 0 0))
      (P 1 - P 0) (P 2 - P 0) (P 3 - P 0)
      (by simp [dot2, quadJ, quadCoef, quadInvA, dot, at2]; ring)
      (by simp [dot2, quadJ, quadCoef, quadInvA, dot, at2]; nlinarith)
      (by simp [dot2, quadJ, quadCoef, quadInvA, dot, at2]; nlinarith)
    refine ⟨k1, k2, fun j => ?_⟩
    rcases fin4 j with rfl | rfl | rfl | rfl
    · exact Or.inl rfl
    · exact Or.inr (Or.inl rfl)
    · exact Or.inr (Or.inr k3)
    · exact Or.inr (Or.inr k4)
  · refine ⟨_, rfl, ?_⟩
    obtain ⟨k1, k2, k3, k4⟩ := key (-(at2 (quadJ [(P 0).1, (P 1).1, (P 2).1, (P 3).1]
        [(P 0).2, (P 1).2, (P 2).2, (P 3).2] t 1) 1 0),
        at2 (quadJ [(P 0).1, (P 1).1, (P 2).1, (P 3).1]
        [(P 0).2, (P 1).2, (P 2).2, (P 3).2] t 1) 0 0)
      (P 2 - P 3) (P 0 - P 3) (P 1 - P 3)
      (by simp [dot2, quadJ, quadCoef, quadInvA, dot, at2]; ring)
      (by simp [dot2, quadJ, quadCoef, quadInvA, dot, at2]; nlinarith)
      (by simp [dot2, quadJ, quadCoef, quadInvA, dot, at2]; nlinarith)
    refine ⟨k1, k2, fun j => ?_⟩
    rcases fin4 j with rfl | rfl | rfl | rfl
    · exact Or.inr (Or.inr k3)
    · exact Or.inr (Or.inr k4)
    · exact Or.inr (Or.inl rfl)
    · exact Or.inl rfl

/-- The code does not look at the orientation of the nodes: with the nodes of the unit square in clockwise order the vector
returned on the side from node 0 to node 3, the lower side, is `(0, 1)`, which points into the element. -/
theorem normal_clockwise_refuted : ∀ t : ℝ,
    normal2 (quadJ [0, 0, 1, 1] [0, 1, 1, 0]) 0 t = some (0, 1) ∧
    (∀ r, quadMap [0, 0, 1, 1] [0, 1, 1, 0] (-1) r = ((r + 1) / 2, 0)) ∧
    quadMap [0, 0, 1, 1] [0, 1, 1, 0] 1 t = ((t + 1) / 2, 1) := by
  intro t
  refine ⟨?_, fun r => ?_, ?_⟩
  · unfold normal2 faceJ2
    norm_num [facePoint2, quadJ, quadCoef, quadInvA, dot, at2, normalise2]
    rw [show (4 : ℝ) = 2 ^ 2 by norm_num, Real.sqrt_sq (by norm_num)]
    norm_num
  · simp [quadMap, bilin, quadCoef, quadInvA, dot]; ring
  · simp only [quadMap, bilin, quadCoef, quadInvA, dot, List.map_cons, List.map_nil, List.zipWith_cons_cons,
      List.zipWith_nil_left, List.sum_cons, List.sum_nil, List.getD_cons_zero, List.getD_cons_succ, Prod.mk.injEq]
    constructor <;> ring

/-! ### The hypotheses are met -/

/-- A quadrilateral that is not a parallelogram. -/
def someQuad : Fin 4 → ℝ × ℝ
  | 0 => (0, 0)
  | 1 => (2, 0)
  | 2 => (3, 2)
  | 3 => (0, 1)

example : LeftTurns someQuad := by
  have fin4 : ∀ j : Fin 4, j = 0 ∨ j = 1 ∨ j = 2 ∨ j = 3 := by decide
  intro i
  rcases fin4 i with rfl | rfl | rfl | rfl
  · change (0 : ℝ) < (2 - 0) * (2 - 0) - (3 - 0) * (0 - 0); norm_num
  · change (0 : ℝ) < (3 - 2) * (1 - 0) - (0 - 2) * (2 - 0); norm_num
  · change (0 : ℝ) < (0 - 3) * (0 - 2) - (0 - 3) * (1 - 2); norm_num
  · change (0 : ℝ) < (0 - 0) * (0 - 1) - (2 - 0) * (0 - 1); norm_num

example : ∃ v, normal2 (crazy2J 0 1 0 1 0) 3 0.5 = some v := by
  exact Option.isSome_iff_exists.1 ((normal2_faces _ _ _).2 (by norm_num))

example : ∃ D, Metric.jacobian 3 3 (at2 (hexJ id 1 2 3)) = some D ∧ 0 < D := by
  refine ⟨_, rfl, ?_⟩
  norm_num [hexJ, at2]

end Phyem.Geometry
