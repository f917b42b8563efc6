import Verif.Norms.Spec
import Mathlib.MeasureTheory.Function.JacobianOneDim
import Mathlib.Tactic.FunProp
import Mathlib.MeasureTheory.Group.Prod
import Mathlib.MeasureTheory.Measure.Haar.Basic
import Mathlib.MeasureTheory.Measure.Lebesgue.Basic

/-!
Integrals over elements as integrals over the reference square and cube.
-/

namespace Phyem.Norms

open Set MeasureTheory

lemma det_two (A : ℝ × ℝ →L[ℝ] ℝ × ℝ) : A.det = (A (1, 0)).1 * (A (0, 1)).2 - (A (0, 1)).1 * (A (1, 0)).2 := by
  have h : A.det = LinearMap.det (A : ℝ × ℝ →ₗ[ℝ] ℝ × ℝ) := rfl
  rw [h, ← LinearMap.det_toMatrix (Module.Basis.finTwoProd ℝ), Matrix.det_fin_two]
  simp [LinearMap.toMatrix_apply]

/-- Space as functions of three indices. -/
def equiv3 : (ℝ × ℝ × ℝ) ≃ₗ[ℝ] (Fin 3 → ℝ) where
  toFun := fun P => ![P.1, P.2.1, P.2.2]
  invFun := fun v => (v 0, v 1, v 2)
  map_add' := by intro P Q; ext i; fin_cases i <;> rfl
  map_smul' := by intro a P; ext i; fin_cases i <;> rfl
  left_inv := by intro P; rfl
  right_inv := by intro v; ext i; fin_cases i <;> rfl

/-- The standard basis of space. -/
noncomputable def basis3 : Module.Basis (Fin 3) ℝ (ℝ × ℝ × ℝ) := Module.Basis.ofEquivFun equiv3

lemma basis3_repr (P : ℝ × ℝ × ℝ) : basis3.repr P 0 = P.1 ∧ basis3.repr P 1 = P.2.1 ∧ basis3.repr P 2 = P.2.2 :=
  ⟨rfl, rfl, rfl⟩

lemma equiv3_symm (v : Fin 3 → ℝ) : equiv3.symm v = (v 0, v 1, v 2) := rfl

lemma basis3_at : basis3 0 = (1, 0, 0) ∧ basis3 1 = (0, 1, 0) ∧ basis3 2 = (0, 0, 1) := by
  refine ⟨?_, ?_, ?_⟩ <;> rw [basis3, Module.Basis.coe_ofEquivFun] <;> dsimp only <;>
    rw [equiv3_symm] <;> simp [Pi.single_apply]

lemma det_three (A : ℝ × ℝ × ℝ →L[ℝ] ℝ × ℝ × ℝ) (J : ℕ → ℕ → ℝ) (h0 : A (1, 0, 0) = (J 0 0, J 1 0, J 2 0))
    (h1 : A (0, 1, 0) = (J 0 1, J 1 1, J 2 1)) (h2 : A (0, 0, 1) = (J 0 2, J 1 2, J 2 2)) : A.det = det3 J := by
  have h : A.det = LinearMap.det (A : ℝ × ℝ × ℝ →ₗ[ℝ] ℝ × ℝ × ℝ) := rfl
  rw [h, ← LinearMap.det_toMatrix basis3, Matrix.det_fin_three]
  simp only [LinearMap.toMatrix_apply, basis3_at, ContinuousLinearMap.coe_coe, h0, h1, h2, basis3_repr]
  unfold det3
  ring

/-- Integrals over the open square are iterated integrals. -/
lemma integral_O2 (F : ℝ → ℝ → ℝ) (hF : IntegrableOn (fun P : ℝ × ℝ => F P.1 P.2) O2) :
    ∫ P in O2, F P.1 P.2 = ∫ x in (-1 : ℝ)..1, ∫ y in (-1 : ℝ)..1, F x y := by
  rw [Measure.volume_eq_prod] at *
  rw [setIntegral_prod _ hF]
  simp only [intervalIntegral.integral_of_le (by norm_num : (-1 : ℝ) ≤ 1), integral_Ioc_eq_integral_Ioo]

/-- In space, too. -/
lemma integral_O3 (F : ℝ → ℝ → ℝ → ℝ) (hF : IntegrableOn (fun P : ℝ × ℝ × ℝ => F P.1 P.2.1 P.2.2) O3) :
    ∫ P in O3, F P.1 P.2.1 P.2.2 = ∫ x in (-1 : ℝ)..1, ∫ y in (-1 : ℝ)..1, ∫ z in (-1 : ℝ)..1, F x y z := by
  rw [Measure.volume_eq_prod] at hF ⊢
  rw [setIntegral_prod _ hF, intervalIntegral.integral_of_le (by norm_num : (-1 : ℝ) ≤ 1), integral_Ioc_eq_integral_Ioo]
  apply integral_congr_ae
  rw [IntegrableOn, ← Measure.prod_restrict] at hF
  filter_upwards [hF.prod_right_ae] with x hx
  exact integral_O2 (F x) hx

lemma measurableSet_O2 : MeasurableSet O2 := measurableSet_Ioo.prod measurableSet_Ioo
lemma measurableSet_O3 : MeasurableSet O3 := measurableSet_Ioo.prod measurableSet_O2

instance haar2 : (volume : Measure (ℝ × ℝ)).IsAddHaarMeasure :=
  inferInstanceAs ((volume : Measure ℝ).prod (volume : Measure ℝ)).IsAddHaarMeasure

instance haar3 : (volume : Measure (ℝ × ℝ × ℝ)).IsAddHaarMeasure :=
  inferInstanceAs ((volume : Measure ℝ).prod (volume : Measure (ℝ × ℝ))).IsAddHaarMeasure

/-- The integral over an element. -/
lemma integral_region2 {Φ : ℝ → ℝ → ℝ × ℝ} {J : ℝ → ℝ → ℕ → ℕ → ℝ} (h : Chart2 Φ J) (g : ℝ × ℝ → ℝ) :
    ∫ P in Region2 Φ, g P = ∫ P in O2, det2 (J P.1 P.2) * g (Φ P.1 P.2) := by
  unfold Region2
  rw [integral_image_eq_integral_abs_det_fderiv_smul volume measurableSet_O2
    (f' := fun P => fderiv ℝ (fun P : ℝ × ℝ => Φ P.1 P.2) P)
    (fun P hP => (h.diff P.1 hP.1 P.2 hP.2).hasFDerivAt.hasFDerivWithinAt) h.inj]
  apply setIntegral_congr_fun measurableSet_O2
  intro P hP
  obtain ⟨h0, h1⟩ := h.jac P.1 hP.1 P.2 hP.2
  have : (fderiv ℝ (fun P : ℝ × ℝ => Φ P.1 P.2) P).det = det2 (J P.1 P.2) := by
    rw [det_two, h0, h1]; rfl
  simp only [this, smul_eq_mul, abs_of_nonneg (h.pos P.1 hP.1 P.2 hP.2)]

lemma integral_region3 {Φ : ℝ → ℝ → ℝ → ℝ × ℝ × ℝ} {J : ℝ → ℝ → ℝ → ℕ → ℕ → ℝ} (h : Chart3 Φ J) (g : ℝ × ℝ × ℝ → ℝ) :
    ∫ P in Region3 Φ, g P = ∫ P in O3, det3 (J P.1 P.2.1 P.2.2) * g (Φ P.1 P.2.1 P.2.2) := by
  unfold Region3
  rw [integral_image_eq_integral_abs_det_fderiv_smul volume measurableSet_O3
    (f' := fun P => fderiv ℝ (fun P : ℝ × ℝ × ℝ => Φ P.1 P.2.1 P.2.2) P)
    (fun P hP => (h.diff P.1 hP.1 P.2.1 hP.2.1 P.2.2 hP.2.2).hasFDerivAt.hasFDerivWithinAt) h.inj]
  apply setIntegral_congr_fun measurableSet_O3
  intro P hP
  obtain ⟨h0, h1, h2⟩ := h.jac P.1 hP.1 P.2.1 hP.2.1 P.2.2 hP.2.2
  have : (fderiv ℝ (fun P : ℝ × ℝ × ℝ => Φ P.1 P.2.1 P.2.2) P).det = det3 (J P.1 P.2.1 P.2.2) :=
    det_three _ _ h0 h1 h2
  simp only [this, smul_eq_mul, abs_of_nonneg (h.pos P.1 hP.1 P.2.1 hP.2.1 P.2.2 hP.2.2)]

/-- A function that can be integrated over the element can be integrated on the reference square. -/
lemma integrable_region2 {Φ : ℝ → ℝ → ℝ × ℝ} {J : ℝ → ℝ → ℕ → ℕ → ℝ} (h : Chart2 Φ J) (g : ℝ × ℝ → ℝ)
    (hg : IntegrableOn g (Region2 Φ)) : IntegrableOn (fun P : ℝ × ℝ => det2 (J P.1 P.2) * g (Φ P.1 P.2)) O2 := by
  unfold Region2 at hg
  rw [integrableOn_image_iff_integrableOn_abs_det_fderiv_smul volume measurableSet_O2
    (f' := fun P => fderiv ℝ (fun P : ℝ × ℝ => Φ P.1 P.2) P)
    (fun P hP => (h.diff P.1 hP.1 P.2 hP.2).hasFDerivAt.hasFDerivWithinAt) h.inj] at hg
  apply hg.congr_fun _ measurableSet_O2
  intro P hP
  obtain ⟨h0, h1⟩ := h.jac P.1 hP.1 P.2 hP.2
  have : (fderiv ℝ (fun P : ℝ × ℝ => Φ P.1 P.2) P).det = det2 (J P.1 P.2) := by
    rw [det_two, h0, h1]; rfl
  simp only [this, smul_eq_mul, abs_of_nonneg (h.pos P.1 hP.1 P.2 hP.2)]

lemma integrable_region3 {Φ : ℝ → ℝ → ℝ → ℝ × ℝ × ℝ} {J : ℝ → ℝ → ℝ → ℕ → ℕ → ℝ} (h : Chart3 Φ J) (g : ℝ × ℝ × ℝ → ℝ)
    (hg : IntegrableOn g (Region3 Φ)) :
    IntegrableOn (fun P : ℝ × ℝ × ℝ => det3 (J P.1 P.2.1 P.2.2) * g (Φ P.1 P.2.1 P.2.2)) O3 := by
  unfold Region3 at hg
  rw [integrableOn_image_iff_integrableOn_abs_det_fderiv_smul volume measurableSet_O3
    (f' := fun P => fderiv ℝ (fun P : ℝ × ℝ × ℝ => Φ P.1 P.2.1 P.2.2) P)
    (fun P hP => (h.diff P.1 hP.1 P.2.1 hP.2.1 P.2.2 hP.2.2).hasFDerivAt.hasFDerivWithinAt) h.inj] at hg
  apply hg.congr_fun _ measurableSet_O3
  intro P hP
  obtain ⟨h0, h1, h2⟩ := h.jac P.1 hP.1 P.2.1 hP.2.1 P.2.2 hP.2.2
  have : (fderiv ℝ (fun P : ℝ × ℝ × ℝ => Φ P.1 P.2.1 P.2.2) P).det = det3 (J P.1 P.2.1 P.2.2) :=
    det_three _ _ h0 h1 h2
  simp only [this, smul_eq_mul, abs_of_nonneg (h.pos P.1 hP.1 P.2.1 hP.2.1 P.2.2 hP.2.2)]

/-- The integral over an element of a line. -/
lemma integral_region1 {Φ D : ℝ → ℝ} (h : Chart1 Φ D) (g : ℝ → ℝ) :
    ∫ P in Region1 Φ, g P = ∫ x in (-1 : ℝ)..1, D x * g (Φ x) := by
  unfold Region1
  rw [integral_image_eq_integral_abs_deriv_smul measurableSet_Ioo (f' := D)
    (fun x hx => (h.diff x hx).hasDerivWithinAt) h.inj, intervalIntegral.integral_of_le (by norm_num : (-1 : ℝ) ≤ 1),
    integral_Ioc_eq_integral_Ioo]
  apply setIntegral_congr_fun measurableSet_Ioo
  intro x hx
  simp only [smul_eq_mul, abs_of_nonneg (h.pos x hx)]

end Phyem.Norms
