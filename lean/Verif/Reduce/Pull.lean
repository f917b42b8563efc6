import Verif.Reduce.Calc
import Mathlib.Analysis.Calculus.FDeriv.Mul
import Mathlib.Analysis.Calculus.FDeriv.CompCLM
import Mathlib.Tactic.Ring
import Mathlib.Tactic.LinearCombination

/-! Pulling fields back to the reference element commutes with the differential operators, at every point. -/

namespace Phyem.Reduce

open Set

variable {E F : Type} [NormedAddCommGroup E] [NormedSpace ℝ E] [NormedAddCommGroup F] [NormedSpace ℝ F]

/-- The derivative of a tangent vector. -/
lemma tan_deriv {Φ : E → F} {P : E} (h : ContDiffAt ℝ 2 Φ P) (e : E) :
    HasFDerivAt (fun Q => fderiv ℝ Φ Q e) ((fderiv ℝ (fderiv ℝ Φ) P).flip e) P := by
  have h1 : ContDiffAt ℝ 1 (fderiv ℝ Φ) P := h.fderiv_right (by norm_num)
  have h2 := (h1.differentiableAt (by norm_num)).hasFDerivAt.clm_apply (hasFDerivAt_const e P)
  refine h2.congr_fderiv ?_
  ext d
  simp

lemma tan_smooth {Φ : E → F} {P : E} (h : ContDiffAt ℝ 2 Φ P) (e : E) :
    ContDiffAt ℝ 1 (fun Q => fderiv ℝ Φ Q e) P :=
  ContDiffAt.clm_apply (h.fderiv_right (by norm_num)) contDiffAt_const

lemma second_symm {Φ : E → F} {P : E} (h : ContDiffAt ℝ 2 Φ P) (a b : E) :
    fderiv ℝ (fderiv ℝ Φ) P a b = fderiv ℝ (fderiv ℝ Φ) P b a :=
  (h.isSymmSndFDerivAt (by simp)) a b

lemma pull_deriv {Φ : E → F} {G : Type} [NormedAddCommGroup G] [NormedSpace ℝ G] {f : F → G} {P : E} (h : ContDiffAt ℝ 2 Φ P)
    (hf : ContDiffAt ℝ 1 f (Φ P)) :
    HasFDerivAt (fun Q => f (Φ Q)) ((fderiv ℝ f (Φ P)).comp (fderiv ℝ Φ P)) P :=
  (hf.differentiableAt (by norm_num)).hasFDerivAt.comp P (h.differentiableAt (by norm_num)).hasFDerivAt

lemma pull_smooth {Φ : E → F} {G : Type} [NormedAddCommGroup G] [NormedSpace ℝ G] {f : F → G} {P : E} (h : ContDiffAt ℝ 2 Φ P)
    (hf : ContDiffAt ℝ 1 f (Φ P)) : ContDiffAt ℝ 1 (fun Q => f (Φ Q)) P :=
  ContDiffAt.comp P hf (h.of_le (by norm_num))

section plane
variable {u w : E → ℝ × ℝ} {u' w' : E →L[ℝ] ℝ × ℝ} {P : E}

lemma dot2_deriv (hu : HasFDerivAt u u' P) (hw : HasFDerivAt w w' P) (d : E) :
    fderiv ℝ (fun Q => dot2 (u Q) (w Q)) P d = dot2 (u' d) (w P) + dot2 (u P) (w' d) := by
  have h := (hu.fst.mul hw.fst).add (hu.snd.mul hw.snd)
  have : fderiv ℝ (fun Q => dot2 (u Q) (w Q)) P = _ := h.fderiv
  rw [this]
  simp [dot2]
  ring

lemma cross2_deriv (hu : HasFDerivAt u u' P) (hw : HasFDerivAt w w' P) (d : E) :
    fderiv ℝ (fun Q => cross2 (u Q) (w Q)) P d = cross2 (u' d) (w P) + cross2 (u P) (w' d) := by
  have h := (hu.fst.mul hw.snd).sub (hu.snd.mul hw.fst)
  have : fderiv ℝ (fun Q => cross2 (u Q) (w Q)) P = _ := h.fderiv
  rw [this]
  simp [cross2]
  ring

lemma dot2_smooth (hu : ContDiffAt ℝ 1 u P) (hw : ContDiffAt ℝ 1 w P) : ContDiffAt ℝ 1 (fun Q => dot2 (u Q) (w Q)) P :=
  (hu.fst.mul hw.fst).add (hu.snd.mul hw.snd)

lemma cross2_smooth (hu : ContDiffAt ℝ 1 u P) (hw : ContDiffAt ℝ 1 w P) : ContDiffAt ℝ 1 (fun Q => cross2 (u Q) (w Q)) P :=
  (hu.fst.mul hw.snd).sub (hu.snd.mul hw.fst)

end plane

section space
variable {u w z : E → ℝ × ℝ × ℝ} {u' w' z' : E →L[ℝ] ℝ × ℝ × ℝ} {P : E}

lemma dot3_deriv (hu : HasFDerivAt u u' P) (hw : HasFDerivAt w w' P) (d : E) :
    fderiv ℝ (fun Q => dot3 (u Q) (w Q)) P d = dot3 (u' d) (w P) + dot3 (u P) (w' d) := by
  have h := ((hu.fst.mul hw.fst).add (hu.snd.fst.mul hw.snd.fst)).add (hu.snd.snd.mul hw.snd.snd)
  have : fderiv ℝ (fun Q => dot3 (u Q) (w Q)) P = _ := h.fderiv
  rw [this]
  simp [dot3]
  ring

lemma triple_deriv (hu : HasFDerivAt u u' P) (hw : HasFDerivAt w w' P) (hz : HasFDerivAt z z' P) (d : E) :
    fderiv ℝ (fun Q => dot3 (u Q) (cross3 (w Q) (z Q))) P d =
      dot3 (u' d) (cross3 (w P) (z P)) + dot3 (u P) (cross3 (w' d) (z P)) + dot3 (u P) (cross3 (w P) (z' d)) := by
  have h := ((hu.fst.mul ((hw.snd.fst.mul hz.snd.snd).sub (hw.snd.snd.mul hz.snd.fst))).add
    (hu.snd.fst.mul ((hw.snd.snd.mul hz.fst).sub (hw.fst.mul hz.snd.snd)))).add
    (hu.snd.snd.mul ((hw.fst.mul hz.snd.fst).sub (hw.snd.fst.mul hz.fst)))
  have : fderiv ℝ (fun Q => dot3 (u Q) (cross3 (w Q) (z Q))) P = _ := h.fderiv
  rw [this]
  simp [dot3, cross3]
  ring

lemma dot3_smooth (hu : ContDiffAt ℝ 1 u P) (hw : ContDiffAt ℝ 1 w P) : ContDiffAt ℝ 1 (fun Q => dot3 (u Q) (w Q)) P :=
  ((hu.fst.mul hw.fst).add (hu.snd.fst.mul hw.snd.fst)).add (hu.snd.snd.mul hw.snd.snd)

lemma triple_smooth (hu : ContDiffAt ℝ 1 u P) (hw : ContDiffAt ℝ 1 w P) (hz : ContDiffAt ℝ 1 z P) :
    ContDiffAt ℝ 1 (fun Q => dot3 (u Q) (cross3 (w Q) (z Q))) P :=
  ((hu.fst.mul ((hw.snd.fst.mul hz.snd.snd).sub (hw.snd.snd.mul hz.snd.fst))).add
    (hu.snd.fst.mul ((hw.snd.snd.mul hz.fst).sub (hw.fst.mul hz.snd.snd)))).add
    (hu.snd.snd.mul ((hw.fst.mul hz.snd.fst).sub (hw.snd.fst.mul hz.fst)))

end space

lemma split2 (L : ℝ × ℝ →L[ℝ] F) (w : ℝ × ℝ) : L w = w.1 • L (1, 0) + w.2 • L (0, 1) := by
  rw [← map_smul, ← map_smul, ← map_add]
  congr 1
  ext <;> simp

lemma split3 (L : ℝ × ℝ × ℝ →L[ℝ] F) (w : ℝ × ℝ × ℝ) :
    L w = w.1 • L (1, 0, 0) + w.2.1 • L (0, 1, 0) + w.2.2 • L (0, 0, 1) := by
  rw [← map_smul, ← map_smul, ← map_smul, ← map_add, ← map_add]
  congr 1
  ext <;> simp

/-- The circulation along coordinate lines of a mapping into the plane. -/
lemma rot_pull {Φ : E → ℝ × ℝ} {v : ℝ × ℝ → ℝ × ℝ} {P : E} (h : ContDiffAt ℝ 2 Φ P) (hv : ContDiffAt ℝ 1 v (Φ P)) (a b : E) :
    fderiv ℝ (fun Q => dot2 (v (Φ Q)) (fderiv ℝ Φ Q b)) P a - fderiv ℝ (fun Q => dot2 (v (Φ Q)) (fderiv ℝ Φ Q a)) P b =
      rot2 v (Φ P) * cross2 (fderiv ℝ Φ P a) (fderiv ℝ Φ P b) := by
  rw [dot2_deriv (pull_deriv h hv) (tan_deriv h b), dot2_deriv (pull_deriv h hv) (tan_deriv h a)]
  simp only [ContinuousLinearMap.comp_apply, ContinuousLinearMap.flip_apply]
  rw [second_symm h a b, split2 _ (fderiv ℝ Φ P a), split2 _ (fderiv ℝ Φ P b)]
  simp only [dot2, rot2, cross2, Prod.fst_add, Prod.snd_add, Prod.smul_fst, Prod.smul_snd, smul_eq_mul]
  ring

lemma div_pull {Φ : E → ℝ × ℝ} {v : ℝ × ℝ → ℝ × ℝ} {P : E} (h : ContDiffAt ℝ 2 Φ P) (hv : ContDiffAt ℝ 1 v (Φ P)) (a b : E) :
    fderiv ℝ (fun Q => cross2 (v (Φ Q)) (fderiv ℝ Φ Q b)) P a - fderiv ℝ (fun Q => cross2 (v (Φ Q)) (fderiv ℝ Φ Q a)) P b =
      div2 v (Φ P) * cross2 (fderiv ℝ Φ P a) (fderiv ℝ Φ P b) := by
  rw [cross2_deriv (pull_deriv h hv) (tan_deriv h b), cross2_deriv (pull_deriv h hv) (tan_deriv h a)]
  simp only [ContinuousLinearMap.comp_apply, ContinuousLinearMap.flip_apply]
  rw [second_symm h a b, split2 _ (fderiv ℝ Φ P a), split2 _ (fderiv ℝ Φ P b)]
  simp only [div2, cross2, Prod.fst_add, Prod.snd_add, Prod.smul_fst, Prod.smul_snd, smul_eq_mul]
  ring

lemma grad2_pull {Φ : E → ℝ × ℝ} {f : ℝ × ℝ → ℝ} {P : E} (h : ContDiffAt ℝ 2 Φ P) (hf : ContDiffAt ℝ 1 f (Φ P)) (a : E) :
    fderiv ℝ (fun Q => f (Φ Q)) P a = dot2 (grad2 f (Φ P)) (fderiv ℝ Φ P a) := by
  rw [(pull_deriv h hf).fderiv, ContinuousLinearMap.comp_apply, split2]
  simp only [dot2, grad2, smul_eq_mul]
  ring

lemma curl2_pull {Φ : E → ℝ × ℝ} {f : ℝ × ℝ → ℝ} {P : E} (h : ContDiffAt ℝ 2 Φ P) (hf : ContDiffAt ℝ 1 f (Φ P)) (a : E) :
    fderiv ℝ (fun Q => f (Φ Q)) P a = cross2 (curl2 f (Φ P)) (fderiv ℝ Φ P a) := by
  rw [(pull_deriv h hf).fderiv, ContinuousLinearMap.comp_apply, split2]
  simp only [cross2, curl2, smul_eq_mul]
  ring

lemma grad3_pull {Φ : E → ℝ × ℝ × ℝ} {f : ℝ × ℝ × ℝ → ℝ} {P : E} (h : ContDiffAt ℝ 2 Φ P) (hf : ContDiffAt ℝ 1 f (Φ P)) (a : E) :
    fderiv ℝ (fun Q => f (Φ Q)) P a = dot3 (grad3 f (Φ P)) (fderiv ℝ Φ P a) := by
  rw [(pull_deriv h hf).fderiv, ContinuousLinearMap.comp_apply, split3]
  simp only [dot3, grad3, smul_eq_mul]
  ring

lemma curl3_pull {Φ : E → ℝ × ℝ × ℝ} {v : ℝ × ℝ × ℝ → ℝ × ℝ × ℝ} {P : E} (h : ContDiffAt ℝ 2 Φ P)
    (hv : ContDiffAt ℝ 1 v (Φ P)) (a b : E) :
    fderiv ℝ (fun Q => dot3 (v (Φ Q)) (fderiv ℝ Φ Q b)) P a - fderiv ℝ (fun Q => dot3 (v (Φ Q)) (fderiv ℝ Φ Q a)) P b =
      dot3 (curl3 v (Φ P)) (cross3 (fderiv ℝ Φ P a) (fderiv ℝ Φ P b)) := by
  rw [dot3_deriv (pull_deriv h hv) (tan_deriv h b), dot3_deriv (pull_deriv h hv) (tan_deriv h a)]
  simp only [ContinuousLinearMap.comp_apply, ContinuousLinearMap.flip_apply]
  rw [second_symm h a b, split3 _ (fderiv ℝ Φ P a), split3 _ (fderiv ℝ Φ P b)]
  simp only [dot3, curl3, cross3, Prod.fst_add, Prod.snd_add, Prod.smul_fst, Prod.smul_snd, smul_eq_mul]
  ring

lemma div3_pull {Φ : E → ℝ × ℝ × ℝ} {v : ℝ × ℝ × ℝ → ℝ × ℝ × ℝ} {P : E} (h : ContDiffAt ℝ 2 Φ P)
    (hv : ContDiffAt ℝ 1 v (Φ P)) (a b c : E) :
    fderiv ℝ (fun Q => dot3 (v (Φ Q)) (cross3 (fderiv ℝ Φ Q b) (fderiv ℝ Φ Q c))) P a +
      fderiv ℝ (fun Q => dot3 (v (Φ Q)) (cross3 (fderiv ℝ Φ Q c) (fderiv ℝ Φ Q a))) P b +
      fderiv ℝ (fun Q => dot3 (v (Φ Q)) (cross3 (fderiv ℝ Φ Q a) (fderiv ℝ Φ Q b))) P c =
      div3 v (Φ P) * dot3 (fderiv ℝ Φ P a) (cross3 (fderiv ℝ Φ P b) (fderiv ℝ Φ P c)) := by
  rw [triple_deriv (pull_deriv h hv) (tan_deriv h b) (tan_deriv h c), triple_deriv (pull_deriv h hv) (tan_deriv h c) (tan_deriv h a),
    triple_deriv (pull_deriv h hv) (tan_deriv h a) (tan_deriv h b)]
  simp only [ContinuousLinearMap.comp_apply, ContinuousLinearMap.flip_apply]
  rw [second_symm h a b, second_symm h b c, second_symm h c a, split3 _ (fderiv ℝ Φ P a), split3 _ (fderiv ℝ Φ P b),
    split3 _ (fderiv ℝ Φ P c)]
  simp only [dot3, div3, cross3, Prod.fst_add, Prod.snd_add, Prod.smul_fst, Prod.smul_snd, smul_eq_mul]
  ring

end Phyem.Reduce
