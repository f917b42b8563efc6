import Verif.Reduce.Spec
import Mathlib.Analysis.Calculus.FDeriv.Symmetric
import Mathlib.Analysis.Calculus.ContDiff.Operations
import Mathlib.Analysis.Calculus.ContDiff.RCLike
import Mathlib.MeasureTheory.Integral.IntervalIntegral.FundThmCalculus
import Mathlib.MeasureTheory.Integral.DominatedConvergence
import Mathlib.MeasureTheory.Integral.Prod
import Mathlib.Tactic.Linarith

/-! Integration by parts on boxes inside the reference element. -/

namespace Phyem.Reduce

open Set MeasureTheory intervalIntegral

/-- The nearest point of the reference interval. -/
def clip (x : ℝ) : ℝ := max (-1) (min 1 x)

lemma clip_mem (x : ℝ) : clip x ∈ I := ⟨le_max_left _ _, max_le (by norm_num) (min_le_left _ _)⟩

lemma clip_eq {x : ℝ} (h : x ∈ I) : clip x = x := by
  unfold clip
  rw [min_eq_right h.2, max_eq_right h.1]

lemma clip_continuous : Continuous clip := by unfold clip; fun_prop

lemma sub_I {a b x : ℝ} (ha : a ∈ I) (hb : b ∈ I) (hx : x ∈ uIcc a b) : x ∈ I :=
  (uIcc_subset_Icc ha hb) hx

lemma clip2 (g : ℝ → ℝ → ℝ) {a b c d : ℝ} (ha : a ∈ I) (hb : b ∈ I) (hc : c ∈ I) (hd : d ∈ I) :
    ∫ x in a..b, ∫ y in c..d, g x y = ∫ x in a..b, ∫ y in c..d, g (clip x) (clip y) :=
  integral_congr fun x hx => integral_congr fun y hy => by
    simp only [clip_eq (sub_I ha hb hx), clip_eq (sub_I hc hd hy)]

lemma clip3 (g : ℝ → ℝ → ℝ → ℝ) {a b c d e f : ℝ} (ha : a ∈ I) (hb : b ∈ I) (hc : c ∈ I) (hd : d ∈ I) (he : e ∈ I)
    (hf : f ∈ I) :
    ∫ x in a..b, ∫ y in c..d, ∫ z in e..f, g x y z =
      ∫ x in a..b, ∫ y in c..d, ∫ z in e..f, g (clip x) (clip y) (clip z) :=
  integral_congr fun x hx => integral_congr fun y hy => integral_congr fun z hz => by
    simp only [clip_eq (sub_I ha hb hx), clip_eq (sub_I hc hd hy), clip_eq (sub_I he hf hz)]

lemma clip2_continuous {g : ℝ → ℝ → ℝ} (hg : ∀ x ∈ I, ∀ y ∈ I, ContinuousAt (fun P : ℝ × ℝ => g P.1 P.2) (x, y)) :
    Continuous fun P : ℝ × ℝ => g (clip P.1) (clip P.2) := by
  refine continuous_iff_continuousAt.2 fun P => ?_
  have h : ContinuousAt (fun P : ℝ × ℝ => (clip P.1, clip P.2)) P :=
    ((clip_continuous.comp continuous_fst).prodMk (clip_continuous.comp continuous_snd)).continuousAt
  exact ContinuousAt.comp (g := fun P : ℝ × ℝ => g P.1 P.2) (f := fun P : ℝ × ℝ => (clip P.1, clip P.2))
    (hg _ (clip_mem _) _ (clip_mem _)) h

lemma clip3_continuous {g : ℝ → ℝ → ℝ → ℝ}
    (hg : ∀ x ∈ I, ∀ y ∈ I, ∀ z ∈ I, ContinuousAt (fun P : ℝ × ℝ × ℝ => g P.1 P.2.1 P.2.2) (x, y, z)) :
    Continuous fun P : ℝ × ℝ × ℝ => g (clip P.1) (clip P.2.1) (clip P.2.2) := by
  refine continuous_iff_continuousAt.2 fun P => ?_
  have h : ContinuousAt (fun P : ℝ × ℝ × ℝ => (clip P.1, clip P.2.1, clip P.2.2)) P :=
    ((clip_continuous.comp continuous_fst).prodMk ((clip_continuous.comp (continuous_fst.comp continuous_snd)).prodMk
      (clip_continuous.comp (continuous_snd.comp continuous_snd)))).continuousAt
  exact ContinuousAt.comp (g := fun P : ℝ × ℝ × ℝ => g P.1 P.2.1 P.2.2)
    (f := fun P : ℝ × ℝ × ℝ => (clip P.1, clip P.2.1, clip P.2.2))
    (hg _ (clip_mem _) _ (clip_mem _) _ (clip_mem _)) h

lemma swap_of_continuous {g : ℝ → ℝ → ℝ} (hg : Continuous fun P : ℝ × ℝ => g P.1 P.2) (a b c d : ℝ) :
    ∫ x in a..b, ∫ y in c..d, g x y = ∫ y in c..d, ∫ x in a..b, g x y := by
  refine intervalIntegral_intervalIntegral_swap ?_
  have : IntegrableOn (Function.uncurry g) (uIcc a b ×ˢ uIcc c d) :=
    ContinuousOn.integrableOn_compact (isCompact_uIcc.prod isCompact_uIcc) hg.continuousOn
  exact this.mono_set (prod_mono uIoc_subset_uIcc uIoc_subset_uIcc)

lemma swap2 {g : ℝ → ℝ → ℝ} (hg : ∀ x ∈ I, ∀ y ∈ I, ContinuousAt (fun P : ℝ × ℝ => g P.1 P.2) (x, y)) {a b c d : ℝ}
    (ha : a ∈ I) (hb : b ∈ I) (hc : c ∈ I) (hd : d ∈ I) :
    ∫ x in a..b, ∫ y in c..d, g x y = ∫ y in c..d, ∫ x in a..b, g x y := by
  rw [clip2 g ha hb hc hd, clip2 (fun y x => g x y) hc hd ha hb]
  exact swap_of_continuous (clip2_continuous hg) a b c d

/-- The derivative along a line, integrated. -/
lemma ftc {E : Type} [NormedAddCommGroup E] [NormedSpace ℝ E] {A : E → ℝ} {γ : ℝ → E} {e : E}
    (hγ : ∀ t, HasDerivAt γ e t) {a b : ℝ} (h : ∀ t ∈ uIcc a b, ContDiffAt ℝ 1 A (γ t)) :
    ∫ t in a..b, fderiv ℝ A (γ t) e = A (γ b) - A (γ a) := by
  refine integral_eq_sub_of_hasDerivAt (f := fun t => A (γ t)) (fun t ht => ?_) ?_
  · exact ((h t ht).differentiableAt (by norm_num)).hasFDerivAt.comp_hasDerivAt t (hγ t)
  · refine ContinuousOn.intervalIntegrable fun t ht => ContinuousAt.continuousWithinAt ?_
    have h1 : ContinuousAt (fderiv ℝ A) (γ t) := (h t ht).continuousAt_fderiv (by norm_num)
    exact ((ContinuousAt.comp (f := γ) h1 (hγ t).continuousAt)).clm_apply continuousAt_const

lemma partial_continuousAt {E : Type} [NormedAddCommGroup E] [NormedSpace ℝ E] {X : Type} [TopologicalSpace X]
    {A : E → ℝ} {γ : X → E} (hγ : Continuous γ) {s : X} (e : E) (h : ContDiffAt ℝ 1 A (γ s)) :
    ContinuousAt (fun t => fderiv ℝ A (γ t) e) s := by
  have h1 : ContinuousAt (fderiv ℝ A) (γ s) := h.continuousAt_fderiv (by norm_num)
  exact ((ContinuousAt.comp (f := γ) h1 hγ.continuousAt)).clm_apply continuousAt_const

lemma add2 {g h : ℝ → ℝ → ℝ} (hg : ∀ x ∈ I, ∀ y ∈ I, ContinuousAt (fun P : ℝ × ℝ => g P.1 P.2) (x, y))
    (hh : ∀ x ∈ I, ∀ y ∈ I, ContinuousAt (fun P : ℝ × ℝ => h P.1 P.2) (x, y)) {a b c d : ℝ}
    (ha : a ∈ I) (hb : b ∈ I) (hc : c ∈ I) (hd : d ∈ I) :
    ∫ x in a..b, ∫ y in c..d, (g x y + h x y) =
      (∫ x in a..b, ∫ y in c..d, g x y) + ∫ x in a..b, ∫ y in c..d, h x y := by
  rw [clip2 (fun x y => g x y + h x y) ha hb hc hd, clip2 g ha hb hc hd, clip2 h ha hb hc hd]
  have cg := clip2_continuous hg
  have ch := clip2_continuous hh
  rw [← intervalIntegral.integral_add]
  · refine integral_congr fun x _ => ?_
    try dsimp only
    rw [intervalIntegral.integral_add]
    · exact (cg.comp (Continuous.prodMk_right x)).intervalIntegrable _ _
    · exact (ch.comp (Continuous.prodMk_right x)).intervalIntegrable _ _
  · exact (continuous_parametric_intervalIntegral_of_continuous' (f := fun x y => g (clip x) (clip y)) cg c d).intervalIntegrable _ _
  · exact (continuous_parametric_intervalIntegral_of_continuous' (f := fun x y => h (clip x) (clip y)) ch c d).intervalIntegrable _ _

/-- Green's theorem on a rectangle of a surface with coordinates `γ`. -/
lemma green {E : Type} [NormedAddCommGroup E] [NormedSpace ℝ E] {A B : E → ℝ} {γ : ℝ → ℝ → E} {e1 e2 : E}
    (hγ : Continuous fun P : ℝ × ℝ => γ P.1 P.2) (h1 : ∀ x y, HasDerivAt (fun t => γ t y) e1 x)
    (h2 : ∀ x y, HasDerivAt (fun t => γ x t) e2 y) (hA : ∀ x ∈ I, ∀ y ∈ I, ContDiffAt ℝ 1 A (γ x y))
    (hB : ∀ x ∈ I, ∀ y ∈ I, ContDiffAt ℝ 1 B (γ x y)) {a b c d : ℝ}
    (ha : a ∈ I) (hb : b ∈ I) (hc : c ∈ I) (hd : d ∈ I) :
    ∫ x in a..b, ∫ y in c..d, (fderiv ℝ B (γ x y) e1 + fderiv ℝ A (γ x y) e2) =
      (∫ y in c..d, (B (γ b y) - B (γ a y))) + ∫ x in a..b, (A (γ x d) - A (γ x c)) := by
  have cB : ∀ x ∈ I, ∀ y ∈ I, ContinuousAt (fun P : ℝ × ℝ => fderiv ℝ B (γ P.1 P.2) e1) (x, y) := fun x hx y hy =>
    partial_continuousAt hγ e1 (s := (x, y)) (hB x hx y hy)
  have cA : ∀ x ∈ I, ∀ y ∈ I, ContinuousAt (fun P : ℝ × ℝ => fderiv ℝ A (γ P.1 P.2) e2) (x, y) := fun x hx y hy =>
    partial_continuousAt hγ e2 (s := (x, y)) (hA x hx y hy)
  rw [add2 (g := fun x y => fderiv ℝ B (γ x y) e1) (h := fun x y => fderiv ℝ A (γ x y) e2) cB cA ha hb hc hd,
    swap2 cB ha hb hc hd]
  congr 1
  · refine integral_congr fun y hy => ?_
    exact ftc (γ := fun t => γ t y) (fun t => h1 t y) fun t ht => hB t (sub_I ha hb ht) y (sub_I hc hd hy)
  · refine integral_congr fun x hx => ?_
    exact ftc (γ := fun t => γ x t) (fun t => h2 x t) fun t ht => hA x (sub_I ha hb hx) t (sub_I hc hd ht)

/-- An iterated integral whose integrand is integrable in the last two variables, first variable moved inside. -/
lemma inner_continuous {g : ℝ → ℝ → ℝ → ℝ} (hg : Continuous fun P : ℝ × ℝ × ℝ => g P.1 P.2.1 P.2.2) (e f : ℝ) :
    Continuous fun P : ℝ × ℝ => ∫ z in e..f, g P.1 P.2 z := by
  refine continuous_parametric_intervalIntegral_of_continuous' (f := fun (P : ℝ × ℝ) z => g P.1 P.2 z) ?_ e f
  have : Continuous fun Q : (ℝ × ℝ) × ℝ => (Q.1.1, Q.1.2, Q.2) := by fun_prop
  exact hg.comp this

lemma inner2_continuous {g : ℝ → ℝ → ℝ → ℝ} (hg : Continuous fun P : ℝ × ℝ × ℝ => g P.1 P.2.1 P.2.2) (c d e f : ℝ) :
    Continuous fun x => ∫ y in c..d, ∫ z in e..f, g x y z :=
  continuous_parametric_intervalIntegral_of_continuous' (f := fun x y => ∫ z in e..f, g x y z) (inner_continuous hg e f) c d

lemma add3_of_continuous {g h : ℝ → ℝ → ℝ → ℝ} (hg : Continuous fun P : ℝ × ℝ × ℝ => g P.1 P.2.1 P.2.2)
    (hh : Continuous fun P : ℝ × ℝ × ℝ => h P.1 P.2.1 P.2.2) (a b c d e f : ℝ) :
    ∫ x in a..b, ∫ y in c..d, ∫ z in e..f, (g x y z + h x y z) =
      (∫ x in a..b, ∫ y in c..d, ∫ z in e..f, g x y z) + ∫ x in a..b, ∫ y in c..d, ∫ z in e..f, h x y z := by
  rw [← intervalIntegral.integral_add ((inner2_continuous hg c d e f).intervalIntegrable _ _)
    ((inner2_continuous hh c d e f).intervalIntegrable _ _)]
  refine integral_congr fun x _ => ?_
  try dsimp only
  have ig : Continuous fun y => ∫ z in e..f, g x y z := (inner_continuous hg e f).comp (Continuous.prodMk_right x)
  have ih : Continuous fun y => ∫ z in e..f, h x y z := (inner_continuous hh e f).comp (Continuous.prodMk_right x)
  rw [← intervalIntegral.integral_add (ig.intervalIntegrable _ _) (ih.intervalIntegrable _ _)]
  refine integral_congr fun y _ => ?_
  try dsimp only
  have c3 : Continuous fun z : ℝ => (x, y, z) := by fun_prop
  have jg : Continuous fun z => g x y z := hg.comp c3
  have jh : Continuous fun z => h x y z := hh.comp c3
  rw [intervalIntegral.integral_add (jg.intervalIntegrable _ _) (jh.intervalIntegrable _ _)]

lemma swap3_of_continuous {g : ℝ → ℝ → ℝ → ℝ} (hg : Continuous fun P : ℝ × ℝ × ℝ => g P.1 P.2.1 P.2.2)
    (a b c d e f : ℝ) :
    (∫ x in a..b, ∫ y in c..d, ∫ z in e..f, g x y z = ∫ y in c..d, ∫ z in e..f, ∫ x in a..b, g x y z) ∧
    (∫ x in a..b, ∫ y in c..d, ∫ z in e..f, g x y z = ∫ x in a..b, ∫ z in e..f, ∫ y in c..d, g x y z) := by
  constructor
  · rw [swap_of_continuous (inner_continuous hg e f)]
    refine integral_congr fun y _ => ?_
    try dsimp only
    refine swap_of_continuous (g := fun x z => g x y z) ?_ a b e f
    have : Continuous fun P : ℝ × ℝ => (P.1, y, P.2) := by fun_prop
    exact hg.comp this
  · refine integral_congr fun x _ => ?_
    try dsimp only
    refine swap_of_continuous (g := fun y z => g x y z) ?_ c d e f
    have : Continuous fun P : ℝ × ℝ => (x, P.1, P.2) := by fun_prop
    exact hg.comp this

/-- The divergence theorem on a box. -/
lemma divergence {A B C : ℝ × ℝ × ℝ → ℝ} (hA : ∀ x ∈ I, ∀ y ∈ I, ∀ z ∈ I, ContDiffAt ℝ 1 A (x, y, z))
    (hB : ∀ x ∈ I, ∀ y ∈ I, ∀ z ∈ I, ContDiffAt ℝ 1 B (x, y, z))
    (hC : ∀ x ∈ I, ∀ y ∈ I, ∀ z ∈ I, ContDiffAt ℝ 1 C (x, y, z)) {a b c d e f : ℝ}
    (ha : a ∈ I) (hb : b ∈ I) (hc : c ∈ I) (hd : d ∈ I) (he : e ∈ I) (hf : f ∈ I) :
    ∫ x in a..b, ∫ y in c..d, ∫ z in e..f,
      (fderiv ℝ A (x, y, z) (1, 0, 0) + fderiv ℝ B (x, y, z) (0, 1, 0) + fderiv ℝ C (x, y, z) (0, 0, 1)) =
      (∫ y in c..d, ∫ z in e..f, (A (b, y, z) - A (a, y, z))) + (∫ x in a..b, ∫ z in e..f, (B (x, d, z) - B (x, c, z))) +
        ∫ x in a..b, ∫ y in c..d, (C (x, y, f) - C (x, y, e)) := by
  have cA := clip3_continuous (g := fun x y z => fderiv ℝ A (x, y, z) (1, 0, 0)) fun x hx y hy z hz =>
    partial_continuousAt (γ := fun P : ℝ × ℝ × ℝ => (P.1, P.2.1, P.2.2)) (by fun_prop) _ (s := (x, y, z)) (hA x hx y hy z hz)
  have cB := clip3_continuous (g := fun x y z => fderiv ℝ B (x, y, z) (0, 1, 0)) fun x hx y hy z hz =>
    partial_continuousAt (γ := fun P : ℝ × ℝ × ℝ => (P.1, P.2.1, P.2.2)) (by fun_prop) _ (s := (x, y, z)) (hB x hx y hy z hz)
  have cC := clip3_continuous (g := fun x y z => fderiv ℝ C (x, y, z) (0, 0, 1)) fun x hx y hy z hz =>
    partial_continuousAt (γ := fun P : ℝ × ℝ × ℝ => (P.1, P.2.1, P.2.2)) (by fun_prop) _ (s := (x, y, z)) (hC x hx y hy z hz)
  rw [clip3 (fun x y z => fderiv ℝ A (x, y, z) (1, 0, 0) + fderiv ℝ B (x, y, z) (0, 1, 0) + fderiv ℝ C (x, y, z) (0, 0, 1))
    ha hb hc hd he hf, add3_of_continuous
      (g := fun x y z => fderiv ℝ A (clip x, clip y, clip z) (1, 0, 0) + fderiv ℝ B (clip x, clip y, clip z) (0, 1, 0))
      (h := fun x y z => fderiv ℝ C (clip x, clip y, clip z) (0, 0, 1)) (cA.add cB) cC,
    add3_of_continuous (g := fun x y z => fderiv ℝ A (clip x, clip y, clip z) (1, 0, 0))
      (h := fun x y z => fderiv ℝ B (clip x, clip y, clip z) (0, 1, 0)) cA cB]
  rw [(swap3_of_continuous (g := fun x y z => fderiv ℝ A (clip x, clip y, clip z) (1, 0, 0)) cA a b c d e f).1,
    (swap3_of_continuous (g := fun x y z => fderiv ℝ B (clip x, clip y, clip z) (0, 1, 0)) cB a b c d e f).2]
  have dx : ∀ y z t : ℝ, HasDerivAt (fun t : ℝ => (t, y, z)) (1, 0, 0) t := fun y z t =>
    (hasDerivAt_id t).prodMk (hasDerivAt_const t (y, z))
  have dy : ∀ x z t : ℝ, HasDerivAt (fun t : ℝ => (x, t, z)) (0, 1, 0) t := fun x z t =>
    (hasDerivAt_const t x).prodMk ((hasDerivAt_id t).prodMk (hasDerivAt_const t z))
  have dz : ∀ x y t : ℝ, HasDerivAt (fun t : ℝ => (x, y, t)) (0, 0, 1) t := fun x y t =>
    (hasDerivAt_const t x).prodMk ((hasDerivAt_const t y).prodMk (hasDerivAt_id t))
  congr 1
  · congr 1
    · refine integral_congr fun y hy => integral_congr fun z hz => ?_
      try dsimp only
      rw [clip_eq (sub_I hc hd hy), clip_eq (sub_I he hf hz), ← ftc (γ := fun t => (t, y, z)) (dx y z) fun t ht =>
        hA t (sub_I ha hb ht) y (sub_I hc hd hy) z (sub_I he hf hz)]
      exact integral_congr fun x hx => by simp only [clip_eq (sub_I ha hb hx)]
    · refine integral_congr fun x hx => integral_congr fun z hz => ?_
      try dsimp only
      rw [clip_eq (sub_I ha hb hx), clip_eq (sub_I he hf hz), ← ftc (γ := fun t => (x, t, z)) (dy x z) fun t ht =>
        hB x (sub_I ha hb hx) t (sub_I hc hd ht) z (sub_I he hf hz)]
      exact integral_congr fun y hy => by simp only [clip_eq (sub_I hc hd hy)]
  · refine integral_congr fun x hx => integral_congr fun y hy => ?_
    try dsimp only
    rw [clip_eq (sub_I ha hb hx), clip_eq (sub_I hc hd hy), ← ftc (γ := fun t => (x, y, t)) (dz x y) fun t ht =>
      hC x (sub_I ha hb hx) y (sub_I hc hd hy) t (sub_I he hf ht)]
    exact integral_congr fun z hz => by simp only [clip_eq (sub_I he hf hz)]

end Phyem.Reduce
