import Verif.Geometry.Shape
import Verif.Metric.Props
import Mathlib.Order.Interval.Set.Basic
import Mathlib.Topology.Order.IntermediateValue
import Mathlib.Analysis.Calculus.Deriv.MeanValue

/-!
C74: the crazy mesh's mapping is a bijection of the unit cube onto the requested box, with positive Jacobian, in the range
of deformation factors in which that is true.
-/

namespace Phyem.Geometry

open Real

theorem sin_two_pi_mul_one : sin (2 * π * 1) = 0 := by rw [mul_one, Real.sin_two_pi]

theorem abs_sin_two_pi_mul_le (s : ℝ) : |sin (2 * π * s)| ≤ 2 * π * |s| := by
  have := Real.abs_sin_le_abs (x := 2 * π * s)
  rw [abs_mul, abs_of_pos Real.two_pi_pos] at this
  exact this

theorem abs_sin_two_pi_mul_le' (s : ℝ) : |sin (2 * π * s)| ≤ 2 * π * |s - 1| := by
  have h := abs_sin_two_pi_mul_le (s - 1)
  rwa [show 2 * π * (s - 1) = 2 * π * s - 2 * π from by ring, Real.sin_sub_two_pi] at h

/-- The deformation added in every direction keeps a coordinate on its side of 0 and of 1. -/
theorem in_unit (k m s : ℝ) (hk : |k| * π < 1) (hm : |m| ≤ 1)
    (h0 : 0 ≤ s + 1 / 2 * k * (m * sin (2 * π * s))) (h1 : s + 1 / 2 * k * (m * sin (2 * π * s)) ≤ 1) :
    0 ≤ s ∧ s ≤ 1 := by
  have b : ∀ t, |sin (2 * π * s)| ≤ 2 * π * t → 0 ≤ t → |1 / 2 * k * (m * sin (2 * π * s))| ≤ |k| * π * t := by
    intro t ht h0t
    rw [abs_mul, abs_mul, abs_mul, abs_of_pos (by norm_num : (0 : ℝ) < 1 / 2)]
    have : |m| * |sin (2 * π * s)| ≤ 1 * (2 * π * t) := mul_le_mul hm ht (abs_nonneg _) zero_le_one
    nlinarith [abs_nonneg k]
  have b0 := b |s| (abs_sin_two_pi_mul_le s) (abs_nonneg _)
  have b1 := b |s - 1| (abs_sin_two_pi_mul_le' s) (abs_nonneg _)
  constructor
  · by_contra hs
    push Not at hs
    rw [abs_of_neg hs] at b0
    have := (abs_le.1 b0).2
    nlinarith
  · by_contra hs
    push Not at hs
    rw [abs_of_pos (by linarith : 0 < s - 1)] at b1
    have := (abs_le.1 b1).1
    nlinarith

theorem stays_in_unit (k m s : ℝ) (hk : |k| * π < 1) (hm : |m| ≤ 1) (h0 : 0 ≤ s) (h1 : s ≤ 1) :
    0 ≤ s + 1 / 2 * k * (m * sin (2 * π * s)) ∧ s + 1 / 2 * k * (m * sin (2 * π * s)) ≤ 1 := by
  have b : ∀ t, |sin (2 * π * s)| ≤ 2 * π * t → 0 ≤ t → |1 / 2 * k * (m * sin (2 * π * s))| ≤ |k| * π * t := by
    intro t ht h0t
    rw [abs_mul, abs_mul, abs_mul, abs_of_pos (by norm_num : (0 : ℝ) < 1 / 2)]
    have : |m| * |sin (2 * π * s)| ≤ 1 * (2 * π * t) := mul_le_mul hm ht (abs_nonneg _) zero_le_one
    nlinarith [abs_nonneg k]
  have b0 := b |s| (abs_sin_two_pi_mul_le s) (abs_nonneg _)
  have b1 := b |s - 1| (abs_sin_two_pi_mul_le' s) (abs_nonneg _)
  rw [abs_of_nonneg h0] at b0
  rw [abs_of_nonpos (by linarith : s - 1 ≤ 0)] at b1
  have c0 := (abs_le.1 b0).1
  have c1 := (abs_le.1 b1).2
  constructor <;> nlinarith

theorem pi_three_tenths {k : ℝ} (h0 : 0 ≤ k) (h1 : k ≤ 0.3) : |k| * π < 1 := by
  rw [abs_of_nonneg h0]
  nlinarith [Real.pi_lt_d2, Real.pi_pos]

/-- A function of one variable with derivative positive everywhere is injective. -/
theorem strictMono_of_hasDerivAt {g g' : ℝ → ℝ} (h : ∀ t, HasDerivAt g (g' t) t) (hp : ∀ t, 0 < g' t) : StrictMono g := by
  apply strictMono_of_deriv_pos
  intro t
  rw [(h t).deriv]
  exact hp t


/-! ### Two dimensions -/

/-- The displacement of a point, relative to the extents of the box. -/
noncomputable def wave2 (k r s : ℝ) : ℝ := 1 / 2 * k * (sin (2 * π * r) * sin (2 * π * s))

theorem crazy2_eq (a b c d k r s : ℝ) :
    crazy2 a b c d k r s = ((b - a) * (r + wave2 k r s) + a, (d - c) * (s + wave2 k r s) + c) := by
  unfold crazy2 wave2
  split_ifs with h
  · subst h; simp
  · simp only [Prod.mk.injEq]; constructor <;> norm_num <;> ring_nf <;> simp

/-- The Jacobian determinant in two dimensions. -/
theorem crazy2_det (a b c d k r s : ℝ) :
    Metric.jacobian 2 2 (at2 (crazy2J a b c d k r s)) =
      some ((b - a) * (d - c) * (1 + π * k * sin (2 * π * r + 2 * π * s))) := by
  unfold crazy2J
  split_ifs with h
  · subst h; simp [Metric.jacobian, at2]
  · simp only [Metric.jacobian, at2, Real.sin_add]
    simp
    ring

/-- On its sides the mapping is the undeformed one. -/
theorem crazy2_sides (a b c d k t : ℝ) :
    crazy2 a b c d k 0 t = (a, (d - c) * t + c) ∧ crazy2 a b c d k 1 t = (b, (d - c) * t + c) ∧
    crazy2 a b c d k t 0 = ((b - a) * t + a, c) ∧ crazy2 a b c d k t 1 = ((b - a) * t + a, d) := by
  simp [crazy2_eq, wave2]

theorem slope2_pos (k x : ℝ) (hk : |k| * π < 1) : 0 < 1 + π * k * sin x := by
  have h1 : |π * k * sin x| ≤ |k| * π := by
    rw [abs_mul, abs_mul, abs_of_pos Real.pi_pos]
    nlinarith [Real.abs_sin_le_one x, abs_nonneg k, Real.pi_pos, mul_nonneg (abs_nonneg k) Real.pi_pos.le]
  linarith [(abs_le.1 h1).1]

/-- For every deformation factor in the documented range `[0, 0.3]` (indeed for `|c| π < 1`) the two dimensional crazy
mapping is a bijection of the unit square onto the requested box, and its Jacobian is positive. -/
theorem crazy2_valid (a b c d k : ℝ) (hab : a < b) (hcd : c < d) (hk : |k| * π < 1) :
    Set.BijOn (fun p : ℝ × ℝ => crazy2 a b c d k p.1 p.2) (Set.Icc 0 1 ×ˢ Set.Icc 0 1)
      (Set.Icc a b ×ˢ Set.Icc c d) ∧
    ∀ r s, ∃ D, Metric.jacobian 2 2 (at2 (crazy2J a b c d k r s)) = some D ∧ 0 < D := by
  have hba : 0 < b - a := by linarith
  have hdc : 0 < d - c := by linarith
  have m1 : ∀ t, |sin (2 * π * t)| ≤ 1 := fun t => Real.abs_sin_le_one _
  have w1 : ∀ r s, s + wave2 k r s = s + 1 / 2 * k * (sin (2 * π * r) * sin (2 * π * s)) := fun r s => rfl
  have w2 : ∀ r s, r + wave2 k r s = r + 1 / 2 * k * (sin (2 * π * s) * sin (2 * π * r)) := fun r s => by
    unfold wave2; ring
  have mono : ∀ v, StrictMono fun t => t + wave2 k (t + v) t := by
    intro v
    apply strictMono_of_hasDerivAt (g' := fun t => 1 + π * k * sin (2 * π * (t + v) + 2 * π * t))
    · intro t
      have e1 : HasDerivAt (fun t => sin (2 * π * (t + v))) (cos (2 * π * (t + v)) * (2 * π * 1)) t :=
        (((hasDerivAt_id t).add_const v).const_mul (2 * π)).sin
      have e2 : HasDerivAt (fun t => sin (2 * π * t)) (cos (2 * π * t) * (2 * π * 1)) t :=
        ((hasDerivAt_id t).const_mul (2 * π)).sin
      have := (hasDerivAt_id t).add ((e1.mul e2).const_mul (1 / 2 * k))
      refine this.congr_deriv ?_
      rw [Real.sin_add]
      ring
    · exact fun t => slope2_pos k _ hk
  refine ⟨⟨?_, ?_, ?_⟩, ?_⟩
  · rintro ⟨r, s⟩ ⟨⟨hr0, hr1⟩, hs0, hs1⟩
    simp only at hr0 hr1 hs0 hs1
    simp only [crazy2_eq]
    obtain ⟨x0, x1⟩ := stays_in_unit k _ r hk (m1 s) hr0 hr1
    obtain ⟨y0, y1⟩ := stays_in_unit k _ s hk (m1 r) hs0 hs1
    rw [← w2] at x0 x1
    rw [← w1] at y0 y1
    exact ⟨⟨by nlinarith, by nlinarith⟩, by nlinarith, by nlinarith⟩
  · rintro ⟨r, s⟩ _ ⟨r', s'⟩ _ h
    simp only [crazy2_eq, Prod.mk.injEq] at h
    obtain ⟨h1, h2⟩ := h
    have e1 : r + wave2 k r s = r' + wave2 k r' s' := by
      apply mul_left_cancel₀ hba.ne'; linarith
    have e2 : s + wave2 k r s = s' + wave2 k r' s' := by
      apply mul_left_cancel₀ hdc.ne'; linarith
    have e3 : r - s = r' - s' := by linarith
    have e4 : s = s' := by
      apply (mono (r - s)).injective
      simp only [add_sub_cancel]
      rw [e2, e3, add_sub_cancel]
    ext
    · simp only; linarith
    · exact e4
  · rintro ⟨x, y⟩ ⟨⟨hx0, hx1⟩, hy0, hy1⟩
    simp only at hx0 hx1 hy0 hy1
    set p := (x - a) / (b - a) with hp
    set q := (y - c) / (d - c) with hq
    have hp0 : 0 ≤ p := div_nonneg (by linarith) hba.le
    have hp1 : p ≤ 1 := (div_le_one hba).2 (by linarith)
    have hq0 : 0 ≤ q := div_nonneg (by linarith) hdc.le
    have hq1 : q ≤ 1 := (div_le_one hdc).2 (by linarith)
    have cont : Continuous fun t => t + wave2 k (t + (p - q)) t := by unfold wave2; fun_prop
    have ivt := intermediate_value_Icc (zero_le_one' ℝ) cont.continuousOn
    have hmem : q ∈ Set.Icc ((fun t => t + wave2 k (t + (p - q)) t) 0) ((fun t => t + wave2 k (t + (p - q)) t) 1) := by
      simp [wave2, hq0, hq1]
    obtain ⟨s, hs, hsq⟩ := ivt hmem
    simp only at hsq
    have hr : (s + (p - q)) + wave2 k (s + (p - q)) s = p := by linarith
    have hru : 0 ≤ s + (p - q) ∧ s + (p - q) ≤ 1 := by
      apply in_unit k (sin (2 * π * s)) _ hk (m1 s)
      · rw [← w2, hr]; exact hp0
      · rw [← w2, hr]; exact hp1
    refine ⟨(s + (p - q), s), ⟨hru, hs⟩, ?_⟩
    simp only [crazy2_eq, hr, hsq, Prod.mk.injEq]
    constructor
    · rw [hp]; field_simp; ring
    · rw [hq]; field_simp; ring
  · intro r s
    refine ⟨_, crazy2_det a b c d k r s, ?_⟩
    have := slope2_pos k (2 * π * r + 2 * π * s) hk
    positivity

/-- The documented largest deformation is covered. -/
example : |(0.3 : ℝ)| * π < 1 := pi_three_tenths (by norm_num) (by norm_num)

/-! ### One dimension -/

/-- One dimension: for `|c| π < 1` the mapping is a bijection of the unit interval onto `[a, b]` with positive Jacobian. -/
theorem crazy1_valid (a b k : ℝ) (hab : a < b) (hk : |k| * π < 1) :
    Set.BijOn (crazy1 a b k) (Set.Icc 0 1) (Set.Icc a b) ∧
    ∀ r, ∃ D, Metric.jacobian 1 1 (at2 (crazy1J a b k r)) = some D ∧ 0 < D := by
  have hba : 0 < b - a := by linarith
  have slope : ∀ x, 0 < 1 + π * k * cos x := by
    intro x
    rw [← Real.sin_add_pi_div_two]
    exact slope2_pos k _ hk
  have mono : StrictMono fun t => crazy1 a b k t := by
    apply strictMono_of_hasDerivAt (g' := fun t => (b - a) * (1 + π * k * cos (2 * π * t)))
    · intro t
      have e2 : HasDerivAt (fun t => sin (2 * π * t)) (cos (2 * π * t) * (2 * π * 1)) t :=
        ((hasDerivAt_id t).const_mul (2 * π)).sin
      have := (((hasDerivAt_id t).add (e2.const_mul (0.5 * k))).const_mul (b - a)).add_const a
      refine this.congr_deriv ?_
      ring
    · intro t
      have := slope (2 * π * t)
      positivity
  have e0 : crazy1 a b k 0 = a := by simp [crazy1]
  have e1 : crazy1 a b k 1 = b := by simp [crazy1]
  refine ⟨⟨?_, mono.injective.injOn, ?_⟩, ?_⟩
  · rintro r ⟨h0, h1⟩
    have := mono.monotone h0
    have := mono.monotone h1
    simp only [e0, e1] at *
    exact ⟨by assumption, by assumption⟩
  · have cont : Continuous fun t => crazy1 a b k t := by unfold crazy1; fun_prop
    have ivt := intermediate_value_Icc (zero_le_one' ℝ) cont.continuousOn
    rwa [e0, e1] at ivt
  · intro r
    refine ⟨(b - a) * (1 + π * k * cos (2 * π * r)), ?_, ?_⟩
    · unfold crazy1J
      split_ifs with h
      · subst h; simp [Metric.jacobian, at2]
      · simp [Metric.jacobian, at2]; ring
    · have := slope (2 * π * r)
      positivity

/-! ### Three dimensions -/

/-- The displacement of a point, relative to the extents of the box. -/
noncomputable def wave3 (k r s t : ℝ) : ℝ := 1 / 2 * k * (sin (2 * π * r) * sin (2 * π * s) * sin (2 * π * t))

/-- The slope of the displacement along the diagonal, relative to `π c`. -/
noncomputable def slope3 (x y z : ℝ) : ℝ := cos x * sin y * sin z + sin x * cos y * sin z + sin x * sin y * cos z

theorem crazy3_eq (a b c d e f k r s t : ℝ) :
    crazy3 a b c d e f k r s t = ((b - a) * (r + wave3 k r s t) + a, (d - c) * (s + wave3 k r s t) + c,
      (f - e) * (t + wave3 k r s t) + e) := by
  unfold crazy3 wave3
  split_ifs with h
  · subst h; simp
  · simp only [Prod.mk.injEq]; refine ⟨?_, ?_, ?_⟩ <;> norm_num <;> ring_nf <;> simp

theorem crazy3_det (a b c d e f k r s t : ℝ) :
    Metric.jacobian 3 3 (at2 (crazy3J a b c d e f k r s t)) =
      some ((b - a) * (d - c) * (f - e) * (1 + π * k * slope3 (2 * π * r) (2 * π * s) (2 * π * t))) := by
  unfold crazy3J
  split_ifs with h
  · subst h; simp [Metric.jacobian, at2, slope3]
  · simp only [Metric.jacobian, at2, slope3]
    simp
    ring

theorem crazy3_sides (a b c d e f k u v : ℝ) :
    crazy3 a b c d e f k 0 u v = (a, (d - c) * u + c, (f - e) * v + e) ∧
    crazy3 a b c d e f k 1 u v = (b, (d - c) * u + c, (f - e) * v + e) ∧
    crazy3 a b c d e f k u 0 v = ((b - a) * u + a, c, (f - e) * v + e) ∧
    crazy3 a b c d e f k u 1 v = ((b - a) * u + a, d, (f - e) * v + e) ∧
    crazy3 a b c d e f k u v 0 = ((b - a) * u + a, (d - c) * v + c, e) ∧
    crazy3 a b c d e f k u v 1 = ((b - a) * u + a, (d - c) * v + c, f) := by
  simp [crazy3_eq, wave3]

/-- The largest slope along the diagonal is at most `√2`. -/
theorem slope3_sq (x y z : ℝ) : slope3 x y z ^ 2 ≤ 2 := by
  have e : slope3 x y z = sin z * sin (x + y) + cos z * (sin x * sin y) := by
    unfold slope3; rw [Real.sin_add]; ring
  have h1 := Real.sin_sq_add_cos_sq z
  have h2 : sin (x + y) ^ 2 ≤ 1 := Real.sin_sq_le_one _
  have h3 : (sin x * sin y) ^ 2 ≤ 1 := by
    rw [mul_pow]
    exact mul_le_one₀ (Real.sin_sq_le_one _) (sq_nonneg _) (Real.sin_sq_le_one _)
  rw [e]
  nlinarith [sq_nonneg (sin z * (sin x * sin y) - cos z * sin (x + y))]

theorem slope3_pos (k x y z : ℝ) (hk : k ^ 2 * π ^ 2 * 2 < 1) : 0 < 1 + π * k * slope3 x y z := by
  have h := slope3_sq x y z
  have : (π * k * slope3 x y z) ^ 2 < 1 := by
    have : (π * k * slope3 x y z) ^ 2 = k ^ 2 * π ^ 2 * slope3 x y z ^ 2 := by ring
    rw [this]
    have h0 : 0 ≤ k ^ 2 * π ^ 2 := by positivity
    nlinarith
  have := (abs_lt_of_sq_lt_sq' (by simpa using this : (π * k * slope3 x y z) ^ 2 < 1 ^ 2) zero_le_one).1
  linarith

/-- Three dimensions, for `2 π² c² < 1` (which covers `0 ≤ c ≤ 0.225`): the mapping is a bijection of the unit cube onto the
requested box with positive Jacobian. The documented range is `[0, 0.3]`; see `crazy3_valid_refuted`. -/
theorem crazy3_valid_partial (a b c d e f k : ℝ) (hab : a < b) (hcd : c < d) (hef : e < f)
    (hk2 : k ^ 2 * π ^ 2 * 2 < 1) :
    Set.BijOn (fun p : ℝ × ℝ × ℝ => crazy3 a b c d e f k p.1 p.2.1 p.2.2) (Set.Icc 0 1 ×ˢ Set.Icc 0 1 ×ˢ Set.Icc 0 1)
      (Set.Icc a b ×ˢ Set.Icc c d ×ˢ Set.Icc e f) ∧
    ∀ r s t, ∃ D, Metric.jacobian 3 3 (at2 (crazy3J a b c d e f k r s t)) = some D ∧ 0 < D := by
  have hba : 0 < b - a := by linarith
  have hdc : 0 < d - c := by linarith
  have hfe : 0 < f - e := by linarith
  have hk : |k| * π < 1 := by
    have : (|k| * π) ^ 2 < 1 ^ 2 := by
      rw [mul_pow, sq_abs]; nlinarith [mul_nonneg (sq_nonneg k) (sq_nonneg π)]
    exact (abs_lt_of_sq_lt_sq' this zero_le_one).2
  have m1 : ∀ u v, |sin (2 * π * u) * sin (2 * π * v)| ≤ 1 := fun u v => by
    rw [abs_mul]
    exact mul_le_one₀ (Real.abs_sin_le_one _) (abs_nonneg _) (Real.abs_sin_le_one _)
  have w1 : ∀ r s t, t + wave3 k r s t = t + 1 / 2 * k * (sin (2 * π * r) * sin (2 * π * s) * sin (2 * π * t)) :=
    fun r s t => rfl
  have w2 : ∀ r s t, s + wave3 k r s t = s + 1 / 2 * k * (sin (2 * π * r) * sin (2 * π * t) * sin (2 * π * s)) :=
    fun r s t => by unfold wave3; ring
  have w3 : ∀ r s t, r + wave3 k r s t = r + 1 / 2 * k * (sin (2 * π * s) * sin (2 * π * t) * sin (2 * π * r)) :=
    fun r s t => by unfold wave3; ring
  have mono : ∀ u v, StrictMono fun t => t + wave3 k (t + u) (t + v) t := by
    intro u v
    apply strictMono_of_hasDerivAt
      (g' := fun t => 1 + π * k * slope3 (2 * π * (t + u)) (2 * π * (t + v)) (2 * π * t))
    · intro t
      have e1 : ∀ v, HasDerivAt (fun t => sin (2 * π * (t + v))) (cos (2 * π * (t + v)) * (2 * π * 1)) t := fun v =>
        (((hasDerivAt_id t).add_const v).const_mul (2 * π)).sin
      have e2 : HasDerivAt (fun t => sin (2 * π * t)) (cos (2 * π * t) * (2 * π * 1)) t :=
        ((hasDerivAt_id t).const_mul (2 * π)).sin
      have := (hasDerivAt_id t).add ((((e1 u).mul (e1 v)).mul e2).const_mul (1 / 2 * k))
      refine this.congr_deriv ?_
      unfold slope3
      simp only [Pi.mul_apply]
      ring
    · exact fun t => slope3_pos k _ _ _ hk2
  refine ⟨⟨?_, ?_, ?_⟩, ?_⟩
  · rintro ⟨r, s, t⟩ ⟨⟨hr0, hr1⟩, ⟨hs0, hs1⟩, ht0, ht1⟩
    simp only at hr0 hr1 hs0 hs1 ht0 ht1
    simp only [crazy3_eq]
    obtain ⟨x0, x1⟩ := stays_in_unit k _ r hk (m1 s t) hr0 hr1
    obtain ⟨y0, y1⟩ := stays_in_unit k _ s hk (m1 r t) hs0 hs1
    obtain ⟨z0, z1⟩ := stays_in_unit k _ t hk (m1 r s) ht0 ht1
    rw [← w3] at x0 x1
    rw [← w2] at y0 y1
    rw [← w1] at z0 z1
    exact ⟨⟨by nlinarith, by nlinarith⟩, ⟨by nlinarith, by nlinarith⟩, by nlinarith, by nlinarith⟩
  · rintro ⟨r, s, t⟩ _ ⟨r', s', t'⟩ _ h
    simp only [crazy3_eq, Prod.mk.injEq] at h
    obtain ⟨h1, h2, h3⟩ := h
    have e1 : r + wave3 k r s t = r' + wave3 k r' s' t' := by
      apply mul_left_cancel₀ hba.ne'; linarith
    have e2 : s + wave3 k r s t = s' + wave3 k r' s' t' := by
      apply mul_left_cancel₀ hdc.ne'; linarith
    have e3 : t + wave3 k r s t = t' + wave3 k r' s' t' := by
      apply mul_left_cancel₀ hfe.ne'; linarith
    have e4 : r - t = r' - t' := by linarith
    have e5 : s - t = s' - t' := by linarith
    have e6 : t = t' := by
      apply (mono (r - t) (s - t)).injective
      simp only [add_sub_cancel]
      rw [e3, e4, e5, add_sub_cancel, add_sub_cancel]
    ext
    · simp only; linarith
    · simp only; linarith
    · exact e6
  · rintro ⟨x, y, z⟩ ⟨⟨hx0, hx1⟩, ⟨hy0, hy1⟩, hz0, hz1⟩
    simp only at hx0 hx1 hy0 hy1 hz0 hz1
    set p := (x - a) / (b - a) with hp
    set q := (y - c) / (d - c) with hq
    set m := (z - e) / (f - e) with hm
    have hp0 : 0 ≤ p := div_nonneg (by linarith) hba.le
    have hp1 : p ≤ 1 := (div_le_one hba).2 (by linarith)
    have hq0 : 0 ≤ q := div_nonneg (by linarith) hdc.le
    have hq1 : q ≤ 1 := (div_le_one hdc).2 (by linarith)
    have hm0 : 0 ≤ m := div_nonneg (by linarith) hfe.le
    have hm1 : m ≤ 1 := (div_le_one hfe).2 (by linarith)
    have cont : Continuous fun t => t + wave3 k (t + (p - m)) (t + (q - m)) t := by unfold wave3; fun_prop
    have ivt := intermediate_value_Icc (zero_le_one' ℝ) cont.continuousOn
    have hmem : m ∈ Set.Icc ((fun t => t + wave3 k (t + (p - m)) (t + (q - m)) t) 0)
        ((fun t => t + wave3 k (t + (p - m)) (t + (q - m)) t) 1) := by
      simp [wave3, hm0, hm1]
    obtain ⟨t, ht, htq⟩ := ivt hmem
    simp only at htq
    have hr : (t + (p - m)) + wave3 k (t + (p - m)) (t + (q - m)) t = p := by linarith
    have hs : (t + (q - m)) + wave3 k (t + (p - m)) (t + (q - m)) t = q := by linarith
    have hru : 0 ≤ t + (p - m) ∧ t + (p - m) ≤ 1 := by
      apply in_unit k (sin (2 * π * (t + (q - m))) * sin (2 * π * t)) _ hk (m1 _ _)
      · rw [← w3, hr]; exact hp0
      · rw [← w3, hr]; exact hp1
    have hsu : 0 ≤ t + (q - m) ∧ t + (q - m) ≤ 1 := by
      apply in_unit k (sin (2 * π * (t + (p - m))) * sin (2 * π * t)) _ hk (m1 _ _)
      · rw [← w2, hs]; exact hq0
      · rw [← w2, hs]; exact hq1
    refine ⟨(t + (p - m), t + (q - m), t), ⟨hru, hsu, ht⟩, ?_⟩
    simp only [crazy3_eq, hr, hs, htq, Prod.mk.injEq]
    refine ⟨?_, ?_, ?_⟩
    · rw [hp]; field_simp; ring
    · rw [hq]; field_simp; ring
    · rw [hm]; field_simp; ring
  · intro r s t
    refine ⟨_, crazy3_det a b c d e f k r s t, ?_⟩
    have := slope3_pos k (2 * π * r) (2 * π * s) (2 * π * t) hk2
    positivity

/-- Deformations up to 0.225 are covered. -/
example (k : ℝ) (h0 : 0 ≤ k) (h1 : k ≤ 0.225) : k ^ 2 * π ^ 2 * 2 < 1 := by
  have h3 : 0 ≤ k * π := mul_nonneg h0 Real.pi_pos.le
  have : k * π ≤ 0.225 * 3.1416 := mul_le_mul h1 (le_of_lt (lt_of_lt_of_le Real.pi_lt_d4 (by norm_num)))
    Real.pi_pos.le (by norm_num)
  have h2 : k ^ 2 * π ^ 2 = (k * π) ^ 2 := by ring
  rw [h2]
  nlinarith

/-- The range stated in the documentation, `c ∈ [0, 0.3]`, is too large in three dimensions: with `c = 0.3` the mapping of
the unit cube turns inside out near a point, whatever the box. -/
theorem crazy3_valid_refuted (a b c d e f : ℝ) (hab : a < b) (hcd : c < d) (hef : e < f) :
    ∃ r, 0 ≤ r ∧ r ≤ 1 ∧ ∃ D, Metric.jacobian 3 3 (at2 (crazy3J a b c d e f 0.3 r r r)) = some D ∧ D < 0 := by
  refine ⟨arccos (-0.577) / (2 * π), ?_, ?_, _, crazy3_det a b c d e f 0.3 _ _ _, ?_⟩
  · exact div_nonneg (Real.arccos_nonneg _) Real.two_pi_pos.le
  · rw [div_le_one Real.two_pi_pos]
    linarith [Real.arccos_le_pi (-0.577), Real.pi_pos]
  · have hA : 2 * π * (arccos (-0.577) / (2 * π)) = arccos (-0.577) := by
      field_simp
    rw [hA]
    have hc : cos (arccos (-0.577)) = -0.577 := Real.cos_arccos (by norm_num) (by norm_num)
    have hs : sin (arccos (-0.577)) ^ 2 = 1 - 0.577 ^ 2 := by
      have := Real.sin_sq_add_cos_sq (arccos (-0.577))
      rw [hc] at this
      linarith
    have hS : slope3 (arccos (-0.577)) (arccos (-0.577)) (arccos (-0.577)) = 3 * -0.577 * (1 - 0.577 ^ 2) := by
      rw [← hs]
      unfold slope3
      rw [hc]
      ring
    rw [hS]
    have hneg : 1 + π * 0.3 * (3 * -0.577 * (1 - 0.577 ^ 2)) < 0 := by
      nlinarith [Real.pi_gt_d2]
    have : 0 < (b - a) * (d - c) * (f - e) := by
      have := sub_pos.2 hab; have := sub_pos.2 hcd; have := sub_pos.2 hef
      positivity
    exact mul_neg_of_pos_of_neg this hneg

end Phyem.Geometry
