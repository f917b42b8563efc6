import Verif.Funcs.Model
import Mathlib.MeasureTheory.Integral.IntervalIntegral.TrapezoidalRule
import Mathlib.Algebra.Order.Floor.Semifield

/-!
# C97: the time integral of a vector

`Phyem.Funcs.timeIntegrate f t0 t1 h` is the value, at the time `t1`, of a component of the vector
`v.time_integral(t0, h)`; `f` is the component of `v` at a fixed point.
-/

namespace Phyem.Funcs

open Finset

/-! ### Helpers -/

theorem trapStep_iterate (f : ℝ → ℝ) (H t0 : ℝ) (n : ℕ) : (trapStep f H)^[n] (t0, 0) =
    (t0 + n * H, ∑ k ∈ range n, (f (t0 + k * H) + f (t0 + (k + 1) * H)) / 2 * H) := by
  induction n with
  | zero => simp
  | succ n ih =>
    rw [Function.iterate_succ_apply', ih, trapStep, sum_range_succ]
    refine Prod.ext ?_ ?_
    · simp only [Nat.cast_succ]
      ring
    · simp only
      rw [show t0 + n * H + H = t0 + (n + 1) * H by ring]

theorem signed_step {t0 t1 : ℝ} (n : ℕ) :
    (if t1 < t0 then -(|t1 - t0| / (n : ℝ)) else |t1 - t0| / (n : ℝ)) = (t1 - t0) / n := by
  split_ifs with h
  · rw [abs_of_neg (by linarith), neg_div, neg_neg]
  · rw [abs_of_nonneg (by linarith)]

/-- The rule as one sum. -/
theorem integrate_sum (f : ℝ → ℝ) {t0 t1 h : ℝ} (hh : 0 < h) (ht : 1e-8 ≤ |t0 - t1|) :
    timeIntegrate f t0 t1 h = some (∑ k ∈ range (⌊|t1 - t0| / h⌋₊ + 1),
      (f (t0 + k * ((t1 - t0) / (⌊|t1 - t0| / h⌋₊ + 1 : ℕ))) +
        f (t0 + (k + 1) * ((t1 - t0) / (⌊|t1 - t0| / h⌋₊ + 1 : ℕ)))) / 2 *
        ((t1 - t0) / (⌊|t1 - t0| / h⌋₊ + 1 : ℕ))) := by
  unfold timeIntegrate
  rw [if_pos hh, if_neg (by norm_num at ht ⊢; exact ht)]
  simp only [signed_step, trapStep_iterate]

theorem step_lt {d h : ℝ} (hh : 0 < h) : |d| / ((⌊|d| / h⌋₊ + 1 : ℕ) : ℝ) < h := by
  have hn : (0 : ℝ) < ((⌊|d| / h⌋₊ + 1 : ℕ) : ℝ) := by positivity
  rw [div_lt_iff₀ hn]
  have := Nat.lt_floor_add_one (|d| / h)
  rw [div_lt_iff₀ hh] at this
  push_cast
  linarith

theorem integrate_trapezoidal (f : ℝ → ℝ) {t0 t1 h : ℝ} (hh : 0 < h) (ht : 1e-8 ≤ |t0 - t1|) :
    timeIntegrate f t0 t1 h =
      some (trapezoidal_integral f (⌊|t1 - t0| / h⌋₊ + 1) t0 t1) := by
  rw [integrate_sum f hh ht]
  generalize hn : ⌊|t1 - t0| / h⌋₊ + 1 = n
  have hpos : 0 < n := by omega
  have hn0 : (n : ℝ) ≠ 0 := by positivity
  have := sum_trapezoidal_integral_adjacent_intervals (f := f) (a := t0) (h := (t1 - t0) / n) hpos
  rw [show t0 + n * ((t1 - t0) / n) = t1 by field_simp; ring] at this
  rw [← this]
  congr 1
  refine sum_congr rfl fun k _ => ?_
  rw [trapezoidal_integral_one]
  ring

/-! ### The theorems -/

/-- **C97.** A step that is not positive is refused; up to 1e-8 from the start the integral is
zero. -/
theorem integral_start (f : ℝ → ℝ) (t0 t1 h : ℝ) :
    (h ≤ 0 → timeIntegrate f t0 t1 h = none) ∧
      (0 < h → |t0 - t1| < 1e-8 → timeIntegrate f t0 t1 h = some 0) := by
  refine ⟨fun hh => by simp [timeIntegrate, not_lt.mpr hh], fun hh ht => ?_⟩
  unfold timeIntegrate
  rw [if_pos hh, if_pos (by norm_num at ht ⊢; exact ht)]

/-- **C97.** The composite trapezoidal rule: the interval is divided into `n` equal parts shorter
than the given step, none of them longer than needed by more than one part, and the means of the
values at the ends of the parts are summed up. -/
theorem integral_is_trapezoidal (f : ℝ → ℝ) {t0 t1 h : ℝ} (hh : 0 < h) (ht : 1e-8 ≤ |t0 - t1|) :
    ∃ n : ℕ, 0 < n ∧ |(t1 - t0) / n| < h ∧ ((n : ℝ) - 1) * h ≤ |t1 - t0| ∧
      timeIntegrate f t0 t1 h = some (∑ k ∈ range n,
        (f (t0 + k * ((t1 - t0) / n)) + f (t0 + (k + 1) * ((t1 - t0) / n))) / 2 *
          ((t1 - t0) / n)) := by
  refine ⟨⌊|t1 - t0| / h⌋₊ + 1, by omega, ?_, ?_, integrate_sum f hh ht⟩
  · rw [abs_div, Nat.abs_cast]
    exact step_lt hh
  · push_cast
    rw [add_sub_cancel_right, ← le_div_iff₀ hh]
    exact Nat.floor_le (by positivity)

/-- **C97.** Integrating backwards changes the sign. -/
theorem integral_backwards (f : ℝ → ℝ) (t0 t1 h : ℝ) :
    timeIntegrate f t1 t0 h = (timeIntegrate f t0 t1 h).map (- ·) := by
  by_cases hh : 0 < h
  · by_cases ht : 1e-8 ≤ |t0 - t1|
    · rw [integrate_trapezoidal f hh ht, integrate_trapezoidal f hh (by rwa [abs_sub_comm]),
        abs_sub_comm t1 t0, Option.map_some, trapezoidal_integral_symm f (by omega) t1 t0]
    · rw [(integral_start f t0 t1 h).2 hh (not_le.mp ht),
        (integral_start f t1 t0 h).2 hh (by rw [abs_sub_comm]; exact not_le.mp ht)]
      simp
  · rw [(integral_start f t0 t1 h).1 (not_lt.mp hh), (integral_start f t1 t0 h).1 (not_lt.mp hh)]
    rfl

/-- **C97.** The integral is linear in the function. -/
theorem integral_linear (f g : ℝ → ℝ) (a b : ℝ) {t0 t1 h F G : ℝ}
    (hf : timeIntegrate f t0 t1 h = some F) (hg : timeIntegrate g t0 t1 h = some G) :
    timeIntegrate (fun u => a * f u + b * g u) t0 t1 h = some (a * F + b * G) := by
  by_cases hh : 0 < h
  · by_cases ht : 1e-8 ≤ |t0 - t1|
    · rw [integrate_sum _ hh ht, Option.some.injEq] at *
      rw [← hf, ← hg, mul_sum, mul_sum, ← sum_add_distrib]
      refine sum_congr rfl fun k _ => ?_
      ring
    · rw [(integral_start _ t0 t1 h).2 hh (not_le.mp ht), Option.some.injEq] at *
      rw [← hf, ← hg]
      simp
  · rw [(integral_start f t0 t1 h).1 (not_lt.mp hh)] at hf
    simp at hf

/-- **C97.** The integral of a function that is affine in time is exact. -/
theorem integral_affine (a b : ℝ) {t0 t1 h : ℝ} (hh : 0 < h) (ht : 1e-8 ≤ |t0 - t1|) :
    timeIntegrate (fun u => a * u + b) t0 t1 h =
      some (a * (t1 ^ 2 - t0 ^ 2) / 2 + b * (t1 - t0)) := by
  rw [integrate_sum _ hh ht]
  generalize hn : ⌊|t1 - t0| / h⌋₊ + 1 = n
  have hpos : 0 < n := by omega
  have hn0 : (n : ℝ) ≠ 0 := by positivity
  have key : ∀ (H : ℝ) (m : ℕ), ∑ k ∈ range m,
      ((a * (t0 + k * H) + b) + (a * (t0 + (k + 1) * H) + b)) / 2 * H =
      a * ((t0 + m * H) ^ 2 - t0 ^ 2) / 2 + b * (m * H) := by
    intro H m
    induction m with
    | zero => simp
    | succ m ih =>
      rw [sum_range_succ, ih]
      push_cast
      ring
  rw [key, show t0 + n * ((t1 - t0) / n) = t1 by field_simp; ring,
    show (n : ℝ) * ((t1 - t0) / n) = t1 - t0 by field_simp]

/-- **C97.** The error for a function with two continuous derivatives in time: at most
`M h² |t1 - t0| / 12` for a bound `M` of the second derivative. -/
theorem integral_error (f : ℝ → ℝ) {t0 t1 h M : ℝ} (hh : 0 < h) (ht : 1e-8 ≤ |t0 - t1|)
    (hf : ContDiffOn ℝ 2 f (Set.uIcc t0 t1))
    (hM : ∀ u, |iteratedDerivWithin 2 f (Set.uIcc t0 t1) u| ≤ M) :
    ∃ F, timeIntegrate f t0 t1 h = some F ∧
      |F - ∫ u in t0..t1, f u| ≤ M * h ^ 2 * |t1 - t0| / 12 := by
  refine ⟨_, integrate_trapezoidal f hh ht, ?_⟩
  have h1 := trapezoidal_error_le_of_c2 hf hM (N := ⌊|t1 - t0| / h⌋₊ + 1) (by omega)
  have hs := step_lt (d := t1 - t0) hh
  generalize ⌊|t1 - t0| / h⌋₊ + 1 = n at h1 hs
  have hM0 : 0 ≤ M := (abs_nonneg _).trans (hM 0)
  refine h1.trans ?_
  have h2 : (|t1 - t0| / n) ^ 2 ≤ h ^ 2 := pow_le_pow_left₀ (by positivity) hs.le 2
  calc |t1 - t0| ^ 3 * M / (12 * n ^ 2) = M * (|t1 - t0| / n) ^ 2 * |t1 - t0| / 12 := by
        rw [div_pow]
        field_simp
    _ ≤ M * h ^ 2 * |t1 - t0| / 12 := by gcongr

/-- **C97.** Near the start, where the code returns zero, the error is at most `B · 1e-8` for a bound
`B` of the function. -/
theorem integral_error_start (f : ℝ → ℝ) {t0 t1 h B : ℝ} (hh : 0 < h) (ht : |t0 - t1| < 1e-8)
    (hB : ∀ u, |f u| ≤ B) :
    ∃ F, timeIntegrate f t0 t1 h = some F ∧ |F - ∫ u in t0..t1, f u| ≤ B * 1e-8 := by
  refine ⟨0, (integral_start f t0 t1 h).2 hh ht, ?_⟩
  rw [zero_sub, abs_neg]
  have := intervalIntegral.norm_integral_le_of_norm_le_const (a := t0) (b := t1) (f := f) (C := B)
    (fun u _ => hB u)
  rw [Real.norm_eq_abs, abs_sub_comm] at this
  have hB0 : 0 ≤ B := (abs_nonneg _).trans (hB 0)
  exact this.trans (mul_le_mul_of_nonneg_left ht.le hB0)

/-- **C97.** The time integral of a vector: a vector on the same mesh whose components are the time
integrals of the components, at every point. -/
theorem integral_vector (v : V2 ℝ) (t0 h : ℝ) :
    (h ≤ 0 → v.integral t0 h = none) ∧
      (0 < h → ∃ w, v.integral t0 h = some w ∧ w.mesh = v.mesh ∧ ∀ t x y,
        timeIntegrate (fun u => v.v0 u x y) t0 t h = some (w.v0 t x y) ∧
        timeIntegrate (fun u => v.v1 u x y) t0 t h = some (w.v1 t x y)) := by
  refine ⟨fun hh => by simp [V2.integral, not_lt.mpr hh], fun hh => ⟨_, if_pos hh, rfl, ?_⟩⟩
  have some_getD : ∀ (f : ℝ → ℝ) (t : ℝ),
      timeIntegrate f t0 t h = some ((timeIntegrate f t0 t h).getD 0) := by
    intro f t
    by_cases ht : 1e-8 ≤ |t0 - t|
    · rw [integrate_trapezoidal f hh ht]
      rfl
    · rw [(integral_start f t0 t h).2 hh (not_le.mp ht)]
      rfl
  exact fun t x y => ⟨some_getD _ t, some_getD _ t⟩

/-- A concrete case: one second of the function `u ↦ 2 u + 1` from the time one. -/
example : timeIntegrate (fun u : ℝ => 2 * u + 1) 1 2 (1 / 10) = some 4 := by
  rw [integral_affine 2 1 (by norm_num) (by norm_num)]
  norm_num

end Phyem.Funcs
