import Verif.Funcs.Spec
import Mathlib.Analysis.Calculus.MeanValue
import Mathlib.Analysis.Calculus.Deriv.Pow
import Mathlib.Analysis.Calculus.Deriv.Add
import Mathlib.Analysis.Calculus.Deriv.Mul
import Mathlib.Analysis.Calculus.Deriv.Comp
import Mathlib.Analysis.Calculus.Deriv.Shift
import Mathlib.Tactic.Ring
import Mathlib.Tactic.Linarith
import Mathlib.Tactic.FieldSimp
import Mathlib.Tactic.NormNum
import Mathlib.Tactic.Positivity

/-!
# Central differences against derivatives
-/

namespace Phyem.Funcs

open Set

/-- A function that starts at zero and whose derivative grows at most like `c s^n`. -/
theorem growth {φ φ' : ℝ → ℝ} {h c : ℝ} {n : ℕ} (h0 : φ 0 = 0)
    (hd : ∀ s ∈ Icc 0 h, HasDerivAt φ (φ' s) s) (hb : ∀ s ∈ Icc 0 h, |φ' s| ≤ c * s ^ n) :
    ∀ s ∈ Icc 0 h, |φ s| ≤ c * s ^ (n + 1) / (n + 1) := by
  intro s hs
  have hB : ∀ u : ℝ, HasDerivAt (fun u => c * u ^ (n + 1) / (n + 1)) (c * u ^ n) u := by
    intro u
    have h1 := ((hasDerivAt_pow (n + 1) u).const_mul c).div_const ((n : ℝ) + 1)
    have hn : (n : ℝ) + 1 ≠ 0 := by positivity
    refine h1.congr_deriv ?_
    push_cast
    field_simp
  have := image_norm_le_of_norm_deriv_right_le_deriv_boundary (f := φ) (f' := φ') (a := 0) (b := h)
    (B := fun u => c * u ^ (n + 1) / (n + 1)) (B' := fun u => c * u ^ n)
    (fun u hu => (hd u hu).continuousAt.continuousWithinAt)
    (fun u hu => (hd u ⟨hu.1, hu.2.le⟩).hasDerivWithinAt) (by simp [h0]) hB
    (fun u hu => by simpa using hb u ⟨hu.1, hu.2.le⟩) hs
  simpa using this

theorem shift_add {f : ℝ → ℝ} {d x s : ℝ} (hf : HasDerivAt f d (x + s)) :
    HasDerivAt (fun u => f (x + u)) d s := by
  simpa using HasDerivAt.comp_const_add x s hf

theorem shift_sub {f : ℝ → ℝ} {d x s : ℝ} (hf : HasDerivAt f d (x - s)) :
    HasDerivAt (fun u => f (x - u)) (-d) s := by
  simpa using HasDerivAt.comp_const_sub x s hf

/-- The symmetric second difference of a function with bounded second derivative. -/
theorem second_diff {f f1 f2 : ℝ → ℝ} {x h M : ℝ}
    (h1 : ∀ u ∈ Icc (x - h) (x + h), HasDerivAt f (f1 u) u)
    (h2 : ∀ u ∈ Icc (x - h) (x + h), HasDerivAt f1 (f2 u) u)
    (hM : ∀ u ∈ Icc (x - h) (x + h), |f2 u| ≤ M) :
    ∀ s ∈ Icc 0 h, |f (x + s) + f (x - s) - 2 * f x| ≤ M * s ^ 2 := by
  have mp : ∀ s ∈ Icc 0 h, x + s ∈ Icc (x - h) (x + h) := fun s hs =>
    ⟨by linarith [hs.1, hs.2], by linarith [hs.1, hs.2]⟩
  have mm : ∀ s ∈ Icc 0 h, x - s ∈ Icc (x - h) (x + h) := fun s hs =>
    ⟨by linarith [hs.1, hs.2], by linarith [hs.1, hs.2]⟩
  have e1 : ∀ s ∈ Icc 0 h, |f1 (x + s) - f1 (x - s)| ≤ 2 * M * s ^ (0 + 1) / ((0 : ℕ) + 1) := by
    refine growth (φ := fun s => f1 (x + s) - f1 (x - s))
      (φ' := fun s => f2 (x + s) - (-f2 (x - s))) (n := 0) (by simp) ?_ ?_
    · intro s hs
      exact (shift_add (h2 _ (mp s hs))).fun_sub (shift_sub (h2 _ (mm s hs)))
    · intro s hs
      have a := hM _ (mp s hs)
      have b := hM _ (mm s hs)
      rw [abs_le] at a b ⊢
      constructor <;> simp <;> linarith [a.1, a.2, b.1, b.2]
  have e2 := growth (φ := fun s => f (x + s) + f (x - s) - 2 * f x)
    (φ' := fun s => f1 (x + s) + -f1 (x - s)) (h := h) (c := 2 * M) (n := 1) (by simp; ring)
    (fun s hs => ((shift_add (h1 _ (mp s hs))).fun_add (shift_sub (h1 _ (mm s hs)))).sub_const _)
    (fun s hs => by have := e1 s hs; simpa [← sub_eq_add_neg] using this)
  intro s hs
  refine (e2 s hs).trans (le_of_eq ?_)
  push_cast
  ring

/-- The error of the central difference. -/
theorem central_error {f : ℝ → ℝ} {x h M p : ℝ} (hh : 0 < h) (hp : HasDerivAt f p x)
    (hf : ThirdBound f x h M) : |central f x h - p| ≤ M * h ^ 2 / 6 := by
  obtain ⟨f1, f2, f3, H⟩ := hf
  have hx : x ∈ Icc (x - h) (x + h) := ⟨by linarith, by linarith⟩
  have hpx : p = f1 x := hp.unique (H x hx).1
  subst hpx
  have s2 := second_diff (f := f1) (fun u hu => (H u hu).2.1) (fun u hu => (H u hu).2.2.1)
    (fun u hu => (H u hu).2.2.2)
  have mp : ∀ s ∈ Icc 0 h, x + s ∈ Icc (x - h) (x + h) := fun s hs =>
    ⟨by linarith [hs.1, hs.2], by linarith [hs.1, hs.2]⟩
  have mm : ∀ s ∈ Icc 0 h, x - s ∈ Icc (x - h) (x + h) := fun s hs =>
    ⟨by linarith [hs.1, hs.2], by linarith [hs.1, hs.2]⟩
  have e := growth (φ := fun s => f (x + s) - f (x - s) - 2 * f1 x * s)
    (φ' := fun s => f1 (x + s) + f1 (x - s) - 2 * f1 x) (h := h) (c := M) (n := 2) (by simp)
    (fun s hs => by
      refine (((shift_add (H _ (mp s hs)).1).fun_sub (shift_sub (H _ (mm s hs)).1)).fun_sub
        ((hasDerivAt_id s).const_mul (2 * f1 x))).congr_deriv ?_
      ring)
    s2 h ⟨hh.le, le_rfl⟩
  have q : central f x h - f1 x = (f (x + h) - f (x - h) - 2 * f1 x * h) / (2 * h) := by
    unfold central
    field_simp
  rw [q, abs_div, abs_of_pos (by linarith : (0 : ℝ) < 2 * h), div_le_iff₀ (by linarith)]
  refine e.trans (le_of_eq ?_)
  push_cast
  ring

/-- `f` has four derivatives within `h` of `c`, the fourth bounded by `M`. -/
theorem second_central_error {f f1 f2 f3 f4 : ℝ → ℝ} {x h M : ℝ} (hh : 0 < h)
    (H : ∀ u ∈ Icc (x - 2 * h) (x + 2 * h), HasDerivAt f (f1 u) u ∧ HasDerivAt f1 (f2 u) u ∧
      HasDerivAt f2 (f3 u) u ∧ HasDerivAt f3 (f4 u) u ∧ |f4 u| ≤ M) :
    |central (fun u => central f u h) x h - f2 x| ≤ M * h ^ 2 / 3 := by
  have mp : ∀ s ∈ Icc 0 (2 * h), x + s ∈ Icc (x - 2 * h) (x + 2 * h) := fun s hs =>
    ⟨by linarith [hs.1, hs.2], by linarith [hs.1, hs.2]⟩
  have mm : ∀ s ∈ Icc 0 (2 * h), x - s ∈ Icc (x - 2 * h) (x + 2 * h) := fun s hs =>
    ⟨by linarith [hs.1, hs.2], by linarith [hs.1, hs.2]⟩
  have s2 := second_diff (f := f2) (fun u hu => (H u hu).2.2.1) (fun u hu => (H u hu).2.2.2.1)
    (fun u hu => (H u hu).2.2.2.2)
  have e1 := growth (φ := fun s => f1 (x + s) - f1 (x - s) - 2 * f2 x * s)
    (φ' := fun s => f2 (x + s) + f2 (x - s) - 2 * f2 x) (h := 2 * h) (c := M) (n := 2) (by simp)
    (fun s hs => by
      refine (((shift_add (H _ (mp s hs)).2.1).fun_sub (shift_sub (H _ (mm s hs)).2.1)).fun_sub
        ((hasDerivAt_id s).const_mul (2 * f2 x))).congr_deriv ?_
      ring)
    s2
  have e2 := growth (φ := fun s => f (x + s) + f (x - s) - 2 * f x - f2 x * s ^ 2)
    (φ' := fun s => f1 (x + s) - f1 (x - s) - 2 * f2 x * s) (h := 2 * h) (c := M / 3) (n := 3)
    (by simp; ring)
    (fun s hs => by
      refine ((((shift_add (H _ (mp s hs)).1).fun_add (shift_sub (H _ (mm s hs)).1)).sub_const
        (2 * f x)).fun_sub ((hasDerivAt_pow 2 s).const_mul (f2 x))).congr_deriv ?_
      push_cast
      ring)
    (fun s hs => (e1 s hs).trans (le_of_eq (by push_cast; ring))) (2 * h) ⟨by linarith, le_rfl⟩
  have q : central (fun u => central f u h) x h - f2 x =
      (f (x + 2 * h) + f (x - 2 * h) - 2 * f x - f2 x * (2 * h) ^ 2) / (4 * h ^ 2) := by
    unfold central
    have a1 : x + h + h = x + 2 * h := by ring
    have a2 : x + h - h = x := by ring
    have a3 : x - h + h = x := by ring
    have a4 : x - h - h = x - 2 * h := by ring
    simp only [a1, a2, a3, a4]
    field_simp
    ring
  have hp : (0 : ℝ) < 4 * h ^ 2 := by positivity
  rw [q, abs_div, abs_of_pos hp, div_le_iff₀ hp]
  refine e2.trans (le_of_eq ?_)
  push_cast
  ring

end Phyem.Funcs
