import Verif.Samples.Exact
import Mathlib.Analysis.SpecialFunctions.Trigonometric.ArctanDeriv
import Mathlib.Analysis.SpecialFunctions.Pow.NNReal

/-!
# Initial conditions in the plane
-/

namespace Phyem.Samples

open Real Phyem.Funcs

/-! ### The advection of a loop -/

/-- The velocity of the advection of a loop has the direction `(Lx, Ly)` and its length for a positive `Lx`, the opposite
direction for a negative one, and does not exist for zero. -/
theorem loop_velocity (Lx Ly : ℝ) :
    (0 < Lx → ∃ v, loopU Lx Ly = some v ∧ ∀ t x y, at2 v t x y = (Lx, Ly)) ∧
    (Lx < 0 → ∃ v, loopU Lx Ly = some v ∧ ∀ t x y, at2 v t x y = (-Lx, -Ly)) ∧ (Lx = 0 → loopU Lx Ly = none) := by
  have key : ∀ h : Lx ≠ 0, √(Lx ^ 2 + Ly ^ 2) * cos (arctan (Ly / Lx)) = |Lx| ∧
      √(Lx ^ 2 + Ly ^ 2) * sin (arctan (Ly / Lx)) = |Lx| * (Ly / Lx) := by
    intro h
    have h1 : √(Lx ^ 2 + Ly ^ 2) = |Lx| * √(1 + (Ly / Lx) ^ 2) := by
      rw [← sqrt_sq_eq_abs, ← sqrt_mul (sq_nonneg _)]
      congr 1
      field_simp
    have h2 : √(1 + (Ly / Lx) ^ 2) ≠ 0 := by positivity
    rw [cos_arctan, sin_arctan, h1]
    constructor <;> field_simp
  refine ⟨fun h => ?_, fun h => ?_, fun h => if_pos h⟩
  · obtain ⟨h1, h2⟩ := key h.ne'
    rw [loopU, if_neg h.ne']
    refine ⟨_, rfl, fun t x y => ?_⟩
    simp only [at2, h1, h2, abs_of_pos h, zero_mul, add_zero, Prod.mk.injEq, true_and]
    field_simp
  · obtain ⟨h1, h2⟩ := key h.ne
    rw [loopU, if_neg h.ne]
    refine ⟨_, rfl, fun t x y => ?_⟩
    have hn := h.ne
    simp only [at2, h1, h2, abs_of_neg h, zero_mul, add_zero, Prod.mk.injEq, true_and]
    field_simp

example : (0 : ℝ) < 2 ∧ (-2 : ℝ) < 0 := by norm_num

/-- The velocity is not `(Lx, Ly)` for all numbers. -/
theorem loop_velocity_refuted : ¬ ∀ Lx Ly : ℝ, Lx ≠ 0 → ∃ v, loopU Lx Ly = some v ∧ ∀ t x y, at2 v t x y = (Lx, Ly) := by
  intro h
  obtain ⟨v, hv, h1⟩ := h (-1) 1 (by norm_num)
  obtain ⟨w, hw, h2⟩ := (loop_velocity (-1) 1).2.1 (by norm_num)
  rw [hv] at hw
  obtain rfl := Option.some.inj hw
  have h3 := (h1 0 0 0).symm.trans (h2 0 0 0)
  have := congrArg Prod.fst h3
  norm_num at this

/-- The potential of the loop has its largest value in the centre, is zero from the radius on, and has no jump. -/
theorem loop_potential (A0 R : ℝ) (hA : 0 ≤ A0) (hR : 0 ≤ R) (t x y : ℝ) :
    loopA A0 R t x y = A0 * max (R - √(x ^ 2 + y ^ 2)) 0 ∧ 0 ≤ loopA A0 R t x y ∧
      loopA A0 R t x y ≤ loopA A0 R t 0 0 := by
  have h0 : loopA A0 R t x y = A0 * max (R - √(x ^ 2 + y ^ 2)) 0 := by
    unfold loopA
    by_cases h : √(x ^ 2 + y ^ 2) ≤ R
    · rw [if_pos h, max_eq_left (by linarith)]; ring
    · rw [if_neg h, max_eq_right (by linarith)]; ring
  have h1 : loopA A0 R t 0 0 = A0 * R := by
    unfold loopA
    simp [hR]
  refine ⟨h0, ?_, ?_⟩
  · rw [h0]; positivity
  · rw [h0, h1]
    refine mul_le_mul_of_nonneg_left (max_le ?_ hR) hA
    have := sqrt_nonneg (x ^ 2 + y ^ 2)
    linarith

example : (0 : ℝ) ≤ 1e-3 ∧ (0 : ℝ) ≤ 0.3 := by norm_num

/-! ### The roll-up of a shear layer -/

/-- The velocity of the shear layer is free of divergence where it is smooth in `x` and `y` alone: its first component does not
depend on `x`, its second one not on `y`. It has no jump at `π`, and its values on opposite sides of the periodic square are
the same. -/
theorem shear_layer (d e : ℝ) : (∀ t x y, div2 D2 (shearU d, shearV e) t x y = 0) ∧
    (∀ t x, Continuous fun y => shearU d t x y) ∧ (∀ t x, shearU d t x 0 = shearU d t x (2 * π)) ∧
    ∀ t y, shearV e t 0 y = shearV e t (2 * π) y := by
  refine ⟨fun t x y => ?_, fun t x => ?_, fun t x => ?_, fun t y => ?_⟩
  · simp only [div2, D2, line2, coord2, shearU, shearV, deriv_const, add_zero]
  · unfold shearU
    refine Continuous.if_le ?_ ?_ continuous_id continuous_const ?_
    · simp only [tanh_eq_sinh_div_cosh]
      exact (continuous_sinh.comp (by fun_prop)).div (continuous_cosh.comp (by fun_prop)) fun y => (cosh_pos _).ne'
    · simp only [tanh_eq_sinh_div_cosh]
      exact (continuous_sinh.comp (by fun_prop)).div (continuous_cosh.comp (by fun_prop)) fun y => (cosh_pos _).ne'
    · rintro y rfl
      congr 2
      ring
  · have hp := pi_pos
    rw [shearU, shearU, if_pos hp.le, if_neg (by linarith)]
    congr 2
    ring
  · simp [shearV]

/-! ### The collision of a dipole -/

lemma Dipole.energy_scale (quad : List (ℝ × ℝ × ℝ)) (u v : ℝ → ℝ → ℝ) (s : ℝ) :
    Dipole.energy quad (fun x y => s * u x y) (fun x y => s * v x y) = s ^ 2 * Dipole.energy quad u v := by
  unfold Dipole.energy
  induction quad with
  | nil => simp
  | cons q l ih =>
    simp only [List.map_cons, List.sum_cons, mul_add] at ih ⊢
    rw [ih]
    ring

/-- The dipole the library makes is free of divergence, and its energy in the quadrature is the wanted one. The strengths must
be opposite; without a positive energy before scaling there is none. -/
theorem dipole_velocity (d : Dipole) (K : ℝ) (quad : List (ℝ × ℝ × ℝ)) (v : F2 ℝ × F2 ℝ)
    (h : d.velocity K quad = some v) : d.we1 + d.we2 = 0 ∧ (∀ t x y, div2 D2 v t x y = 0) ∧
      ∀ t, 1 / 2 * (quad.map fun q => (v.1 t q.1 q.2.1 ^ 2 + v.2 t q.1 q.2.1 ^ 2) * q.2.2).sum = K := by
  unfold Dipole.velocity at h
  by_cases h1 : d.we1 + d.we2 ≠ 0
  · rw [if_pos h1] at h; exact absurd h (by simp)
  rw [if_neg h1] at h
  by_cases h2 : d.r0 = 0 ∨ Dipole.energy quad d.u0 d.v0 ≤ 0 ∨ K < 0
  · rw [if_pos h2] at h; exact absurd h (by simp)
  rw [if_neg h2] at h
  push Not at h1 h2
  obtain ⟨hr, he, hK⟩ := h2
  obtain rfl := Option.some.inj h
  refine ⟨h1, fun t x y => ?_, fun t => ?_⟩
  · simp only [div2]
    unfold Dipole.u0 Dipole.v0
    dcalc2
  · have := Dipole.energy_scale quad d.u0 d.v0 √(K / Dipole.energy quad d.u0 d.v0)
    rw [sq_sqrt (by positivity), div_mul_cancel₀ _ he.ne'] at this
    refine Eq.trans ?_ this
    generalize √(K / Dipole.energy quad d.u0 d.v0) = s
    simp only [Dipole.energy, zero_mul, add_zero]
    norm_num

/-- When the dipole exists. -/
theorem dipole_exists (d : Dipole) (K : ℝ) (quad : List (ℝ × ℝ × ℝ)) : (d.velocity K quad).isSome ↔
    d.we1 + d.we2 = 0 ∧ d.r0 ≠ 0 ∧ 0 < Dipole.energy quad d.u0 d.v0 ∧ 0 ≤ K := by
  unfold Dipole.velocity
  by_cases h1 : d.we1 + d.we2 ≠ 0
  · simp [h1]
  rw [if_neg h1]
  by_cases h2 : d.r0 = 0 ∨ Dipole.energy quad d.u0 d.v0 ≤ 0 ∨ K < 0
  · rw [if_pos h2]
    simp only [Option.isSome_none, Bool.false_eq_true, false_iff]
    rintro ⟨_, a, b, c⟩
    rcases h2 with h | h | h
    · exact a h
    · linarith
    · linarith
  · rw [if_neg h2]
    push Not at h1 h2
    simpa using ⟨h1, h2⟩

/-- The default dipole with a quadrature of one node, which has a positive energy. -/
example : ((⟨0, 0.1, 0, -0.1, 0.1, 320, -320⟩ : Dipole).velocity 2 [(0, 0, 4)]).isSome := by
  rw [dipole_exists]
  refine ⟨by norm_num, by norm_num, ?_, by norm_num⟩
  simp only [Dipole.energy, Dipole.u0, Dipole.v0, List.map_cons, List.map_nil, List.sum_cons, List.sum_nil]
  norm_num
  positivity

/-! ### The singularity in a corner -/

/-- The potential with the singularity is zero on both edges of the corner that goes in, and positive between them. -/
theorem corner_potential (t x y : ℝ) : (x = 0 → y ≤ 0 → lPhi t x y = 0) ∧ (y = 0 → x ≤ 0 → lPhi t x y = 0) ∧
    ((0 < y ∨ 0 < x) → 0 < lPhi t x y) := by
  refine ⟨?_, ?_, fun h => ?_⟩
  · rintro rfl hy
    rcases hy.eq_or_lt with rfl | hy
    · simp [lPhi]
    · have : Complex.arg ⟨0, y⟩ = -(π / 2) := Complex.arg_eq_neg_pi_div_two_iff.2 ⟨rfl, hy⟩
      simp [lPhi, this]
  · rintro rfl hx
    rcases hx.eq_or_lt with rfl | hx
    · simp [lPhi]
    · have : Complex.arg ⟨x, 0⟩ = π := Complex.arg_eq_pi_iff.2 ⟨hx, rfl⟩
      rw [lPhi, this, show 2 / 3 * (π + π / 2) = π by ring, sin_pi]
      ring
  · have h1 : -(π / 2) < Complex.arg ⟨x, y⟩ := by
      rw [Complex.neg_pi_div_two_lt_arg_iff]
      rcases h with h | h
      · exact Or.inr h.le
      · exact Or.inl h
    have h2 : Complex.arg ⟨x, y⟩ < π := by
      rw [Complex.arg_lt_pi_iff]
      rcases h with h | h
      · exact Or.inr h.ne'
      · exact Or.inl h.le
    have h3 : 0 < √(x ^ 2 + y ^ 2) := by
      rcases h with h | h <;> positivity
    have h4 : 0 < sin (2 / 3 * (Complex.arg ⟨x, y⟩ + π / 2)) := by
      apply sin_pos_of_pos_of_lt_pi <;> linarith
    unfold lPhi
    rw [zero_mul, add_zero]
    exact mul_pos (rpow_pos_of_pos h3 _) h4

/-- Coordinates are switched back and forth without a loss, but for the direction of the origin. -/
theorem polar_round_trip (x y : ℝ) : pol2cart (cart2pol x y).1 (cart2pol x y).2 = (x, y) := by
  have h : √(x ^ 2 + y ^ 2) = ‖(⟨x, y⟩ : ℂ)‖ := by
    rw [Complex.norm_eq_sqrt_sq_add_sq]
  simp only [pol2cart, cart2pol, h, Complex.norm_mul_cos_arg, Complex.norm_mul_sin_arg]

/-- The other way round, for a positive radius and an angle in the principal range. -/
theorem cartesian_round_trip (r a : ℝ) (hr : 0 < r) (ha : a ∈ Set.Ioc (-π) π) :
    cart2pol (pol2cart r a).1 (pol2cart r a).2 = (r, a) := by
  have h := Complex.arg_mul_cos_add_sin_mul_I hr ha
  have h2 : (⟨r * cos a, r * sin a⟩ : ℂ) = r * (Complex.cos a + Complex.sin a * Complex.I) := by
    apply Complex.ext
    · simp [← Complex.ofReal_cos, ← Complex.ofReal_sin]
    · simp [← Complex.ofReal_cos, ← Complex.ofReal_sin]
  have h3 : (r * cos a) ^ 2 + (r * sin a) ^ 2 = r ^ 2 := by
    have := sin_sq_add_cos_sq a
    linear_combination r ^ 2 * this
  simp only [cart2pol, pol2cart, h2, h, h3, sqrt_sq hr.le]

example : (0 : ℝ) < 1 ∧ (π / 4) ∈ Set.Ioc (-π) π := by
  have := pi_pos
  exact ⟨by norm_num, by linarith, by linarith⟩

end Phyem.Samples
