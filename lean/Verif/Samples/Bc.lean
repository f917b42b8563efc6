import Verif.Samples.Mhd
import Mathlib.Analysis.SpecialFunctions.Trigonometric.Basic
import Mathlib.Analysis.Real.Pi.Bounds
import Mathlib.Tactic.FinCases
import Mathlib.Tactic.FieldSimp
import Mathlib.Tactic.LinearCombination

/-!
# Boundary values, periods and initial conditions
-/

namespace Phyem.Samples

open Real Phyem.Funcs

lemma sin_edge {x : ℝ} (h : x = 0 ∨ x = 2 * π) : sin x = 0 := by
  rcases h with h | h <;> simp [h]

/-- The boundary values of the first solution with the Hall effect on the cube of side 2π. -/
theorem first_boundary (n : Fin 3) (t x y z : ℝ) (h : OnFace 0 (2 * π) n x y z) :
    TangentZero n (at3 hall1.u t x y z) ∧ hall1.P t x y z = 0 ∧ TangentZero n (at3 hall1.B t x y z) := by
  obtain ⟨_, _, _, h⟩ := h
  fin_cases n <;> dsimp only at h <;> have h := sin_edge h <;>
    simp [TangentZero, at3, hall1, ux, uy, uz, P1, Electric.B, Electric.Bx, Electric.By, Electric.Bz, Electric.curlX,
      Electric.curlY, Electric.curlZ, Ec, h]

/-- The boundary values of the second solution with the Hall effect on the cube of side 2π. -/
theorem second_boundary (n : Fin 3) (t x y z : ℝ) (h : OnFace 0 (2 * π) n x y z) :
    TangentZero n (at3 hall2.u t x y z) ∧ hall2.P t x y z = 0 ∧ TangentZero n (at3 hall2.E t x y z) := by
  obtain ⟨_, _, _, h⟩ := h
  fin_cases n <;> dsimp only at h <;> have h := sin_edge h <;>
    simp [TangentZero, at3, hall2, ux, uy, uz, P1, Electric.E, Eb, h]

/-- The boundary values of the third solution with the Hall effect on the cube of side 2π. -/
theorem third_boundary (n : Fin 3) (t x y z : ℝ) (h : OnFace 0 (2 * π) n x y z) :
    TangentZero n (at3 (curl D3 hall3.u) t x y z) ∧ hall3.P t x y z = 0 ∧ TangentZero n (at3 hall3.B t x y z) := by
  obtain ⟨w, hw, he⟩ := vorticity_right t x y z
  rw [← he]
  obtain rfl : U3.curl = w := Option.some.inj hw
  obtain ⟨_, _, _, h⟩ := h
  fin_cases n <;> dsimp only at h <;> have h := sin_edge h <;>
    simp [TangentZero, at3, hall3, P1, Electric.B, Electric.Bx, Electric.By, Electric.Bz, Electric.curl, Electric.curlX,
      Electric.curlY, Electric.curlZ, Ec, U3, h]

/-- The boundary values of the fourth solution with the Hall effect on the cube of side 1. -/
theorem fourth_boundary (n : Fin 3) (t x y z : ℝ) (h : OnFace 0 1 n x y z) :
    TangentZero n (at3 hall4.u t x y z) ∧ hall4.P t x y z = 0 ∧ TangentZero n (at3 hall4.B t x y z) := by
  obtain ⟨_, _, _, h⟩ := h
  fin_cases n <;> dsimp only at h <;> rcases h with h | h <;>
    simp [TangentZero, at3, hall4, T4u, T4v, T4w, T4P, Electric.B, Electric.Bx, Electric.By, Electric.Bz, Electric.curlX,
      Electric.curlY, Electric.curlZ, Ed, h]

/-- A point on the boundary. -/
example : OnFace 0 (2 * π) 0 0 1 2 := by
  have := pi_gt_three
  refine ⟨⟨le_rfl, ?_⟩, ⟨by norm_num, ?_⟩, ⟨by norm_num, ?_⟩, Or.inl rfl⟩ <;> linarith

/-- The solution for the periodic cube of side 2π has that period. -/
theorem zeroth_periodic : Periodic3 (2 * π) hall0.P ∧
    ∀ v ∈ [hall0.u, hall0.E, hall0.B], Periodic3 (2 * π) v.1 ∧ Periodic3 (2 * π) v.2.1 ∧ Periodic3 (2 * π) v.2.2 := by
  simp [Periodic3, hall0, ux, uy, uz, P0, Electric.E, Electric.B, Electric.Bx, Electric.By, Electric.Bz, Electric.curlX,
    Electric.curlY, Electric.curlZ, Eb]

/-- The first solution without the Hall effect has not that period: its electric field changes its sign. -/
theorem first_not_periodic : ¬ Periodic3 (2 * π) mhd0.E.1 := by
  intro h
  have := (h 0 0 (π / 2) π).2.2
  have h2 : (π + 2 * π) / 2 = π / 2 + π := by ring
  simp only [mhd0, Electric.E, Ea, h2, sin_add_pi, sin_pi_div_two, cos_zero, exp_zero] at this
  norm_num at this

/-! ### Initial conditions -/

/-- The velocities and the magnetic fields the conservation tests begin with are free of divergence. -/
theorem initial_divergence_free : ∀ s ∈ [conservation, helicity, nullPoints],
    SmoothV s.u ∧ SmoothV s.B ∧ ∀ t x y z, div D3 s.u t x y z = 0 ∧ div D3 s.B t x y z = 0 := by
  have hu : SmoothV consU ∧ ∀ t x y z, div D3 consU t x y z = 0 := by
    refine ⟨⟨?_, ?_, ?_⟩, ?_⟩
    · simp only [consU]; dsmooth
    · simp only [consU]; dsmooth
    · simp only [consU]; dsmooth
    · intro t x y z
      simp only [consU, div]
      dcalc
  have hb : SmoothV consB ∧ ∀ t x y z, div D3 consB t x y z = 0 := by
    refine ⟨⟨?_, ?_, ?_⟩, ?_⟩
    · simp only [consB]; dsmooth
    · simp only [consB]; dsmooth
    · simp only [consB]; unfold zero3; dsmooth
    · intro t x y z
      simp only [consB, div]
      unfold zero3
      dcalc
  have hh : SmoothV huB ∧ ∀ t x y z, div D3 huB t x y z = 0 := by
    refine ⟨⟨?_, ?_, ?_⟩, ?_⟩
    · simp only [huB]; dsmooth
    · simp only [huB]; dsmooth
    · simp only [huB]; unfold zero3; dsmooth
    · intro t x y z
      simp only [huB, div]
      unfold zero3
      dcalc
  have hz : Smooth3 (zero3 : F3 ℝ) := by unfold zero3; dsmooth
  have h0 : ∀ t x y z, div D3 (zero3, zero3, zero3) t x y z = 0 := by
    intro t x y z
    unfold div zero3
    dcalc
  have hn : Smooth3 (nullB.2.2) ∧ ∀ t x y z, div D3 nullB t x y z = 0 := by
    refine ⟨?_, ?_⟩
    · simp only [nullB]; dsmooth
    · intro t x y z
      simp only [nullB, div]
      unfold zero3
      dcalc
  simp only [List.forall_mem_cons, List.forall_mem_nil, and_true, List.not_mem_nil, false_implies, implies_true]
  exact ⟨⟨hu.1, hb.1, fun t x y z => ⟨hu.2 t x y z, hb.2 t x y z⟩⟩,
    ⟨hu.1, hh.1, fun t x y z => ⟨hu.2 t x y z, hh.2 t x y z⟩⟩,
    ⟨⟨hz, hz, hz⟩, ⟨hz, hz, hn.1⟩, fun t x y z => ⟨h0 t x y z, hn.2 t x y z⟩⟩⟩

lemma cos_edge {x : ℝ} (h : x = 0 ∨ x = 1) : cos (π * (x - 2⁻¹)) = 0 := by
  rcases h with h | h
  · rw [h, show π * (0 - 2⁻¹) = -(π / 2) by ring, cos_neg, cos_pi_div_two]
  · rw [h, show π * (1 - 2⁻¹) = π / 2 by ring, cos_pi_div_two]

lemma sin_pi_edge {x : ℝ} (h : x = 0 ∨ x = 1) : sin (π * x) = 0 := by
  rcases h with h | h <;> simp [h]

/-- The boundary values of the conservation tests on the cube of side 1: the velocity has no component along the boundary;
the magnetic field has none along it in the test with the Hall effect and none across it in the test of Hu and others. -/
theorem initial_boundary (n : Fin 3) (t x y z : ℝ) (h : OnFace 0 1 n x y z) :
    TangentZero n (at3 conservation.u t x y z) ∧ TangentZero n (at3 conservation.B t x y z) ∧
      TangentZero n (at3 helicity.u t x y z) ∧ NormalZero n (at3 helicity.B t x y z) := by
  obtain ⟨_, _, _, h⟩ := h
  fin_cases n <;> dsimp only at h
  · simp [TangentZero, NormalZero, at3, conservation, helicity, consU, consB, huB, cos_edge h, sin_pi_edge h, zero3]
  · simp [TangentZero, NormalZero, at3, conservation, helicity, consU, consB, huB, cos_edge h, sin_pi_edge h, zero3]
  · rcases h with h | h <;>
      simp [TangentZero, NormalZero, at3, conservation, helicity, consU, consB, huB, h, zero3]

/-- The initial electric field is the law of Ohm without a source, with difference quotients in the place of derivatives. -/
theorem initial_is_ohm (s : Initial) (Rm eta : ℝ) :
    (Rm = 0 → s.E Rm eta = none) ∧ (Rm ≠ 0 → ∃ v, s.E Rm eta = some v ∧ ∀ t x y z,
      v.call t x y z = some (ohm s.u (fun _ _ _ _ => 0, fun _ _ _ _ => 0, fun _ _ _ _ => 0) s.B (curl Funcs.diff3 s.B)
        Rm eta t x y z)) := by
  refine ⟨fun h => ?_, fun h => ?_⟩
  · simp [Initial.E, inv, h]
  · simp only [Initial.E, inv, if_neg h, V3.cross, V3.sub, V3.add, V3.mul, Option.bind_some]
    refine ⟨_, rfl, fun t x y z => ?_⟩
    simp [V3.call, V3.plain, ohm, at3, cross, curl, given3, npd3_eq, add3, sub3, mul3, smul3, Initial.j, V3.curl, vec]

/-! ### The test with null points -/

/-- The test with null points begins in equilibrium just if the coupling number is 1. -/
theorem null_equilibrium (c Rf : ℝ) :
    (∀ t x y z, momentum D3 nullPoints.u (curl D3 nullPoints.u) (curl D3 nullPoints.B) nullPoints.B nullP c Rf t x y z = 0)
      ↔ c = 1 := by
  have key : ∀ t x y z, momentum D3 nullPoints.u (curl D3 nullPoints.u) (curl D3 nullPoints.B) nullPoints.B nullP c Rf
      t x y z = ((c - 1) * (25 / 4 * π * sin (π * x) * cos (π * x)), 0, 0) := by
    intro t x y z
    simp only [momentum, at3, dt, cross, curl, grad, nullPoints, nullB, Prod.mk_add_mk, Prod.mk_sub_mk, Prod.smul_mk,
      smul_eq_mul, Prod.mk.injEq]
    unfold zero3 nullP
    have h2 : sin (2 * π * x) = 2 * sin (π * x) * cos (π * x) := by rw [← sin_two_mul]; ring_nf
    refine ⟨?_, ?_, ?_⟩
    · simp only [D3, line3, coord3]
      simp (disch := fun_prop) only [deriv_fun_add, deriv_fun_mul, deriv_fun_sub, deriv_const, deriv_id'',
        _root_.deriv_sin, _root_.deriv_cos, deriv_hmul, h2]
      ring
    · dcalc
    · dcalc
  constructor
  · intro h
    have := h 0 (1 / 4) 0 0
    rw [key] at this
    have := congrArg Prod.fst this
    rw [show π * (1 / 4) = π / 4 by ring, sin_pi_div_four, cos_pi_div_four] at this
    have hp := pi_pos
    have h2 : (0 : ℝ) < √2 := by positivity
    have h3 : 25 / 4 * π * (√2 / 2) * (√2 / 2) ≠ 0 := by positivity
    rcases mul_eq_zero.1 this with h | h
    · linarith
    · exact absurd h h3
  · intro h t x y z
    rw [key, h]
    simp

/-- The force the library computes for that test, with a Reynolds number that is not zero: with difference quotients it is
not quite zero even then. -/
theorem null_force (c Rf : ℝ) (h : Rf ≠ 0) : ∃ v, nullF c Rf = some v ∧ ∀ t x y z,
    v.call t x y z = some ((c - cos (π * 1e-6)) * (25 / 8 * sin (2 * π * x) * sin (π * 1e-6) / 1e-6), 0, 0) := by
  simp only [nullF, inv, if_neg h, V3.cross, V3.sub, V3.add, V3.mul, Option.bind_some]
  refine ⟨_, rfl, fun t x y z => ?_⟩
  have hp : sin (π * (x + 1e-6)) = sin (π * x) * cos (π * 1e-6) + cos (π * x) * sin (π * 1e-6) := by
    rw [mul_add, sin_add]
  have hm : sin (π * (x - 1e-6)) = sin (π * x) * cos (π * 1e-6) - cos (π * x) * sin (π * 1e-6) := by
    rw [mul_sub, sin_sub]
  have h2 : sin (2 * π * x) = 2 * sin (π * x) * cos (π * x) := by rw [← sin_two_mul]; ring_nf
  have hq : cos (2 * π * (x + 1e-6)) - cos (2 * π * (x - 1e-6)) =
      - 2 * sin (2 * π * x) * (2 * sin (π * 1e-6) * cos (π * 1e-6)) := by
    rw [← sin_two_mul, mul_add, mul_sub, cos_add, cos_sub]
    ring_nf
  simp only [V3.call, V3.plain, V3.timeDerivative, S3.gradient, S3.plain, given3, npd3_eq, add3, sub3, mul3, smul3,
    Initial.j, V3.curl, vec, nullPoints, nullB, Funcs.diff3, line3, coord3, zero3, nullP, hp, hm,
    Bool.false_eq_true, if_false, Option.some.injEq, Prod.mk.injEq]
  refine ⟨?_, ?_, ?_⟩
  · have : (5 / 4) ^ 2 * cos (2 * π * (x + 1e-6)) - (5 / 4) ^ 2 * cos (2 * π * (x - 1e-6)) =
        (5 / 4) ^ 2 * (- 2 * sin (2 * π * x) * (2 * sin (π * 1e-6) * cos (π * 1e-6))) := by rw [← hq]; ring
    rw [this, h2]
    ring
  · ring
  · ring

end Phyem.Samples
