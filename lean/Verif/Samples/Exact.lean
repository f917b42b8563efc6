import Verif.Samples.Model2
import Verif.Samples.Spec2
import Verif.Samples.Mhd
import Mathlib.Analysis.Calculus.Deriv.Pow
import Mathlib.Tactic.FieldSimp
import Mathlib.Tactic.LinearCombination
import Mathlib.Tactic.Positivity

/-!
# Exact solutions and initial conditions in the plane
-/

namespace Phyem.Samples

open Real Phyem.Funcs

/-- Computes partial derivatives of formulas. -/
macro "dcalc2" : tactic => `(tactic|
  (simp only [D2, line2, coord2];
   simp (disch := fun_prop) only [deriv_fun_add, deriv_fun_mul, deriv_fun_sub, deriv.fun_neg, deriv_fun_pow, deriv_const,
    deriv_id'', deriv_div_const, _root_.deriv_exp, _root_.deriv_sin, _root_.deriv_cos, Real.deriv_exp, Real.deriv_sin,
    Real.deriv_cos, Nat.cast_ofNat, deriv_hmul];
   try ring1))

/-- Shows that partial derivatives exist. -/
macro "dsmooth2" : tactic => `(tactic|
  (intro a t x y; cases a <;> (simp only [line2, coord2]; fun_prop)))

lemma npd2_eq (a : Ax2) (f : F2 ℝ) : npd2 a f = Funcs.diff2 a f := by
  funext t x y
  cases a <;> simp only [npd2, Funcs.diff2, central, h2, line2, coord2] <;> norm_num

/-! ### Magnetohydrodynamics -/

/-- The magnetic field of the solution in the plane is free of divergence and fulfils the law of Faraday. -/
theorem plane_magnetic : Smooth2 mBx ∧ Smooth2 mBy ∧ Smooth2 mE ∧ (∀ t x y, div2 D2 (mBx, mBy) t x y = 0) ∧
    ∀ t x y, (D2 .t mBx t x y, D2 .t mBy t x y) = - at2 (curl2 D2 mE) t x y := by
  refine ⟨?_, ?_, ?_, ?_, ?_⟩
  · unfold mBx; dsmooth2
  · unfold mBy; dsmooth2
  · unfold mE; dsmooth2
  · intro t x y
    unfold div2 mBx mBy
    dcalc2
  · intro t x y
    simp only [at2, curl2, Prod.neg_mk, Prod.mk.injEq]
    unfold mBx mBy mE
    refine ⟨?_, ?_⟩ <;> dcalc2

/-- The velocity of a stream function that is a sum of a function of `x` and one of `y` at every time is free of divergence,
although it is made of difference quotients. -/
lemma sum_stream (a b : ℝ → ℝ → ℝ) (t x y : ℝ) :
    div2 D2 ((S2.plain (fun t x y => a t x + b t y) none).curl.v0, (S2.plain (fun t x y => a t x + b t y) none).curl.v1) t x y
      = 0 := by
  simp only [div2, S2.curl, V2.plain, S2.py, S2.px, S2.plain, given2, neg2, npd2, central, D2, line2, coord2,
    add_sub_add_left_eq_sub, add_sub_add_right_eq_sub, deriv_const, add_zero]

/-- The velocity of the solution in the plane is free of divergence. -/
theorem plane_velocity (t x y : ℝ) : div2 D2 (mU.v0, mU.v1) t x y = 0 := by
  have h : mPhi = fun t x y => (- 2 * cos x * exp (-t)) + 2 * sin y * exp (-t) := by
    funext t x y
    unfold mPhi
    ring
  rw [mU, h]
  exact sum_stream (fun t x => - 2 * cos x * exp (-t)) (fun t y => 2 * sin y * exp (-t)) t x y

/-- The body force of the solution in the plane is the left side of the momentum equation with difference quotients. -/
theorem plane_force (c : ℝ) (Rf : Option ℝ) :
    (Rf = some 0 → mhd2F c Rf = none) ∧ (Rf ≠ some 0 → ∃ v, mhd2F c Rf = some v ∧ ∀ t x y,
      v.call t x y = momentum2 Funcs.diff2 (curl2 Funcs.diff2 mPhi) (mBx, mBy) mP c (inverse Rf) t x y) := by
  refine ⟨fun h => ?_, fun h => ?_⟩
  · subst h
    simp [mhd2F, inv', S2.cross, V2.add]
  · have hi : inv' Rf = some (inverse Rf) := by
      cases Rf with
      | none => rfl
      | some r => simp only [inv', inverse, if_neg (fun h0 : r = 0 => h (by rw [h0]))]
    simp only [mhd2F, hi, S2.cross, V2.add, V2.sub, scaleV, pyMul, V2.rmul, V2.mul, Option.bind_some, Option.map_some]
    refine ⟨_, rfl, fun t x y => ?_⟩
    simp [V2.call, V2.plain, S2.plain, momentum2, at2, turn, rot2, curl2, mU, mB, S2.curl, S2.gradient, S2.px, S2.py,
      V2.rot, V2.ux, V2.uy, V2.vx, V2.vy, given2, npd2_eq, V2.timeDerivative, add2, sub2, neg2, mul2, smul2]
    exact ⟨rfl, rfl⟩

/-- The electric source of the solution in the plane is the law of Ohm with difference quotients. -/
theorem plane_source (Rm : Option ℝ) :
    (Rm = some 0 → mhd2M Rm = none) ∧ (Rm ≠ some 0 → ∃ a, mhd2M Rm = some a ∧ ∀ t x y,
      a.call t x y = [inverse Rm * rot2 Funcs.diff2 (mBx, mBy) t x y - mE t x y -
        ((curl2 Funcs.diff2 mPhi).1 t x y * mBy t x y - (curl2 Funcs.diff2 mPhi).2 t x y * mBx t x y)]) := by
  refine ⟨fun h => ?_, fun h => ?_⟩
  · subst h
    simp [mhd2M, inv']
  · have hi : inv' Rm = some (inverse Rm) := by
      cases Rm with
      | none => rfl
      | some r => simp only [inv', inverse, if_neg (fun h0 : r = 0 => h (by rw [h0]))]
    simp only [mhd2M, hi, crossV, V2.cross, S2.sub, scale, pyMul, S2.rmul, S2.mul, Option.bind_some]
    refine ⟨_, rfl, fun t x y => ?_⟩
    simp [S2.call, V2.plain, S2.plain, rot2, curl2, mU, mB, S2.curl, S2.px, S2.py, V2.rot, V2.uy, V2.vx, given2, npd2_eq,
      sub2, neg2, mul2, smul2]

/-! ### The Navier-Stokes equations -/

lemma decay_eq (k t : ℝ) (Re : Option ℝ) : decay k t Re = k * π ^ 2 * inverse Re * t := by
  cases Re with
  | none => simp [decay, inverse]
  | some r => simp only [decay, inverse]; ring

lemma tU_eq (Re : Option ℝ) : tU Re = fun t x y => - sin (π * x) * cos (π * y) * exp (-2 * π ^ 2 * inverse Re * t) := by
  funext t x y; rw [tU, decay_eq]
lemma tV_eq (Re : Option ℝ) : tV Re = fun t x y => cos (π * x) * sin (π * y) * exp (-2 * π ^ 2 * inverse Re * t) := by
  funext t x y; rw [tV, decay_eq]
lemma tP_eq (Re : Option ℝ) : tP Re = fun t x y =>
    1 / 4 * (cos (2 * π * x) + cos (2 * π * y)) * exp (-2 * π ^ 2 * inverse Re * t) ^ 2 := by
  funext t x y
  rw [tP, decay_eq, ← exp_nat_mul]
  norm_num
  ring_nf
  simp

lemma t_rot (Re : Option ℝ) : rot2 D2 (tU Re, tV Re) =
    fun t x y => -2 * π * sin (π * x) * sin (π * y) * exp (-2 * π ^ 2 * inverse Re * t) := by
  funext t x y
  rw [tU_eq, tV_eq]
  simp only [rot2]
  dcalc2

/-- The solution of Taylor and Green fulfils the Navier-Stokes equations without a force: its velocity is free of divergence,
and the momentum equation holds, for every Reynolds number and for an infinite one. -/
theorem taylor_green_exact (Re : Option ℝ) (h : Re ≠ some 0) : Smooth2 (tU Re) ∧ Smooth2 (tV Re) ∧ Smooth2 (tP Re) ∧
    (∀ t x y, div2 D2 (tU Re, tV Re) t x y = 0) ∧
    ∀ t x y, momentum2 D2 (tU Re, tV Re) none2
      (fun t x y => tP Re t x y + 1 / 2 * (tU Re t x y ^ 2 + tV Re t x y ^ 2)) 0 (inverse Re) t x y = 0 := by
  refine ⟨?_, ?_, ?_, ?_, ?_⟩
  · rw [tU_eq]; dsmooth2
  · rw [tV_eq]; dsmooth2
  · rw [tP_eq]; dsmooth2
  · intro t x y
    rw [tU_eq, tV_eq]
    simp only [div2]
    dcalc2
  · intro t x y
    simp only [momentum2, t_rot, at2, turn, curl2, zero_smul, sub_zero, Prod.mk_add_mk, Prod.smul_mk, smul_eq_mul]
    rw [tU_eq, tV_eq, tP_eq]
    have hx : sin (2 * π * x) = 2 * sin (π * x) * cos (π * x) := by rw [← sin_two_mul]; ring_nf
    have hy : sin (2 * π * y) = 2 * sin (π * y) * cos (π * y) := by rw [← sin_two_mul]; ring_nf
    have sx := sin_sq_add_cos_sq (π * x)
    have sy := sin_sq_add_cos_sq (π * y)
    refine Prod.ext ?_ ?_
    · simp only [D2, line2, coord2, Prod.fst_zero]
      simp (disch := fun_prop) only [deriv_fun_add, deriv_fun_mul, deriv_fun_sub, deriv.fun_neg, deriv_fun_pow, deriv_const,
        deriv_id'', deriv_div_const, _root_.deriv_exp, _root_.deriv_sin, _root_.deriv_cos, Nat.cast_ofNat, deriv_hmul, hx]
      linear_combination (π * sin (π * x) * cos (π * x) * exp (-2 * π ^ 2 * inverse Re * t) ^ 2) * sy
    · simp only [D2, line2, coord2, Prod.snd_zero]
      simp (disch := fun_prop) only [deriv_fun_add, deriv_fun_mul, deriv_fun_sub, deriv.fun_neg, deriv_fun_pow, deriv_const,
        deriv_id'', deriv_div_const, _root_.deriv_exp, _root_.deriv_sin, _root_.deriv_cos, Nat.cast_ofNat, deriv_hmul, hy]
      linear_combination (π * sin (π * y) * cos (π * y) * exp (-2 * π ^ 2 * inverse Re * t) ^ 2) * sx

/-- The force the library computes for it is that side of the momentum equation with difference quotients. -/
theorem taylor_green_force (Re : Option ℝ) :
    (Re = some 0 → tgvF Re = none) ∧ (Re ≠ some 0 → ∃ v, tgvF Re = some v ∧ ∀ t x y,
      v.call t x y = momentum2 Funcs.diff2 (tU Re, tV Re) none2
        (fun t x y => tP Re t x y + 1 / 2 * (tU Re t x y ^ 2 + tV Re t x y ^ 2)) 0 (inverse Re) t x y) := by
  refine ⟨fun h => ?_, fun h => ?_⟩
  · subst h
    simp [tgvF, inv', S2.cross, V2.add]
  · have hi : inv' Re = some (inverse Re) := by
      cases Re with
      | none => rfl
      | some r => simp only [inv', inverse, if_neg (fun h0 : r = 0 => h (by rw [h0]))]
    simp only [tgvF, tgvP, hi, S2.cross, V2.add, S2.add, V2.dot, scaleV, scale, pyMul, V2.rmul, V2.mul, S2.rmul, S2.mul,
      Option.bind_some, Option.map_some]
    refine ⟨_, rfl, fun t x y => ?_⟩
    have hP : add2 (S2.plain (tP Re) none).s (S2.plain (smul2 0.5 (S2.plain (add2 (mul2 (tgvU Re).v0 (tgvU Re).v0)
        (mul2 (tgvU Re).v1 (tgvU Re).v1)) none).s) none).s =
        fun t x y => tP Re t x y + 1 / 2 * (tU Re t x y ^ 2 + tV Re t x y ^ 2) := by
      funext t x y
      simp only [add2, mul2, smul2, S2.plain, tgvU, V2.plain]
      norm_num
      ring
    rw [hP]
    simp [V2.call, V2.plain, S2.plain, momentum2, at2, turn, rot2, curl2, tgvU, S2.curl, S2.gradient, S2.px, S2.py,
      V2.rot, V2.ux, V2.uy, V2.vx, V2.vy, given2, npd2_eq, V2.timeDerivative, add2, sub2, neg2, mul2, smul2]
    exact ⟨Or.inl rfl, Or.inl rfl⟩

/-- The velocity and the pressure have the period 2. -/
theorem taylor_green_periodic (Re : Option ℝ) : Periodic2 2 (tU Re) ∧ Periodic2 2 (tV Re) ∧ Periodic2 2 (tP Re) := by
  have h1 : ∀ x : ℝ, π * (x + 2) = π * x + 2 * π := fun x => by ring
  have h2 : ∀ x : ℝ, 2 * π * (x + 2) = 2 * π * x + 2 * π + 2 * π := fun x => by ring
  simp [Periodic2, tU, tV, tP, h1, h2]

/-- The velocity of the conservation test in three dimensions is free of divergence and has the period 1. -/
theorem conservation3 : SmoothV ns3U ∧ (∀ t x y z, div D3 ns3U t x y z = 0) ∧
    Periodic3 1 ns3U.1 ∧ Periodic3 1 ns3U.2.1 ∧ Periodic3 1 ns3U.2.2 := by
  have h1 : ∀ x : ℝ, 2 * π * (x + 1) = 2 * π * x + 2 * π := fun x => by ring
  refine ⟨⟨?_, ?_, ?_⟩, ?_, ?_⟩
  · simp only [ns3U]; dsmooth
  · simp only [ns3U]; dsmooth
  · simp only [ns3U]; dsmooth
  · intro t x y z
    simp only [ns3U, div]
    dcalc
  · simp [Periodic3, ns3U, h1]

/-! ### The linear port-Hamiltonian system -/

/-- The fields `a` and `b` of `Eigen2` fulfil `∂a/∂t = div b` and `∂b/∂t = grad a`, for all frequencies and phases. -/
theorem eigen_exact (e : Eigen) : Smooth2 e.p ∧ Smooth2 e.u ∧ Smooth2 e.v ∧ ∀ t x y,
    D2 .t e.p t x y = div2 D2 (e.u, e.v) t x y ∧ D2 .t e.u t x y = D2 .x e.p t x y ∧ D2 .t e.v t x y = D2 .y e.p t x y := by
  have hw : e.omt ^ 2 = e.omx ^ 2 + e.omy ^ 2 := by
    rw [Eigen.omt, sq_sqrt (by positivity)]
  refine ⟨?_, ?_, ?_, fun t x y => ⟨?_, ?_, ?_⟩⟩
  · unfold Eigen.p; dsmooth2
  · unfold Eigen.u; dsmooth2
  · unfold Eigen.v; dsmooth2
  · simp only [div2]
    unfold Eigen.p Eigen.u Eigen.v
    simp only [D2, line2, coord2]
    simp (disch := fun_prop) only [deriv_fun_add, deriv_fun_mul, deriv_fun_sub, deriv.fun_neg, deriv_const,
      deriv_id'', _root_.deriv_sin, _root_.deriv_cos, deriv_hmul]
    linear_combination (cos (e.omx * x + e.phix) * sin (e.omy * y + e.phiy) *
      (2 * sin (e.omt * t + e.phit) + 3 * cos (e.omt * t + e.phit))) * hw
  · unfold Eigen.p Eigen.u
    dcalc2
  · unfold Eigen.p Eigen.v
    dcalc2

/-! ### The vortex of Orszag and Tang -/

/-- The velocity and the magnetic field of the vortex in three dimensions are the curls of the stream function and of the
potential, free of divergence and periodic. -/
theorem vortex3 : ∀ t x y z,
    ot3U.call t x y z = some (at3 (curl D3 (fun _ _ _ _ => 0, fun _ _ _ _ => 0, fun _ x y _ => 2 * sin y - 2 * cos x)) t x y z)
    ∧ ot3B.call t x y z =
      some (at3 (curl D3 (fun _ _ _ _ => 0, fun _ _ _ _ => 0, fun _ x y _ => cos (2 * y) - 2 * cos x)) t x y z)
    ∧ ot3U.call t x y z = some (2 * cos y, - (2 * sin x), 0)
    ∧ ot3B.call t x y z = some (- 2 * sin (2 * y), - (2 * sin x), 0)
    ∧ div D3 (ot3U.v0, ot3U.v1, ot3U.v2) t x y z = 0 ∧ div D3 (ot3B.v0, ot3B.v1, ot3B.v2) t x y z = 0 := by
  intro t x y z
  have h1 : ot3U.call t x y z = some (2 * cos y, - (2 * sin x), 0) := by
    simp [ot3U, upright, V3.curl, V3.call, V3.plain, given3, sub3, zero3]
  have h2 : ot3B.call t x y z = some (- 2 * sin (2 * y), - (2 * sin x), 0) := by
    simp [ot3B, upright, V3.curl, V3.call, V3.plain, given3, sub3, zero3]
  refine ⟨?_, ?_, h1, h2, ?_, ?_⟩
  · rw [h1]
    simp only [at3, curl, Option.some.injEq, Prod.mk.injEq]
    refine ⟨?_, ?_, ?_⟩ <;> dcalc
  · rw [h2]
    simp only [at3, curl, Option.some.injEq, Prod.mk.injEq]
    refine ⟨?_, ?_, ?_⟩ <;> dcalc
  · simp only [div, ot3U, upright, V3.curl, V3.plain, given3]
    unfold sub3 zero3
    dcalc
  · simp only [div, ot3B, upright, V3.curl, V3.plain, given3]
    unfold sub3 zero3
    dcalc

/-- In the plane they are made of difference quotients, which are the same up to factors close to 1. -/
theorem vortex2 : ∀ t x y, ot2U.call t x y = (sin 1e-4 / 1e-4) • (2 * cos y, - (2 * sin x)) ∧
    ot2B.call t x y = ((sin 2e-4 / 2e-4) * (- 2 * sin (2 * y)), (sin 1e-4 / 1e-4) * - (2 * sin x)) ∧
    div2 D2 (ot2U.v0, ot2U.v1) t x y = 0 ∧ div2 D2 (ot2B.v0, ot2B.v1) t x y = 0 := by
  intro t x y
  have h1 : oPhi = fun t x y => (fun _ x => - 2 * cos x) t x + (fun t y => 2 * sin y + 0 * t) t y := by
    funext t x y; simp only [oPhi]; ring
  have h2 : oA = fun t x y => (fun _ x => - 2 * cos x) t x + (fun t y => cos (2 * y) + 0 * t) t y := by
    funext t x y; simp only [oA]; ring
  refine ⟨?_, ?_, ?_, ?_⟩
  · simp only [ot2U, V2.call, S2.curl, V2.plain, S2.px, S2.py, S2.plain, given2, npd2_eq, neg2, Funcs.diff2, line2, coord2,
      oPhi, sin_add, sin_sub, cos_add, cos_sub, Prod.smul_mk, smul_eq_mul, Prod.mk.injEq]
    constructor <;> ring
  · simp only [ot2B, V2.call, S2.curl, V2.plain, S2.px, S2.py, S2.plain, given2, npd2_eq, neg2, Funcs.diff2, line2, coord2,
      oA, mul_add, mul_sub, cos_add, cos_sub, Prod.mk.injEq]
    rw [show (2 * 1e-4 : ℝ) = 2e-4 by norm_num]
    constructor <;> ring
  · rw [ot2U, h1]; exact sum_stream _ _ t x y
  · rw [ot2B, h2]; exact sum_stream _ _ t x y

/-- The electric field of the vortex in the plane is the law of Ohm with difference quotients; for an infinite Reynolds number,
which is the default, only the motion counts. -/
theorem vortex_electric (Rm : Option ℝ) :
    (Rm = some 0 → ot2E Rm = none) ∧ (Rm ≠ some 0 → ∃ a, ot2E Rm = some a ∧ ∀ t x y,
      a.call t x y = [inverse Rm * rot2 Funcs.diff2 (curl2 Funcs.diff2 oA) t x y -
        ((curl2 Funcs.diff2 oPhi).1 t x y * (curl2 Funcs.diff2 oA).2 t x y -
          (curl2 Funcs.diff2 oPhi).2 t x y * (curl2 Funcs.diff2 oA).1 t x y)]) := by
  refine ⟨fun h => ?_, fun h => ?_⟩
  · subst h
    simp [ot2E, inv']
  · have hi : inv' Rm = some (inverse Rm) := by
      cases Rm with
      | none => rfl
      | some r => simp only [inv', inverse, if_neg (fun h0 : r = 0 => h (by rw [h0]))]
    simp only [ot2E, hi, crossV, V2.cross, S2.sub, scale, pyMul, S2.rmul, S2.mul, Option.bind_some]
    refine ⟨_, rfl, fun t x y => ?_⟩
    simp [S2.call, V2.plain, S2.plain, rot2, curl2, ot2U, ot2B, S2.curl, S2.px, S2.py, V2.rot, V2.uy, V2.vx, given2, npd2_eq,
      sub2, neg2, mul2, smul2]
    exact Or.inl rfl

end Phyem.Samples
