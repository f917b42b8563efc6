import Verif.Samples.Model
import Verif.Samples.Spec
import Mathlib.Analysis.SpecialFunctions.Trigonometric.Deriv
import Mathlib.Analysis.SpecialFunctions.ExpDeriv
import Mathlib.Tactic.Ring
import Mathlib.Tactic.NormNum

/-!
# The fields of the manufactured solutions fulfil the equations without sources
-/

namespace Phyem.Samples

open Real Phyem.Funcs

lemma deriv_hmul (k c : ℝ) : deriv (HMul.hMul k) c = k := by
  have : (HMul.hMul k : ℝ → ℝ) = fun u => k * u := rfl
  rw [this, deriv_const_mul_field, deriv_id'', mul_one]

/-- Computes partial derivatives of formulas. -/
macro "dcalc" : tactic => `(tactic|
  (simp only [D3, line3, coord3];
   simp (disch := fun_prop) only [deriv_fun_add, deriv_fun_mul, deriv_fun_sub, deriv.fun_neg, deriv_fun_pow, deriv_const,
    deriv_id'', deriv_div_const, _root_.deriv_exp, _root_.deriv_sin, _root_.deriv_cos, Real.deriv_exp, Real.deriv_sin,
    Real.deriv_cos, Nat.cast_ofNat, deriv_hmul];
   try ring1))

/-- Shows that partial derivatives exist. -/
macro "dsmooth" : tactic => `(tactic|
  (intro a t x y z; cases a <;> (simp only [line3, coord3]; fun_prop)))

lemma ux_smooth : Smooth3 ux := by unfold ux; dsmooth
lemma uy_smooth : Smooth3 uy := by unfold uy; dsmooth
lemma uz_smooth : Smooth3 uz := by unfold uz; dsmooth
lemma u_div (t x y z : ℝ) : div D3 (ux, uy, uz) t x y z = 0 := by
  unfold div ux uy uz
  dcalc

lemma t4_smooth : SmoothV (T4u, T4v, T4w) := by
  refine ⟨?_, ?_, ?_⟩ <;> dsimp only
  · unfold T4u; dsmooth
  · unfold T4v; dsmooth
  · unfold T4w; dsmooth
lemma t4_div (t x y z : ℝ) : div D3 (T4u, T4v, T4w) t x y z = 0 := by
  unfold div T4u T4v T4w
  dcalc

/-- The velocities of the manufactured solutions are free of divergence, but for the third of those with the Hall effect. -/
theorem velocity_divergence_free : ∀ s ∈ [mhd0, hall0, hall1, hall2, hall4],
    SmoothV s.u ∧ ∀ t x y z, div D3 s.u t x y z = 0 := by
  have h : SmoothV (ux, uy, uz) ∧ ∀ t x y z, div D3 (ux, uy, uz) t x y z = 0 :=
    ⟨⟨ux_smooth, uy_smooth, uz_smooth⟩, u_div⟩
  simp only [List.forall_mem_cons, List.forall_mem_nil, and_true, List.not_mem_nil, false_implies, implies_true]
  exact ⟨h, h, h, h, t4_smooth, t4_div⟩

/-- The third solution with the Hall effect has a velocity whose divergence is not zero, so that it is not a solution for an
incompressible fluid. -/
theorem velocity_divergence_refuted : SmoothV hall3.u ∧ ∃ t x y z, div D3 hall3.u t x y z ≠ 0 := by
  refine ⟨⟨?_, ?_, ?_⟩, 0, 0, 0, 0, ?_⟩
  · simp only [hall3, U3, Electric.E]; dsmooth
  · simp only [hall3, U3, Electric.E]; dsmooth
  · simp only [hall3, U3, Electric.E]; dsmooth
  · have : div D3 hall3.u 0 0 0 0 = -1 := by
      simp only [hall3, U3, Electric.E, div]
      dcalc
      simp only [sin_zero, cos_zero, exp_zero]
      norm_num
    rw [this]
    norm_num

/-- The divergence of that velocity everywhere. -/
theorem velocity_divergence_third (t x y z : ℝ) :
    div D3 hall3.u t x y z = (cos x * cos y - cos y * cos z - cos x * cos z) * exp t := by
  simp only [hall3, U3, Electric.E, div]
  dcalc

lemma Ea_all : SmoothV Ea.B ∧ (∀ t x y z, div D3 Ea.B t x y z = 0) ∧ SmoothV Ea.E ∧
    ∀ t x y z, at3 (dt D3 Ea.B) t x y z = - at3 (curl D3 Ea.E) t x y z := by
  refine ⟨⟨?_, ?_, ?_⟩, ?_, ⟨?_, ?_, ?_⟩, ?_⟩
  · simp only [Electric.B]; unfold Electric.Bx Electric.curlX Ea; dsmooth
  · simp only [Electric.B]; unfold Electric.By Electric.curlY Ea; dsmooth
  · simp only [Electric.B]; unfold Electric.Bz Electric.curlZ Ea; dsmooth
  · intro t x y z
    simp only [Electric.B]
    unfold div Electric.Bx Electric.By Electric.Bz Electric.curlX Electric.curlY Electric.curlZ Ea
    dcalc
  · simp only [Electric.E]; unfold Ea; dsmooth
  · simp only [Electric.E]; unfold Ea; dsmooth
  · simp only [Electric.E]; unfold Ea; dsmooth
  · intro t x y z
    simp only [Electric.B, Electric.E, at3, curl, dt, Prod.neg_mk, Prod.mk.injEq]
    unfold Electric.Bx Electric.By Electric.Bz Electric.curlX Electric.curlY Electric.curlZ Ea
    refine ⟨?_, ?_, ?_⟩ <;> dcalc

lemma Eb_all : SmoothV Eb.B ∧ (∀ t x y z, div D3 Eb.B t x y z = 0) ∧ SmoothV Eb.E ∧
    ∀ t x y z, at3 (dt D3 Eb.B) t x y z = - at3 (curl D3 Eb.E) t x y z := by
  refine ⟨⟨?_, ?_, ?_⟩, ?_, ⟨?_, ?_, ?_⟩, ?_⟩
  · simp only [Electric.B]; unfold Electric.Bx Electric.curlX Eb; dsmooth
  · simp only [Electric.B]; unfold Electric.By Electric.curlY Eb; dsmooth
  · simp only [Electric.B]; unfold Electric.Bz Electric.curlZ Eb; dsmooth
  · intro t x y z
    simp only [Electric.B]
    unfold div Electric.Bx Electric.By Electric.Bz Electric.curlX Electric.curlY Electric.curlZ Eb
    dcalc
  · simp only [Electric.E]; unfold Eb; dsmooth
  · simp only [Electric.E]; unfold Eb; dsmooth
  · simp only [Electric.E]; unfold Eb; dsmooth
  · intro t x y z
    simp only [Electric.B, Electric.E, at3, curl, dt, Prod.neg_mk, Prod.mk.injEq]
    unfold Electric.Bx Electric.By Electric.Bz Electric.curlX Electric.curlY Electric.curlZ Eb
    refine ⟨?_, ?_, ?_⟩ <;> dcalc

lemma Ec_all : SmoothV Ec.B ∧ (∀ t x y z, div D3 Ec.B t x y z = 0) ∧ SmoothV Ec.E ∧
    ∀ t x y z, at3 (dt D3 Ec.B) t x y z = - at3 (curl D3 Ec.E) t x y z := by
  refine ⟨⟨?_, ?_, ?_⟩, ?_, ⟨?_, ?_, ?_⟩, ?_⟩
  · simp only [Electric.B]; unfold Electric.Bx Electric.curlX Ec; dsmooth
  · simp only [Electric.B]; unfold Electric.By Electric.curlY Ec; dsmooth
  · simp only [Electric.B]; unfold Electric.Bz Electric.curlZ Ec; dsmooth
  · intro t x y z
    simp only [Electric.B]
    unfold div Electric.Bx Electric.By Electric.Bz Electric.curlX Electric.curlY Electric.curlZ Ec
    dcalc
  · simp only [Electric.E]; unfold Ec; dsmooth
  · simp only [Electric.E]; unfold Ec; dsmooth
  · simp only [Electric.E]; unfold Ec; dsmooth
  · intro t x y z
    simp only [Electric.B, Electric.E, at3, curl, dt, Prod.neg_mk, Prod.mk.injEq]
    unfold Electric.Bx Electric.By Electric.Bz Electric.curlX Electric.curlY Electric.curlZ Ec
    refine ⟨?_, ?_, ?_⟩ <;> dcalc

lemma Ed_all : SmoothV Ed.B ∧ (∀ t x y z, div D3 Ed.B t x y z = 0) ∧ SmoothV Ed.E ∧
    ∀ t x y z, at3 (dt D3 Ed.B) t x y z = - at3 (curl D3 Ed.E) t x y z := by
  refine ⟨⟨?_, ?_, ?_⟩, ?_, ⟨?_, ?_, ?_⟩, ?_⟩
  · simp only [Electric.B]; unfold Electric.Bx Electric.curlX Ed; dsmooth
  · simp only [Electric.B]; unfold Electric.By Electric.curlY Ed; dsmooth
  · simp only [Electric.B]; unfold Electric.Bz Electric.curlZ Ed; dsmooth
  · intro t x y z
    simp only [Electric.B]
    unfold div Electric.Bx Electric.By Electric.Bz Electric.curlX Electric.curlY Electric.curlZ Ed
    dcalc
  · simp only [Electric.E]; unfold Ed; dsmooth
  · simp only [Electric.E]; unfold Ed; dsmooth
  · simp only [Electric.E]; unfold Ed; dsmooth
  · intro t x y z
    simp only [Electric.B, Electric.E, at3, curl, dt, Prod.neg_mk, Prod.mk.injEq]
    unfold Electric.Bx Electric.By Electric.Bz Electric.curlX Electric.curlY Electric.curlZ Ed
    refine ⟨?_, ?_, ?_⟩ <;> dcalc

/-- The magnetic fields of all manufactured solutions are free of divergence. -/
theorem magnetic_divergence_free : ∀ s ∈ [mhd0, hall0, hall1, hall2, hall3, hall4],
    SmoothV s.B ∧ ∀ t x y z, div D3 s.B t x y z = 0 := by
  simp only [List.forall_mem_cons, List.forall_mem_nil, and_true, List.not_mem_nil, false_implies, implies_true]
  exact ⟨⟨Ea_all.1, Ea_all.2.1⟩, ⟨Eb_all.1, Eb_all.2.1⟩, ⟨Ec_all.1, Ec_all.2.1⟩, ⟨Eb_all.1, Eb_all.2.1⟩,
    ⟨Ec_all.1, Ec_all.2.1⟩, Ed_all.1, Ed_all.2.1⟩

/-- The law of Faraday holds for all manufactured solutions: the magnetic field changes by minus the curl of the electric
field, and it is zero at the beginning. -/
theorem faraday : ∀ s ∈ [mhd0, hall0, hall1, hall2, hall3, hall4],
    SmoothV s.E ∧ (∀ t x y z, at3 (dt D3 s.B) t x y z = - at3 (curl D3 s.E) t x y z) ∧
      ∀ x y z, at3 s.B 0 x y z = 0 := by
  have h0 : ∀ e : Electric, ∀ x y z, at3 e.B 0 x y z = 0 := by
    intro e x y z
    simp only [at3, Electric.B, Electric.Bx, Electric.By, Electric.Bz, neg_add_cancel]
    rfl
  simp only [List.forall_mem_cons, List.forall_mem_nil, and_true, List.not_mem_nil, false_implies, implies_true]
  exact ⟨⟨Ea_all.2.2.1, Ea_all.2.2.2, h0 Ea⟩, ⟨Eb_all.2.2.1, Eb_all.2.2.2, h0 Eb⟩, ⟨Ec_all.2.2.1, Ec_all.2.2.2, h0 Ec⟩,
    ⟨Eb_all.2.2.1, Eb_all.2.2.2, h0 Eb⟩, ⟨Ec_all.2.2.1, Ec_all.2.2.2, h0 Ec⟩, Ed_all.2.2.1, Ed_all.2.2.2, h0 Ed⟩

/-- The fields are not zero: the fields of the last solution at a point. -/
example : at3 hall4.E 0 2 1 0 ≠ 0 ∧ at3 hall4.B 1 (1 / 2) 0 2 ≠ 0 := by
  have : (1 : ℝ) < exp 1 := by simp
  refine ⟨fun h => ?_, fun h => ?_⟩
  · have := congrArg Prod.fst h
    simp only [at3, hall4, Electric.E, Ed, exp_zero, Prod.fst_zero] at this
    norm_num at this
  · have h2 := congrArg (fun p => p.2.1) h
    simp only [at3, hall4, Electric.B, Electric.By, Electric.curlY, Ed, exp_zero, Prod.fst_zero, Prod.snd_zero] at h2
    norm_num at h2
    linarith

/-- The vorticity that is given with the third solution is the curl of its velocity. -/
theorem vorticity_right (t x y z : ℝ) :
    ∃ w, hall3.omega = some w ∧ at3 w t x y z = at3 (curl D3 hall3.u) t x y z := by
  refine ⟨_, rfl, ?_⟩
  simp only [hall3, U3, Electric.curl, Electric.E, Electric.curlX, Electric.curlY, Electric.curlZ, at3, curl,
    Prod.mk.injEq]
  refine ⟨?_, ?_, ?_⟩ <;> dcalc

/-! ### Sources -/

lemma npd3_eq (a : Ax3) (f : F3 ℝ) : npd3 a f = Funcs.diff3 a f := by
  funext t x y z
  cases a <;> simp only [npd3, Funcs.diff3, central, h3, line3, coord3] <;> norm_num

/-- The vorticity the sources are computed with: the one that is given, or difference quotients of the velocity. -/
noncomputable def usedVorticity (s : Mhd) : Vec :=
  match s.omega with
  | none => curl Funcs.diff3 s.u
  | some w => w

/-- The body force is the left side of the momentum equation with difference quotients in the place of derivatives, for every
solution and all numbers; a zero Reynolds number is refused. -/
theorem force_is_momentum (s : Mhd) (c Rf : ℝ) :
    (Rf = 0 → s.f c Rf = none) ∧ (Rf ≠ 0 → ∃ v, s.f c Rf = some v ∧ ∀ t x y z,
      v.call t x y z = some (momentum Funcs.diff3 s.u (usedVorticity s) (curl Funcs.diff3 s.B) s.B s.P c Rf t x y z)) := by
  refine ⟨fun h => ?_, fun h => ?_⟩
  · simp [Mhd.f, inv, h, V3.cross, V3.sub, V3.add]
  · have hw : s.vorticity = vec (usedVorticity s) := by
      unfold Mhd.vorticity usedVorticity
      cases s.omega with
      | none =>
        simp only [V3.curl, vec, V3.plain, given3, npd3_eq, curl]
        rfl
      | some w => rfl
    simp only [Mhd.f, inv, if_neg h, V3.cross, V3.sub, V3.add, V3.mul, Option.bind_some]
    refine ⟨_, rfl, fun t x y z => ?_⟩
    rw [hw]
    simp [V3.call, V3.plain, momentum, at3, dt, cross, curl, grad, V3.timeDerivative, S3.gradient, S3.plain,
      given3, npd3_eq, add3, sub3, mul3, smul3, Mhd.j, V3.curl, vec]

/-- The electric source is the law of Ohm with difference quotients in the place of derivatives, with or without the Hall
effect. -/
theorem source_is_ohm (s : Mhd) (Rm : ℝ) (eta : Option ℝ) :
    (Rm = 0 → s.m Rm eta = none) ∧ (Rm ≠ 0 → ∃ v, s.m Rm eta = some v ∧ ∀ t x y z,
      v.call t x y z = some (ohm s.u s.E s.B (curl Funcs.diff3 s.B) Rm (eta.getD 0) t x y z)) := by
  refine ⟨fun h => ?_, fun h => ?_⟩
  · simp [Mhd.m, inv, h]
  · cases eta <;> simp only [Mhd.m, inv, if_neg h, V3.cross, V3.sub, V3.add, V3.mul, Option.bind_some]
    all_goals
      refine ⟨_, rfl, fun t x y z => ?_⟩
      simp [V3.call, V3.plain, ohm, at3, cross, curl, given3, npd3_eq, add3, sub3, mul3, smul3, Mhd.j, V3.curl, vec]

end Phyem.Samples
