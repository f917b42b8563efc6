import Verif.Samples.Ions
import Verif.Samples.Exact
import Mathlib.Analysis.SpecialFunctions.Log.Deriv

/-!
# Ions in a fluid: the manufactured solution is one
-/

namespace Phyem.Samples

open Real Phyem.Funcs

/-- The concentration of the negative ions, from the positive ones and the potential with the exact derivatives. -/
noncomputable def negIons (e s : ℝ) : F2 ℝ := fun t x y =>
  iP s t x y + e * (D2 .x (D2 .x iPsi) t x y + D2 .y (D2 .y iPsi) t x y)

lemma dpsix : D2 .x iPsi = iPsix := by funext t x y; unfold iPsi iPsix; dcalc2
lemma dpsiy : D2 .y iPsi = iPsiy := by funext t x y; unfold iPsi iPsiy; dcalc2
lemma dpsixx : D2 .x iPsix = iPsixx := by funext t x y; unfold iPsixx iPsix; dcalc2
lemma dpsiyy : D2 .y iPsiy = iPsiyy := by funext t x y; unfold iPsiyy iPsiy; dcalc2
lemma dpx (s : ℝ) : D2 .x (iP s) = iPx := by funext t x y; unfold iP iPx; dcalc2
lemma dpy (s : ℝ) : D2 .y (iP s) = iPy := by funext t x y; unfold iP iPy; dcalc2
lemma dpt (s : ℝ) : D2 .t (iP s) = iPt s := by funext t x y; unfold iP iPt; dcalc2

lemma negIons_eq (e s : ℝ) : negIons e s = fun t x y => (cos x * sin y + s - 2 * e * (sin x * sin y)) * exp t := by
  funext t x y
  simp only [negIons, dpsix, dpsiy, dpsixx, dpsiyy]
  unfold iP iPsixx iPsiyy
  ring

/-- The property: every derivative that the solution gives is the derivative. -/
theorem ions_given (s : ℝ) :
    (Smooth2 iU ∧ D2 .t iU = iUt ∧ D2 .x iU = iUx ∧ D2 .y iU = iUy) ∧
    (Smooth2 iV ∧ D2 .t iV = iVt ∧ D2 .x iV = iVx ∧ D2 .y iV = iVy) ∧
    (Smooth2 iS ∧ D2 .t iS = iSt ∧ D2 .x iS = iSx ∧ D2 .y iS = iSy) ∧
    (Smooth2 (iP s) ∧ D2 .t (iP s) = iPt s ∧ D2 .x (iP s) = iPx ∧ D2 .y (iP s) = iPy) ∧
    (Smooth2 iPsi ∧ D2 .t iPsi = iPsit ∧ D2 .x iPsi = iPsix ∧ D2 .y iPsi = iPsiy) ∧
    (Smooth2 iPsit ∧ D2 .t iPsit = iPsitt) ∧
    (Smooth2 iPsix ∧ D2 .x iPsix = iPsixx ∧ D2 .y iPsix = iPsixy) ∧
    (Smooth2 iPsiy ∧ D2 .x iPsiy = iPsiyx ∧ D2 .y iPsiy = iPsiyy) := by
  refine ⟨⟨?_, ?_, ?_, ?_⟩, ⟨?_, ?_, ?_, ?_⟩, ⟨?_, ?_, ?_, ?_⟩, ⟨?_, dpt s, dpx s, dpy s⟩, ⟨?_, ?_, dpsix, dpsiy⟩, ⟨?_, ?_⟩,
    ⟨?_, dpsixx, ?_⟩, ⟨?_, ?_, dpsiyy⟩⟩
  · unfold iU; dsmooth2
  · funext t x y; unfold iU iUt; dcalc2
  · funext t x y; unfold iU iUx; dcalc2
  · funext t x y; unfold iU iUy; dcalc2
  · unfold iV; dsmooth2
  · funext t x y; unfold iV iVt; dcalc2
  · funext t x y; unfold iV iVx; dcalc2
  · funext t x y; unfold iV iVy; dcalc2
  · unfold iS; dsmooth2
  · funext t x y; unfold iS iSt; dcalc2
  · funext t x y; unfold iS iSx; dcalc2
  · funext t x y; unfold iS iSy; dcalc2
  · unfold iP; dsmooth2
  · unfold iPsi; dsmooth2
  · funext t x y; unfold iPsi iPsit; dcalc2
  · unfold iPsit; dsmooth2
  · funext t x y; unfold iPsit iPsitt; dcalc2
  · unfold iPsix; dsmooth2
  · funext t x y; unfold iPsix iPsixy; dcalc2
  · unfold iPsiy; dsmooth2
  · funext t x y; unfold iPsiy iPsiyx; dcalc2

/-- The fluid is incompressible, and the property that computes the divergence is exactly zero. -/
theorem ions_incompressible (t x y : ℝ) : div2 D2 (iU, iV) t x y = 0 ∧ ionDiv.call t x y = [0] := by
  refine ⟨?_, ?_⟩
  · unfold div2 iU iV; dcalc2
  · simp only [ionDiv, ionU, V2.divergence, V2.ux, V2.vy, given2, S2.call, S2.plain, add2, iUx, iVy]
    congr 1; ring

/-- The equation of Poisson: the concentration of the negative ions exists and is that of the positive ones plus `epsilon`
times the Laplacian of the potential. -/
theorem ions_poisson (e s : ℝ) : ∃ n, ionN e s = some n ∧ ∀ t x y, n.call t x y = [negIons e s t x y] := by
  simp only [ionN, scale, pyMul, S2.rmul, S2.mul, S2.laplacian, ionPsi, Option.bind_some, S2.add]
  refine ⟨_, rfl, fun t x y => ?_⟩
  simp only [S2.call, S2.plain, add2, smul2, negIons, dpsix, dpsiy, dpsixx, dpsiyy, ionP]

/-- Both concentrations are positive everywhere at all times exactly if the shift is large enough; only then do the potentials
exist. The parameters of the default (1 and 3) are large enough. -/
theorem ions_positive (e s : ℝ) : ((∀ t x y, 0 < iP s t x y) ↔ 1 < s) ∧
    ((∀ t x y, 0 < negIons e s t x y) ↔ Real.sqrt (1 + 4 * e ^ 2) < s) := by
  refine ⟨⟨fun h => ?_, fun h t x y => ?_⟩, ⟨fun h => ?_, fun h t x y => ?_⟩⟩
  · have := h 0 π (π / 2)
    simp [iP] at this
    linarith
  · apply mul_pos _ (exp_pos t)
    have : |cos x * sin y| ≤ 1 := by
      rw [abs_mul]
      exact mul_le_one₀ (abs_cos_le_one x) (abs_nonneg _) (abs_sin_le_one y)
    have := neg_abs_le (cos x * sin y)
    linarith
  · set r := Real.sqrt (1 + 4 * e ^ 2) with hr
    have hr1 : 0 < r := Real.sqrt_pos.2 (by positivity)
    have hr2 : r ^ 2 = 1 + 4 * e ^ 2 := Real.sq_sqrt (by positivity)
    -- the angle with cosine `-1 / r` and sine `2 e / r`
    have hc : ∃ x, cos x = - 1 / r ∧ sin x = 2 * e / r := by
      have hn : ‖(⟨- 1 / r, 2 * e / r⟩ : ℂ)‖ = 1 := by
        rw [Complex.norm_def, Complex.normSq_mk]
        rw [show (-1 / r) * (-1 / r) + 2 * e / r * (2 * e / r) = (1 + 4 * e ^ 2) / r ^ 2 by field_simp; ring]
        rw [hr2, div_self (by positivity), Real.sqrt_one]
      have hz : (⟨- 1 / r, 2 * e / r⟩ : ℂ) ≠ 0 := by
        intro h0; rw [h0] at hn; simp at hn
      refine ⟨Complex.arg ⟨- 1 / r, 2 * e / r⟩, ?_, ?_⟩
      · rw [Complex.cos_arg hz, hn]; simp
      · rw [Complex.sin_arg, hn]; simp
    obtain ⟨x, hx1, hx2⟩ := hc
    have := h 0 x (π / 2)
    rw [negIons_eq] at this
    simp only [sin_pi_div_two, hx1, hx2, exp_zero, mul_one] at this
    have e1 : -1 / r + s - 2 * e * (2 * e / r) = s - (1 + 4 * e ^ 2) / r := by field_simp; ring
    rw [e1, ← hr2] at this
    have e2 : r ^ 2 / r = r := by field_simp
    linarith
  · rw [negIons_eq]
    apply mul_pos _ (exp_pos t)
    set r := Real.sqrt (1 + 4 * e ^ 2) with hr
    have hr1 : 0 < r := Real.sqrt_pos.2 (by positivity)
    have hr2 : r ^ 2 = 1 + 4 * e ^ 2 := Real.sq_sqrt (by positivity)
    have h1 : (cos x - 2 * e * sin x) ^ 2 ≤ r ^ 2 := by
      rw [hr2]
      nlinarith [sq_nonneg (sin x + 2 * e * cos x), sin_sq_add_cos_sq x]
    have h2 : ((cos x - 2 * e * sin x) * sin y) ^ 2 ≤ r ^ 2 := by
      rw [mul_pow]
      have := sin_sq_le_one y
      nlinarith [sq_nonneg (cos x - 2 * e * sin x)]
    have h3 := (abs_le_of_sq_le_sq' h2 hr1.le).1
    nlinarith

/-- All fields have the period `2π`. -/
theorem ions_periodic (e s : ℝ) : Periodic2 (2 * π) iU ∧ Periodic2 (2 * π) iV ∧ Periodic2 (2 * π) iS ∧
    Periodic2 (2 * π) (iP s) ∧ Periodic2 (2 * π) iPsi ∧ Periodic2 (2 * π) (negIons e s) := by
  rw [negIons_eq]
  refine ⟨?_, ?_, ?_, ?_, ?_, ?_⟩ <;> intro t x y <;>
    simp [iU, iV, iS, iP, iPsi, sin_add_two_pi, cos_add_two_pi]

/-- The potentials, the pressures and the vorticity. -/
theorem ions_potentials (e s : ℝ) : ∃ mu nu th tot phi, ionMu s = some mu ∧ ionNu e s = some nu ∧ ionTheta e s = some th ∧
    ionTotal = some tot ∧ ionPhi e s = some phi ∧ ∀ t x y,
      mu.call t x y = [Real.log (iP s t x y) + iPsi t x y] ∧
      nu.call t x y = [Real.log (negIons e s t x y) - iPsi t x y] ∧
      (ionDelta s).call t x y = [Real.log (iP s t x y)] ∧ th.call t x y = [Real.log (negIons e s t x y)] ∧
      ionOmega.call t x y = [rot2 D2 (iU, iV) t x y] ∧
      tot.call t x y = [iS t x y + (iU t x y ^ 2 + iV t x y ^ 2) / 2] ∧
      phi.call t x y = [iS t x y + (iU t x y ^ 2 + iV t x y ^ 2) / 2 - iP s t x y - negIons e s t x y] := by
  obtain ⟨n, hn, hn2⟩ := ions_poisson e s
  have hn3 : n.s = negIons e s := by
    funext t x y
    simpa [S2.call] using hn2 t x y
  simp only [ionMu, ionNu, ionTheta, ionTotal, ionPhi, hn, S2.add, S2.sub, V2.dot, scale, pyMul, S2.rmul, S2.mul,
    Option.bind_some, Option.map_some]
  refine ⟨_, _, _, _, _, rfl, rfl, rfl, rfl, rfl, fun t x y => ⟨?_, ?_, ?_, ?_, ?_, ?_, ?_⟩⟩
  · rfl
  · simp only [S2.call, S2.plain, sub2, S2.log, hn3, ionPsi]
  · rfl
  · simp only [S2.call, S2.plain, S2.log, hn3]
  · have h := ions_given s
    simp only [ionOmega, ionU, V2.rot, V2.vx, V2.uy, given2, S2.call, S2.plain, sub2, rot2, h.1.2.2.2, h.2.1.2.2.1]
  · simp only [S2.call, S2.plain, add2, smul2, mul2, ionS, ionU]
    congr 1; ring
  · simp only [S2.call, S2.plain, add2, sub2, smul2, mul2, ionS, ionU, hn3, ionP]
    congr 1; ring

/-- The fluxes: the concentration times the difference quotients of the potentials. -/
theorem ions_fluxes (e s : ℝ) : ∃ a b, ionPTau s = some a ∧ ionNChi e s = some b ∧ ∀ t x y,
    a.call t x y = iP s t x y • at2 (Funcs.diff2 .x fun t x y => Real.log (iP s t x y) + iPsi t x y,
      Funcs.diff2 .y fun t x y => Real.log (iP s t x y) + iPsi t x y) t x y ∧
    b.call t x y = negIons e s t x y • at2 (Funcs.diff2 .x fun t x y => Real.log (negIons e s t x y) - iPsi t x y,
      Funcs.diff2 .y fun t x y => Real.log (negIons e s t x y) - iPsi t x y) t x y := by
  obtain ⟨n, hn, hn2⟩ := ions_poisson e s
  have hn3 : n.s = negIons e s := by
    funext t x y
    simpa [S2.call] using hn2 t x y
  simp only [ionPTau, ionNChi, ionTau, ionChi, ionMu, ionNu, hn, S2.add, S2.sub, scalarV, pyMul, S2.mul,
    Option.bind_some, Option.map_some]
  refine ⟨_, _, rfl, rfl, fun t x y => ⟨?_, ?_⟩⟩
  · simp only [V2.call, V2.plain, S2.gradient, S2.px, S2.py, S2.plain, given2, npd2_eq, mul2, at2, Prod.smul_mk, smul_eq_mul]
    rfl
  · simp only [V2.call, V2.plain, S2.gradient, S2.px, S2.py, S2.plain, given2, npd2_eq, mul2, at2, Prod.smul_mk, smul_eq_mul,
      S2.log, hn3]
    rfl

/-- With exact derivatives these fluxes are those in the equations: diffusion plus drift in the electric field. -/
theorem ions_flux_law (s : ℝ) (hs : 1 < s) (a : Ax2) (ha : a ≠ .t) (t x y : ℝ) :
    iP s t x y * D2 a (fun t x y => Real.log (iP s t x y) + iPsi t x y) t x y =
      D2 a (iP s) t x y + iP s t x y * D2 a iPsi t x y := by
  have hp : iP s t x y ≠ 0 := ((ions_positive 0 s).1.2 hs t x y).ne'
  have h := ions_given s
  have h1 := h.2.2.2.1.1 a t x y
  have h2 := h.2.2.2.2.1.1 a t x y
  have hv : ∀ f : F2 ℝ, line2 a f t x y (coord2 a t x y) = f t x y := by intro f; cases a <;> rfl
  have e1 : line2 a (fun t x y => Real.log (iP s t x y) + iPsi t x y) t x y =
      fun z => Real.log (line2 a (iP s) t x y z) + line2 a iPsi t x y z := by
    funext z; cases a <;> rfl
  simp only [D2]
  rw [e1, deriv_fun_add (h1.log (by rw [hv]; exact hp)) h2, deriv.log h1 (by rw [hv]; exact hp), hv]
  field_simp

/-- The body force is the left side of the momentum equation; the Laplacian of the velocity is computed by difference quotients
of its exact divergence and rotation. -/
theorem ions_force (e s : ℝ) : ∃ v, ionF e s = some v ∧ ∀ t x y, v.call t x y =
    (D2 .t iU t x y, D2 .t iV t x y)
    + (iU t x y * D2 .x iU t x y + iV t x y * D2 .y iU t x y, iU t x y * D2 .x iV t x y + iV t x y * D2 .y iV t x y)
    - ((Funcs.diff2 .x (div2 D2 (iU, iV)) t x y, Funcs.diff2 .y (div2 D2 (iU, iV)) t x y)
      - at2 (curl2 Funcs.diff2 (rot2 D2 (iU, iV))) t x y)
    + (D2 .x iS t x y, D2 .y iS t x y)
    + (iP s t x y - negIons e s t x y) • (D2 .x iPsi t x y, D2 .y iPsi t x y) := by
  obtain ⟨n, hn, hn2⟩ := ions_poisson e s
  have hn3 : n.s = negIons e s := by
    funext t x y
    simpa [S2.call] using hn2 t x y
  have h := ions_given s
  obtain ⟨⟨-, u1, u2, u3⟩, ⟨-, v1, v2, v3⟩, ⟨-, -, s2, s3⟩, -, ⟨-, -, p2, p3⟩, -⟩ := h
  simp only [ionF, hn, S2.sub, scalarV, pyMul, S2.mul, V2.laplacian, V2.convectionBy, Obj2.className, if_true, V2.add, V2.sub,
    Option.bind_some, Option.map_some]
  refine ⟨_, rfl, fun t x y => ?_⟩
  have r : rot2 D2 (iU, iV) = sub2 iVx iUy := by funext t x y; simp only [rot2, v2, u3, sub2]
  have d : div2 D2 (iU, iV) = add2 iUx iVy := by funext t x y; simp only [div2, u2, v3, add2]
  rw [r, d, u1, u2, u3, v1, v2, v3, s2, s3, p2, p3]
  simp only [V2.call, V2.plain, S2.plain, ionU, ionS, ionPsi, ionP, V2.timeDerivative, V2.rot, V2.divergence, S2.gradient,
    S2.curl, S2.px, S2.py, V2.ux, V2.uy, V2.vx, V2.vy, given2, npd2_eq, at2, curl2, add2, sub2, mul2, neg2, hn3,
    Prod.mk_add_mk, Prod.mk_sub_mk, Prod.smul_mk, smul_eq_mul, Prod.mk.injEq]

/-- The source of the positive ions is the left side of their equation; the divergence of the exact flux is computed by difference
quotients. -/
theorem ions_source_p (s : ℝ) : ∃ a, ionSourceP s = some a ∧ ∀ t x y, a.call t x y =
    [D2 .t (iP s) t x y + (iU t x y * D2 .x (iP s) t x y + iV t x y * D2 .y (iP s) t x y)
      - div2 Funcs.diff2 (fun t x y => D2 .x (iP s) t x y + iP s t x y * D2 .x iPsi t x y,
          fun t x y => D2 .y (iP s) t x y + iP s t x y * D2 .y iPsi t x y) t x y] := by
  simp only [ionSourceP, S2.add, S2.sub, V2.dot, V2.add, scalarV, pyMul, S2.mul, Option.bind_some, Option.map_some]
  refine ⟨_, rfl, fun t x y => ?_⟩
  simp only [dpt, dpx, dpy, dpsix, dpsiy]
  simp only [S2.call, V2.plain, S2.plain, ionU, ionPsi, ionP, S2.timeDerivative, V2.divergence, S2.gradient,
    S2.px, S2.py, V2.ux, V2.vy, given2, npd2_eq, div2, add2, sub2, mul2]
  rfl

/-- The source of the negative ions is the left side of their equation; their derivatives are difference quotients. -/
theorem ions_source_n (e s : ℝ) : ∃ a, ionSourceN e s = some a ∧ ∀ t x y, a.call t x y =
    [Funcs.diff2 .t (negIons e s) t x y + (iU t x y * Funcs.diff2 .x (negIons e s) t x y
        + iV t x y * Funcs.diff2 .y (negIons e s) t x y)
      - div2 Funcs.diff2 (fun t x y => Funcs.diff2 .x (negIons e s) t x y - negIons e s t x y * D2 .x iPsi t x y,
          fun t x y => Funcs.diff2 .y (negIons e s) t x y - negIons e s t x y * D2 .y iPsi t x y) t x y] := by
  have hn : ionN e s = some (.plain (negIons e s) none) := by
    simp only [ionN, scale, pyMul, S2.rmul, S2.mul, S2.laplacian, ionPsi, Option.bind_some, S2.add]
    congr 2
    funext t x y
    simp only [S2.plain, add2, smul2, negIons, dpsix, dpsiy, dpsixx, dpsiyy, ionP]
  simp only [ionSourceN, hn, S2.add, S2.sub, V2.dot, V2.sub, scalarV, pyMul, S2.mul, Option.bind_some, Option.map_some]
  refine ⟨_, rfl, fun t x y => ?_⟩
  simp only [dpsix, dpsiy]
  simp only [S2.call, V2.plain, S2.plain, ionU, ionPsi, S2.timeDerivative, V2.divergence, S2.gradient,
    S2.px, S2.py, V2.ux, V2.vy, given2, npd2_eq, div2, add2, sub2, mul2]
  rfl

/-- The default parameters are large enough. -/
example : (1 : ℝ) < 3 ∧ Real.sqrt (1 + 4 * (1 : ℝ) ^ 2) < 3 := by
  refine ⟨by norm_num, ?_⟩
  rw [Real.sqrt_lt' (by norm_num)]
  norm_num

end Phyem.Samples
