import Verif.Geometry.Model
import Mathlib.Analysis.SpecialFunctions.Trigonometric.Deriv
import Mathlib.Analysis.Calculus.FDeriv.Prod
import Mathlib.Analysis.Calculus.FDeriv.Mul
import Mathlib.Analysis.Calculus.FDeriv.Comp
import Mathlib.Tactic.Ring
import Mathlib.Tactic.FieldSimp
import Mathlib.Tactic.NormNum

/-!
C73: the `Jacobian_matrix` of a coordinate transformation is the derivative of its `mapping`. The specification is
Mathlib's Fréchet derivative.
-/

namespace Phyem.Geometry

open Real ContinuousLinearMap

/-- The linear map of a 2×2 matrix. -/
noncomputable def lin2 (l : List (List ℝ)) : ℝ × ℝ →L[ℝ] ℝ × ℝ :=
  (at2 l 0 0 • fst ℝ ℝ ℝ + at2 l 0 1 • snd ℝ ℝ ℝ).prod (at2 l 1 0 • fst ℝ ℝ ℝ + at2 l 1 1 • snd ℝ ℝ ℝ)

/-- The projections of `ℝ × ℝ × ℝ`. -/
noncomputable def p0 : ℝ × ℝ × ℝ →L[ℝ] ℝ := fst ℝ ℝ (ℝ × ℝ)
noncomputable def p1 : ℝ × ℝ × ℝ →L[ℝ] ℝ := (fst ℝ ℝ ℝ).comp (snd ℝ ℝ (ℝ × ℝ))
noncomputable def p2 : ℝ × ℝ × ℝ →L[ℝ] ℝ := (snd ℝ ℝ ℝ).comp (snd ℝ ℝ (ℝ × ℝ))

/-- The linear map of a 3×3 matrix. -/
noncomputable def lin3 (l : List (List ℝ)) : ℝ × ℝ × ℝ →L[ℝ] ℝ × ℝ × ℝ :=
  (at2 l 0 0 • p0 + at2 l 0 1 • p1 + at2 l 0 2 • p2).prod
    ((at2 l 1 0 • p0 + at2 l 1 1 • p1 + at2 l 1 2 • p2).prod
      (at2 l 2 0 • p0 + at2 l 2 1 • p1 + at2 l 2 2 • p2))

/-- `J` is the Jacobian matrix of the two-dimensional mapping `f`. -/
def IsJac2 (f : ℝ → ℝ → ℝ × ℝ) (J : ℝ → ℝ → List (List ℝ)) : Prop :=
  ∀ r s, HasFDerivAt (fun p : ℝ × ℝ => f p.1 p.2) (lin2 (J r s)) (r, s)

/-- `J` is the Jacobian matrix of the three-dimensional mapping `f`. -/
def IsJac3 (f : ℝ → ℝ → ℝ → ℝ × ℝ × ℝ) (J : ℝ → ℝ → ℝ → List (List ℝ)) : Prop :=
  ∀ r s t, HasFDerivAt (fun p : ℝ × ℝ × ℝ => f p.1 p.2.1 p.2.2) (lin3 (J r s t)) (r, s, t)

/-- What this says about the entries: `J[i][j]` is the partial derivative of coordinate `i` along axis `j`. -/
theorem IsJac2.partials {f J} (h : IsJac2 f J) (r s : ℝ) :
    HasDerivAt (fun t => (f t s).1) (at2 (J r s) 0 0) r ∧ HasDerivAt (fun t => (f r t).1) (at2 (J r s) 0 1) s ∧
    HasDerivAt (fun t => (f t s).2) (at2 (J r s) 1 0) r ∧ HasDerivAt (fun t => (f r t).2) (at2 (J r s) 1 1) s := by
  have h0 := h r s
  have hr : HasDerivAt (fun t : ℝ => ((t, s) : ℝ × ℝ)) (1, 0) r := (hasDerivAt_id r).prodMk (hasDerivAt_const r s)
  have hs : HasDerivAt (fun t : ℝ => ((r, t) : ℝ × ℝ)) (0, 1) s := (hasDerivAt_const s r).prodMk (hasDerivAt_id s)
  have h1 := h0.comp_hasDerivAt r hr
  have h2 := h0.comp_hasDerivAt s hs
  refine ⟨?_, ?_, ?_, ?_⟩
  · have := (hasFDerivAt_fst (𝕜 := ℝ)).comp_hasDerivAt r h1
    simpa [lin2, Function.comp_def] using this
  · have := (hasFDerivAt_fst (𝕜 := ℝ)).comp_hasDerivAt s h2
    simpa [lin2, Function.comp_def] using this
  · have := (hasFDerivAt_snd (𝕜 := ℝ)).comp_hasDerivAt r h1
    simpa [lin2, Function.comp_def] using this
  · have := (hasFDerivAt_snd (𝕜 := ℝ)).comp_hasDerivAt s h2
    simpa [lin2, Function.comp_def] using this

/-- The derivative of the first coordinate, etc., in two variables. -/
theorem hx (q : ℝ × ℝ) : HasFDerivAt (fun p : ℝ × ℝ => p.1) (fst ℝ ℝ ℝ) q := hasFDerivAt_fst
theorem hy (q : ℝ × ℝ) : HasFDerivAt (fun p : ℝ × ℝ => p.2) (snd ℝ ℝ ℝ) q := hasFDerivAt_snd
theorem h0 (q : ℝ × ℝ × ℝ) : HasFDerivAt (fun p : ℝ × ℝ × ℝ => p.1) p0 q := p0.hasFDerivAt
theorem h1 (q : ℝ × ℝ × ℝ) : HasFDerivAt (fun p : ℝ × ℝ × ℝ => p.2.1) p1 q := p1.hasFDerivAt
theorem h2 (q : ℝ × ℝ × ℝ) : HasFDerivAt (fun p : ℝ × ℝ × ℝ => p.2.2) p2 q := p2.hasFDerivAt

/-! ### crazy -/

theorem crazy1_jacobian (a b k r : ℝ) : HasDerivAt (crazy1 a b k) (at2 (crazy1J a b k r) 0 0) r := by
  have h := (((hasDerivAt_id r).add ((((hasDerivAt_id r).const_mul (2 * π)).sin).const_mul (0.5 * k))).const_mul
    (b - a)).add_const a
  have e : at2 (crazy1J a b k r) 0 0 = (b - a) * (1 + 0.5 * k * (cos (2 * π * id r) * (2 * π * 1))) := by
    unfold crazy1J
    split_ifs with hk
    · simp [at2, hk]
    · simp [at2]; ring
  rw [e]
  exact h

theorem crazy2_jacobian (a b c d k : ℝ) : IsJac2 (crazy2 a b c d k) (crazy2J a b c d k) := by
  intro r s
  by_cases hk : k = 0
  · have hf : (fun p : ℝ × ℝ => crazy2 a b c d k p.1 p.2) = fun p => ((b - a) * p.1 + a, (d - c) * p.2 + c) := by
      funext p; simp [crazy2, hk]
    rw [hf]
    have h := (((hx (r, s)).const_mul (b - a)).add_const a).prodMk (((hy (r, s)).const_mul (d - c)).add_const c)
    refine h.congr_fderiv ?_
    ext <;> simp [lin2, crazy2J, hk, at2]
  · have hf : (fun p : ℝ × ℝ => crazy2 a b c d k p.1 p.2) = fun p =>
        ((b - a) * (p.1 + 0.5 * k * sin (2 * π * p.1) * sin (2 * π * p.2)) + a,
          (d - c) * (p.2 + 0.5 * k * sin (2 * π * p.1) * sin (2 * π * p.2)) + c) := by
      funext p; simp [crazy2, hk]
    rw [hf]
    have hw := ((((hx (r, s)).const_mul (2 * π)).sin).const_mul (0.5 * k)).mul (((hy (r, s)).const_mul (2 * π)).sin)
    have h := ((((hx (r, s)).add hw).const_mul (b - a)).add_const a).prodMk
      ((((hy (r, s)).add hw).const_mul (d - c)).add_const c)
    refine h.congr_fderiv ?_
    ext <;> simp [lin2, crazy2J, hk, at2] <;> ring

theorem crazy3_jacobian (a b c d e f k : ℝ) : IsJac3 (crazy3 a b c d e f k) (crazy3J a b c d e f k) := by
  intro r s t
  by_cases hk : k = 0
  · have hf : (fun p : ℝ × ℝ × ℝ => crazy3 a b c d e f k p.1 p.2.1 p.2.2) =
        fun p => ((b - a) * p.1 + a, (d - c) * p.2.1 + c, (f - e) * p.2.2 + e) := by
      funext p; simp [crazy3, hk]
    rw [hf]
    have h := (((h0 (r, s, t)).const_mul (b - a)).add_const a).prodMk
      ((((h1 (r, s, t)).const_mul (d - c)).add_const c).prodMk (((h2 (r, s, t)).const_mul (f - e)).add_const e))
    refine h.congr_fderiv ?_
    ext <;> simp [lin3, p0, p1, p2, crazy3J, hk, at2]
  · have hf : (fun p : ℝ × ℝ × ℝ => crazy3 a b c d e f k p.1 p.2.1 p.2.2) = fun p =>
        ((b - a) * (p.1 + 0.5 * k * sin (2 * π * p.1) * sin (2 * π * p.2.1) * sin (2 * π * p.2.2)) + a,
          (d - c) * (p.2.1 + 0.5 * k * sin (2 * π * p.1) * sin (2 * π * p.2.1) * sin (2 * π * p.2.2)) + c,
          (f - e) * (p.2.2 + 0.5 * k * sin (2 * π * p.1) * sin (2 * π * p.2.1) * sin (2 * π * p.2.2)) + e) := by
      funext p; simp [crazy3, hk]
    rw [hf]
    have hw := (((((h0 (r, s, t)).const_mul (2 * π)).sin).const_mul (0.5 * k)).mul
      (((h1 (r, s, t)).const_mul (2 * π)).sin)).mul (((h2 (r, s, t)).const_mul (2 * π)).sin)
    have h := ((((h0 (r, s, t)).add hw).const_mul (b - a)).add_const a).prodMk
      (((((h1 (r, s, t)).add hw).const_mul (d - c)).add_const c).prodMk
        ((((h2 (r, s, t)).add hw).const_mul (f - e)).add_const e))
    refine h.congr_fderiv ?_
    ext <;> simp [lin3, p0, p1, p2, crazy3J, hk, at2] <;> ring

/-! ### Linear transformation, in any dimension -/

/-- Along axis `j`, coordinate `i` of the mapping has the derivative `J[i][j]`. -/
theorem linear_jacobian (p : List (ℝ × ℝ)) (rst : List ℝ) (hl : rst.length = p.length) (i j : ℕ)
    (hi : i < p.length) (hj : j < p.length) :
    ∃ J, linJ p rst = some J ∧ ∃ f : ℝ → List ℝ, (∀ t, linMap p (rst.set j t) = some (f t)) ∧
      HasDerivAt (fun t => (f t).getD i 0) (at2 J i j) (rst.getD j 0) := by
  refine ⟨_, by unfold linJ; rw [if_pos hl], fun t => List.zipWith (fun q r => r * q.2 + q.1) p (rst.set j t), ?_, ?_⟩
  · intro t; unfold linMap; rw [if_pos (by simpa using hl)]
  · have e1 : ∀ t, (List.zipWith (fun q r => r * q.2 + q.1) p (rst.set j t)).getD i 0 =
        (if j = i then t else rst.getD i 0) * (p.getD i (0, 0)).2 + (p.getD i (0, 0)).1 := by
      intro t
      have hi' : i < rst.length := by omega
      rw [List.getD_eq_getElem?_getD, List.getElem?_zipWith]
      rw [List.getElem?_eq_getElem hi, List.getElem?_set]
      split_ifs with hji
      · subst hji; simp [List.getD_eq_getElem?_getD, hi]
      · omega
      · simp [List.getD_eq_getElem?_getD, hi, hi']
    have e2 : at2 ((List.range p.length).map fun i => (List.range p.length).map fun j =>
        if i = j then (p.getD i (0, 0)).2 else 0) i j = if i = j then (p.getD i (0, 0)).2 else 0 := by
      unfold at2
      simp [List.getD_eq_getElem?_getD, hi, hj]
    simp only [e1]
    rw [e2]
    by_cases hij : i = j
    · subst hij
      simp only [if_true]
      simpa using ((hasDerivAt_id (rst.getD i 0)).mul_const (p.getD i (0, 0)).2).add_const (p.getD i (0, 0)).1
    · have hji : j ≠ i := fun h => hij h.symm
      simp only [if_neg hij, if_neg hji]
      exact hasDerivAt_const _ _

/-! ### Curves and transfinite mapping -/

/-- `dgamma` is the derivative of `gamma`. -/
def Curve.Good (c : Curve) : Prop :=
  ∀ o, HasDerivAt (fun t => (c.gamma t).1) (c.dgamma o).1 o ∧ HasDerivAt (fun t => (c.gamma t).2) (c.dgamma o).2 o

theorem straightLine_derivative (p q : ℝ × ℝ) : (straightLine p q).Good := by
  intro o
  constructor
  · simpa [straightLine] using ((hasDerivAt_id o).mul_const (q.1 - p.1)).const_add p.1
  · simpa [straightLine] using ((hasDerivAt_id o).mul_const (q.2 - p.2)).const_add p.2

theorem arcOf_derivative (c : ℝ × ℝ) (r t0 t1 : ℝ) : (arcOf c r t0 t1).Good := by
  intro o
  have h := ((hasDerivAt_id o).mul_const (t1 - t0)).add_const t0
  constructor
  · have := (h.cos.const_mul r).const_add c.1
    simp only [arcOf]
    refine this.congr_deriv ?_
    simp; ring
  · have := (h.sin.const_mul r).const_add c.2
    simp only [arcOf]
    refine this.congr_deriv ?_
    simp; ring

theorem arc_derivative (center p q : ℝ × ℝ) (c : Curve)
    (h : arcAnti center p q = some c ∨ arcClock center p q = some c) : c.Good := by
  unfold arcAnti arcClock at h
  rcases h with h | h <;>
  · split_ifs at h
    · obtain rfl := Option.some.inj h
      exact arcOf_derivative _ _ _ _
    · obtain rfl := Option.some.inj h
      exact arcOf_derivative _ _ _ _

theorem tf_deriv (g0 g1 g2 g3 dg0 dg1 dg2 dg3 : ℝ → ℝ)
    (d0 : ∀ o, HasDerivAt g0 (dg0 o) o) (d1 : ∀ o, HasDerivAt g1 (dg1 o) o)
    (d2 : ∀ o, HasDerivAt g2 (dg2 o) o) (d3 : ∀ o, HasDerivAt g3 (dg3 o) o) (r s : ℝ) :
    HasFDerivAt (fun p : ℝ × ℝ => tf g0 g1 g2 g3 p.1 p.2)
      (tfdr g0 g1 g2 g3 dg0 dg2 r s • fst ℝ ℝ ℝ + tfds g0 g2 dg1 dg3 r s • snd ℝ ℝ ℝ) (r, s) := by
  have X := hx (r, s)
  have Y := hy (r, s)
  have G0 : HasFDerivAt (fun p : ℝ × ℝ => g0 p.1) (dg0 r • fst ℝ ℝ ℝ) (r, s) := (d0 r).comp_hasFDerivAt (r, s) X
  have G2 : HasFDerivAt (fun p : ℝ × ℝ => g2 p.1) (dg2 r • fst ℝ ℝ ℝ) (r, s) := (d2 r).comp_hasFDerivAt (r, s) X
  have G1 : HasFDerivAt (fun p : ℝ × ℝ => g1 p.2) (dg1 s • snd ℝ ℝ ℝ) (r, s) := (d1 s).comp_hasFDerivAt (r, s) Y
  have G3 : HasFDerivAt (fun p : ℝ × ℝ => g3 p.2) (dg3 s • snd ℝ ℝ ℝ) (r, s) := (d3 s).comp_hasFDerivAt (r, s) Y
  have X' := X.const_sub 1
  have Y' := Y.const_sub 1
  have h := ((((X'.mul G3).add (X.mul G1)).add (Y'.mul G0)).add (Y.mul G2)).sub
    (X'.mul ((Y'.mul_const (g0 0)).add (Y.mul_const (g2 0)))) |>.sub
    (X.mul ((Y'.mul_const (g0 1)).add (Y.mul_const (g2 1))))
  refine h.congr_fderiv ?_
  ext <;> simp [tfdr, tfds] <;> ring

/-- The transfinite mapping's Jacobian matrix is its derivative, for all boundary curves whose `dgamma` is the derivative
of `gamma`. -/
theorem transfinite_jacobian (x0 x1 y0 y1 : Curve) (hx0 : x0.Good) (hx1 : x1.Good) (hy0 : y0.Good) (hy1 : y1.Good) :
    IsJac2 (tfMap x0 x1 y0 y1) (tfJ x0 x1 y0 y1) := by
  intro r s
  have a := tf_deriv _ _ _ _ _ _ _ _ (fun o => (hy0 o).1) (fun o => (hx1 o).1) (fun o => (hy1 o).1)
    (fun o => (hx0 o).1) r s
  have b := tf_deriv _ _ _ _ _ _ _ _ (fun o => (hy0 o).2) (fun o => (hx1 o).2) (fun o => (hy1 o).2)
    (fun o => (hx0 o).2) r s
  refine (a.prodMk b).congr_fderiv ?_
  ext <;> simp [lin2, tfJ, at2]

/-! ### Quadrilaterals, triangles, orthogonal elements -/

theorem bilin_deriv (a : List ℝ) (r s : ℝ) :
    HasFDerivAt (fun p : ℝ × ℝ => bilin a p.1 p.2)
      ((a.getD 1 0 + a.getD 3 0 * s) • fst ℝ ℝ ℝ + (a.getD 2 0 + a.getD 3 0 * r) • snd ℝ ℝ ℝ) (r, s) := by
  have X := hx (r, s)
  have Y := hy (r, s)
  have h := (((X.const_mul (a.getD 1 0)).const_add (a.getD 0 0)).add (Y.const_mul (a.getD 2 0))).add
    ((X.const_mul (a.getD 3 0)).mul Y)
  refine h.congr_fderiv ?_
  ext <;> simp <;> ring

/-- Composition of derivatives in coordinates. -/
theorem comp2 {f : ℝ → ℝ → ℝ × ℝ} {J} (hf : IsJac2 f J) (u v : ℝ × ℝ → ℝ) (q : ℝ × ℝ) (u0 u1 v0 v1 : ℝ)
    (hu : HasFDerivAt u (u0 • fst ℝ ℝ ℝ + u1 • snd ℝ ℝ ℝ) q) (hv : HasFDerivAt v (v0 • fst ℝ ℝ ℝ + v1 • snd ℝ ℝ ℝ) q) :
    HasFDerivAt (fun p => f (u p) (v p))
      (lin2 [[at2 (J (u q) (v q)) 0 0 * u0 + at2 (J (u q) (v q)) 0 1 * v0,
          at2 (J (u q) (v q)) 0 0 * u1 + at2 (J (u q) (v q)) 0 1 * v1],
        [at2 (J (u q) (v q)) 1 0 * u0 + at2 (J (u q) (v q)) 1 1 * v0,
          at2 (J (u q) (v q)) 1 0 * u1 + at2 (J (u q) (v q)) 1 1 * v1]]) q := by
  have h := (hf (u q) (v q)).comp q (hu.prodMk hv)
  refine h.congr_fderiv ?_
  ext <;> simp [lin2, at2] <;> ring

theorem quad_jacobian (x y : List ℝ) : IsJac2 (quadMap x y) (quadJ x y) := by
  intro xi et
  have X : HasFDerivAt (fun p : ℝ × ℝ => (p.1 + 1) * 0.5) ((0.5 : ℝ) • fst ℝ ℝ ℝ) (xi, et) := by
    refine (((hx (xi, et)).add_const 1).mul_const 0.5).congr_fderiv ?_
    ext <;> simp
  have Y : HasFDerivAt (fun p : ℝ × ℝ => (p.2 + 1) * 0.5) ((0.5 : ℝ) • snd ℝ ℝ ℝ) (xi, et) := by
    refine (((hy (xi, et)).add_const 1).mul_const 0.5).congr_fderiv ?_
    ext <;> simp
  have a := (bilin_deriv (quadCoef x) ((xi + 1) * 0.5) ((et + 1) * 0.5)).comp (xi, et) (X.prodMk Y)
  have b := (bilin_deriv (quadCoef y) ((xi + 1) * 0.5) ((et + 1) * 0.5)).comp (xi, et) (X.prodMk Y)
  refine (a.prodMk b).congr_fderiv ?_
  ext <;> simp [lin2, quadJ, at2]

theorem tri_coord (t0 t1 t2 xi et : ℝ) :
    HasFDerivAt (fun p : ℝ × ℝ => t0 * p.1 + t1 * (p.2 * (p.1 + 1) / 2) + t2 * 1)
      ((t0 * 1 + t1 * (et / 2)) • fst ℝ ℝ ℝ + (t1 * ((xi + 1) / 2)) • snd ℝ ℝ ℝ) (xi, et) := by
  have X := hx (xi, et)
  have Y := hy (xi, et)
  have h := ((X.const_mul t0).add (((Y.mul (X.add_const 1)).mul_const (2⁻¹ : ℝ)).const_mul t1)).add_const (t2 * 1)
  refine (h.congr_of_eventuallyEq (Filter.Eventually.of_forall fun p => ?_)).congr_fderiv ?_
  · simp [div_eq_mul_inv]
  · ext <;> simp only [add_comp, smul_comp, coe_add', coe_smul', Pi.add_apply, Pi.smul_apply, coe_comp',
      Function.comp_apply, inl_apply, inr_apply, coe_fst', coe_snd', smul_eq_mul] <;> ring

theorem triangle_jacobian (x y : List ℝ) : IsJac2 (triMap x y) (triJ x y) := by
  intro xi et
  have a := tri_coord ((triCoef x).getD 0 0) ((triCoef x).getD 1 0) ((triCoef x).getD 2 0) xi et
  have b := tri_coord ((triCoef y).getD 0 0) ((triCoef y).getD 1 0) ((triCoef y).getD 2 0) xi et
  refine (a.prodMk b).congr_fderiv ?_
  ext <;> simp [lin2, triJ, at2]

/-- The orthogonal rectangle keeps its Jacobian rounded: it is the derivative when rounding does not change the half
extents. -/
theorem rectangle_jacobian_partial (round8 : ℝ → ℝ) (ox oy dx dy : ℝ) (hdx : round8 (dx / 2) = dx / 2)
    (hdy : round8 (dy / 2) = dy / 2) : IsJac2 (rectMap ox oy dx dy) (fun _ _ => rectJ round8 dx dy) := by
  intro xi et
  have a := (((hx (xi, et)).add_const 1).mul_const (dx / 2)).const_add ox
  have b := (((hy (xi, et)).add_const 1).mul_const (dy / 2)).const_add oy
  refine (a.prodMk b).congr_fderiv ?_
  ext <;> simp [lin2, rectJ, at2, hdx, hdy]

theorem hexahedron_jacobian_partial (round8 : ℝ → ℝ) (ox oy oz dx dy dz : ℝ) (hdx : round8 (dx / 2) = dx / 2)
    (hdy : round8 (dy / 2) = dy / 2) (hdz : round8 (dz / 2) = dz / 2) :
    IsJac3 (hexMap ox oy oz dx dy dz) (fun _ _ _ => hexJ round8 dx dy dz) := by
  intro xi et sg
  have a := (((h0 (xi, et, sg)).add_const 1).mul_const (dx / 2)).const_add ox
  have b := (((h1 (xi, et, sg)).add_const 1).mul_const (dy / 2)).const_add oy
  have c := (((h2 (xi, et, sg)).add_const 1).mul_const (dz / 2)).const_add oz
  refine (a.prodMk (b.prodMk c)).congr_fderiv ?_
  ext <;> simp [lin3, p0, p1, p2, hexJ, at2, hdx, hdy, hdz]

/-- Whenever rounding changes a half extent, the Jacobian matrix is not the derivative. -/
theorem rectangle_jacobian_refuted (round8 : ℝ → ℝ) (ox oy dx dy : ℝ) (hdx : round8 (dx / 2) ≠ dx / 2) :
    ¬ IsJac2 (rectMap ox oy dx dy) (fun _ _ => rectJ round8 dx dy) := by
  intro h
  have h1 := (h.partials 0 0).1
  have h2 : HasDerivAt (fun t => (rectMap ox oy dx dy t 0).1) (dx / 2) 0 := by
    simpa [rectMap] using (((hasDerivAt_id (0 : ℝ)).add_const 1).mul_const (dx / 2)).const_add ox
  have := h1.unique h2
  simp [rectJ, at2] at this
  exact hdx this

/-- `round(·, 8)` on a number between multiples of `10⁻⁸` changes it: a rectangle of width `2·10⁻⁹` (with the nearest
multiple, 0) has no valid Jacobian matrix at all. -/
example : ∃ round8 : ℝ → ℝ, (∀ x, ∃ n : ℤ, round8 x = n / 10 ^ 8) ∧ (∀ x, |round8 x - x| ≤ 10 ^ (-8 : ℤ) / 2) ∧
    round8 ((2 / 10 ^ 9) / 2) ≠ (2 / 10 ^ 9) / 2 := by
  refine ⟨fun x => (round (x * 10 ^ 8) : ℤ) / 10 ^ 8, fun x => ⟨_, rfl⟩, ?_, ?_⟩
  · intro x
    have h := abs_sub_round (x * 10 ^ 8)
    rw [abs_le] at h ⊢
    constructor <;> norm_num at h ⊢ <;> linarith [h.1, h.2]
  · have : round ((2 / 10 ^ 9) / 2 * 10 ^ 8 : ℝ) = 0 := by
      rw [round_eq_zero_iff]; norm_num
    simp only [this]; norm_num

/-! ### Elements of regions -/

theorem toRegion_deriv (o d xi : ℝ) : HasDerivAt (toRegion o d) (d * 0.5) xi := by
  have := ((((hasDerivAt_id xi).add_const 1).mul_const 0.5).mul_const d).add_const o
  refine this.congr_deriv ?_
  ring

theorem element2_jacobian (f : ℝ → ℝ → ℝ × ℝ) (J : ℝ → ℝ → List (List ℝ)) (hf : IsJac2 f J) (o d : ℝ × ℝ) :
    IsJac2 (elemMap2 f o d) (elemJ2 J o d) := by
  intro xi et
  have X : HasFDerivAt (fun p : ℝ × ℝ => toRegion o.1 d.1 p.1) ((d.1 * 0.5) • fst ℝ ℝ ℝ + (0 : ℝ) • snd ℝ ℝ ℝ) (xi, et) := by
    refine ((toRegion_deriv o.1 d.1 xi).comp_hasFDerivAt (xi, et) (hx (xi, et))).congr_fderiv ?_
    ext <;> simp
  have Y : HasFDerivAt (fun p : ℝ × ℝ => toRegion o.2 d.2 p.2) ((0 : ℝ) • fst ℝ ℝ ℝ + (d.2 * 0.5) • snd ℝ ℝ ℝ) (xi, et) := by
    refine ((toRegion_deriv o.2 d.2 et).comp_hasFDerivAt (xi, et) (hy (xi, et))).congr_fderiv ?_
    ext <;> simp
  refine (comp2 hf _ _ _ _ _ _ _ X Y).congr_fderiv ?_
  ext <;> simp [lin2, elemJ2, at2]

theorem element3_jacobian (f : ℝ → ℝ → ℝ → ℝ × ℝ × ℝ) (J : ℝ → ℝ → ℝ → List (List ℝ)) (hf : IsJac3 f J)
    (o d : ℝ × ℝ × ℝ) : IsJac3 (elemMap3 f o d) (elemJ3 J o d) := by
  intro xi et sg
  have X := (toRegion_deriv o.1 d.1 xi).comp_hasFDerivAt (xi, et, sg) (h0 (xi, et, sg))
  have Y := (toRegion_deriv o.2.1 d.2.1 et).comp_hasFDerivAt (xi, et, sg) (h1 (xi, et, sg))
  have Z := (toRegion_deriv o.2.2 d.2.2 sg).comp_hasFDerivAt (xi, et, sg) (h2 (xi, et, sg))
  have h := (hf (toRegion o.1 d.1 xi) (toRegion o.2.1 d.2.1 et) (toRegion o.2.2 d.2.2 sg)).comp (xi, et, sg)
    (X.prodMk (Y.prodMk Z))
  refine h.congr_fderiv ?_
  ext <;> simp [lin3, p0, p1, p2, elemJ3, at2]

theorem curvilinear_triangle_jacobian (f : ℝ → ℝ → ℝ × ℝ) (J : ℝ → ℝ → List (List ℝ)) (hf : IsJac2 f J)
    (px py : List ℝ) (o d : ℝ × ℝ) : IsJac2 (ctriMap f px py o d) (ctriJ J px py o d) := by
  intro xi et
  have a := tri_coord ((triCoef px).getD 0 0) ((triCoef px).getD 1 0) ((triCoef px).getD 2 0) xi et
  have b := tri_coord ((triCoef py).getD 0 0) ((triCoef py).getD 1 0) ((triCoef py).getD 2 0) xi et
  refine (comp2 (element2_jacobian f J hf o d) _ _ _ _ _ _ _ a b).congr_fderiv ?_
  ext <;> simp [lin2, ctriJ, triJ, triMap, at2]

/-! ### chaotic -/

theorem chaos_jacobian (a b c d k : ℝ) : IsJac2 (chaosMap a b c d k) (chaosJ a b c d k) := by
  intro p q
  by_cases hk : k = 0
  · have hf : (fun p : ℝ × ℝ => chaosMap a b c d k p.1 p.2) = fun p => (p.1, p.2) := by
      funext p; simp [chaosMap, hk]
    rw [hf]
    refine ((hx (p, q)).prodMk (hy (p, q))).congr_fderiv ?_
    ext <;> simp [lin2, chaosJ, hk, at2]
  · have hf : (fun p : ℝ × ℝ => chaosMap a b c d k p.1 p.2) = fun p =>
        ((p.1 - a) * (b - a)⁻¹ + 0.5 * k * sin (2 * π * ((p.1 - a) * (b - a)⁻¹)) *
            sin (2 * π * ((p.2 - c) * (d - c)⁻¹)) + a,
          (p.2 - c) * (d - c)⁻¹ + 0.5 * k * sin (2 * π * ((p.1 - a) * (b - a)⁻¹)) *
            sin (2 * π * ((p.2 - c) * (d - c)⁻¹))) := by
      funext p; simp [chaosMap, hk, div_eq_mul_inv]
    rw [hf]
    have X := ((hx (p, q)).sub_const a).mul_const (b - a)⁻¹
    have Y := ((hy (p, q)).sub_const c).mul_const (d - c)⁻¹
    have hw := (((X.const_mul (2 * π)).sin).const_mul (0.5 * k)).mul ((Y.const_mul (2 * π)).sin)
    have h := ((X.add hw).add_const a).prodMk (Y.add hw)
    refine h.congr_fderiv ?_
    ext <;> simp [lin2, chaosJ, hk, at2, div_eq_mul_inv] <;> ring

theorem single_jacobian (f : ℝ → ℝ → ℝ × ℝ) (J : ℝ → ℝ → List (List ℝ)) (hf : IsJac2 f J) (x y : List ℝ) :
    IsJac2 (singleMap f x y) (singleJ J x y) := by
  intro r s
  refine (comp2 hf _ _ _ _ _ _ _ (bilin_deriv (quadCoef x) r s) (bilin_deriv (quadCoef y) r s)).congr_fderiv ?_
  ext <;> simp [lin2, singleJ, at2]

end Phyem.Geometry
