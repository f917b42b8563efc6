import Verif.Norms.Norm
import Verif.Reduce.Examples
import Mathlib.Analysis.SpecialFunctions.Integrals.Basic

/-!
C119, C120: where norms, inner products and errors are not those of the functions, and elements that meet the hypotheses of the theorems.
-/

namespace Phyem.Norms

open Set MeasureTheory Reduce

/-! ### An element that is stretched unevenly -/

/-- The mapping `(2x + x²/2, y)`, with Jacobian `2 + x`. -/
noncomputable def stretch (x y : ℝ) : ℝ × ℝ := (2 * x + x ^ 2 / 2, y)

noncomputable def stretchJ (x _y : ℝ) (i j : ℕ) : ℝ :=
  if i = 0 ∧ j = 0 then 2 + x else if i = 1 ∧ j = 1 then 1 else 0

lemma stretch_det (x y : ℝ) : det2 (stretchJ x y) = 2 + x := by
  simp [det2, stretchJ]

lemma stretch_chart : Chart2 stretch stretchJ where
  diff x _ y _ := by unfold stretch; fun_prop
  jac x _ y _ := by
    have h1 : HasFDerivAt (fun P : ℝ × ℝ => 2 * P.1 + P.1 ^ 2 / 2) ((2 + x) • ContinuousLinearMap.fst ℝ ℝ ℝ) (x, y) := by
      have h : HasDerivAt (fun t : ℝ => 2 * t + t ^ 2 / 2) (2 + x) x :=
        (((hasDerivAt_id x).const_mul 2).fun_add (((hasDerivAt_id x).pow 2).div_const 2)).congr_deriv (by simp)
      exact HasDerivAt.comp_hasFDerivAt (h₂ := fun t : ℝ => 2 * t + t ^ 2 / 2) (x, y) h
        ((ContinuousLinearMap.fst ℝ ℝ ℝ).hasFDerivAt)
    have h2 : HasFDerivAt (fun P : ℝ × ℝ => P.2) (ContinuousLinearMap.snd ℝ ℝ ℝ) (x, y) :=
      (ContinuousLinearMap.snd ℝ ℝ ℝ).hasFDerivAt
    have h : HasFDerivAt (fun P : ℝ × ℝ => stretch P.1 P.2) _ (x, y) := h1.prodMk h2
    rw [h.fderiv]
    constructor <;> simp [stretchJ]
  inj := by
    rintro ⟨a, b⟩ ⟨ha, _⟩ ⟨c, d⟩ ⟨hc, _⟩ h
    simp only [stretch, Prod.mk.injEq] at h
    obtain ⟨h1, h2⟩ := h
    have : (a - c) * (2 + (a + c) / 2) = 0 := by linarith [h1]
    rcases mul_eq_zero.1 this with h | h
    · exact Prod.ext (by simpa using sub_eq_zero.1 h) h2
    · have := ha.1; have := hc.1
      simp only at *
      linarith
  pos x hx y _ := by
    rw [stretch_det]
    have := hx.1
    linarith

/-- The Gauss rule with two points. -/
noncomputable def gauss2 : Quad ℝ := ⟨gp, gw⟩

lemma gauss2_good : GoodQuad gauss2 where
  ok := by simp [Quad.Ok, gauss2, gp, gw]
  inside := by
    have h : √(1 / 3 : ℝ) < 1 := by
      rw [Real.sqrt_lt' (by norm_num)]; norm_num
    have h0 : 0 ≤ √(1 / 3 : ℝ) := Real.sqrt_nonneg _
    intro x hx
    simp only [gauss2, gp, List.mem_cons, List.not_mem_nil, or_false] at hx
    rcases hx with rfl | rfl <;> constructor <;> linarith
  weights := by
    intro w hw
    simp only [gauss2, gw, List.mem_cons, List.not_mem_nil, or_false] at hw
    rcases hw with rfl | rfl <;> norm_num

/-- The element, with a basis of degree 1. -/
noncomputable def stretchG : Geo2 := ⟨[-1, 1], [-1, 1], stretch, stretchJ, gauss2, gauss2, false⟩

lemma stretchG_ok : stretchG.Ok where
  pos x hx y _ := by
    have := (gauss2_good.inside x hx).1
    change 0 < det2 (stretchJ x y)
    rw [stretch_det]
    linarith
  diag h := by cases h
  wx := gauss2_good.weights
  wy := gauss2_good.weights

lemma gauss2_suits : Mass.Suits ([-1, 1] : List ℝ) gauss2.pairs := by
  refine ⟨by norm_num, ?_, by simp [Quad.pairs, gauss2, gp, gw], ?_⟩
  · have h : 0 < √(1 / 3 : ℝ) := Real.sqrt_pos.2 (by norm_num)
    simp only [Quad.pairs, gauss2, gp, gw, List.zip_cons_cons, List.zip_nil_right, List.map_cons, List.map_nil]
    rw [List.nodup_cons]
    refine ⟨?_, by simp⟩
    intro hm
    rw [List.mem_singleton] at hm
    linarith
  · intro p hp
    simp only [Quad.pairs, gauss2, gp, gw, List.zip_cons_cons, List.zip_nil_right, List.mem_cons, List.not_mem_nil, or_false] at hp
    rcases hp with rfl | rfl <;> norm_num

lemma stretchG_fine : stretchG.Fine := ⟨gauss2_suits, gauss2_suits⟩

lemma nodes_one (x : ℝ) : Poly.nodes [-1, 1] x = [(1 - x) / 2, (1 + x) / 2] := by
  simp only [Poly.nodes, Poly.lagrange, Poly.node, List.length_cons, List.length_nil, List.range_succ, List.range_zero,
    List.map_cons, List.map_nil, List.nil_append, List.cons_append, List.foldl_cons, List.foldl_nil]
  norm_num
  constructor <;> ring

lemma edges_one (x : ℝ) : Poly.edges [-1, 1] x = [1 / 2] := by
  simp only [Poly.edges, Poly.edge, Poly.dpoly, Poly.dmat, Poly.off, Poly.cw, Poly.lagrange, Poly.node, List.length_cons,
    List.length_nil, List.range_succ, List.range_zero, List.map_cons, List.map_nil, List.nil_append, List.cons_append,
    List.foldl_cons, List.foldl_nil]
  norm_num
  ring

/-- A case for `norm2_definite` and `norm2_seminorm`: two ranks, three elements. -/
example (s : Space2) (c : ℕ → ℕ → ℝ) :
    formNorm "L2" [[0, 1], [2]] (fun _ => s.size stretchG) (fun _ => s.matrix stretchG) c = some 0 ↔
      ∀ r ∈ [[0, 1], [2]], ∀ e ∈ r, ∀ i < s.size stretchG, c e i = 0 :=
  norm2_definite [[0, 1], [2]] (fun _ => stretchG) s (fun _ _ _ _ => stretchG_ok) (fun _ _ _ _ => stretchG_fine) c

/-- The reconstructed form as a function in physical space. -/
lemma exists_field2 {Φ : ℝ → ℝ → ℝ × ℝ} {J : ℝ → ℝ → ℕ → ℕ → ℝ} (h : Chart2 Φ J) (val : ℝ → ℝ → List ℝ) :
    ∃ U : ℝ × ℝ → List ℝ, ∀ x ∈ O, ∀ y ∈ O, U (Φ x y) = val x y := by
  refine ⟨fun P => let Q := Function.invFunOn (fun P : ℝ × ℝ => Φ P.1 P.2) O2 P; val Q.1 Q.2, ?_⟩
  intro x hx y hy
  have hm : ((x, y) : ℝ × ℝ) ∈ O2 := ⟨hx, hy⟩
  have e := h.inj.leftInvOn_invFunOn hm
  dsimp only at e ⊢
  rw [e]

/-- A function that is continuous on the closed reference square, together with the Jacobian, can be integrated over the element. -/
lemma integrable_of_continuous2 {Φ : ℝ → ℝ → ℝ × ℝ} {J : ℝ → ℝ → ℕ → ℕ → ℝ} (h : Chart2 Φ J) (g : ℝ × ℝ → ℝ) (F : ℝ × ℝ → ℝ)
    (hF : Continuous F) (hg : ∀ P ∈ O2, det2 (J P.1 P.2) * g (Φ P.1 P.2) = F P) : IntegrableOn g (Region2 Φ) := by
  unfold Region2
  rw [integrableOn_image_iff_integrableOn_abs_det_fderiv_smul volume measurableSet_O2
    (f' := fun P => fderiv ℝ (fun P : ℝ × ℝ => Φ P.1 P.2) P)
    (fun P hP => (h.diff P.1 hP.1 P.2 hP.2).hasFDerivAt.hasFDerivWithinAt) h.inj]
  have hK : IntegrableOn F (Icc (-1 : ℝ) 1 ×ˢ Icc (-1 : ℝ) 1) :=
    hF.continuousOn.integrableOn_compact (isCompact_Icc.prod isCompact_Icc)
  apply (hK.mono_set (prod_mono Ioo_subset_Icc_self Ioo_subset_Icc_self)).congr_fun _ measurableSet_O2
  intro P hP
  obtain ⟨h0, h1⟩ := h.jac P.1 hP.1 P.2 hP.2
  have : (fderiv ℝ (fun P : ℝ × ℝ => Φ P.1 P.2) P).det = det2 (J P.1 P.2) := by
    rw [det_two, h0, h1]; rfl
  simp only [this, smul_eq_mul, abs_of_nonneg (h.pos P.1 hP.1 P.2 hP.2), hg P hP]

/-- A case for `norm2_right` and for `error2_right`: a scalar form of degree 1 on two ranks, and the exact solution `x + y`. -/
example (c : ℕ → ℕ → ℝ) : ∃ U : ℕ → ℝ × ℝ → List ℝ,
    (∀ e, Good2 (stretchG.el .k0 (c e)) (U e)) ∧ (∀ e, IntegrableOn (fun P => lend 2 (U e P)) (Region2 stretchG.Φ)) ∧
    ∀ e, IntegrableOn (fun P => distd 2 (U e P) [P.1 + P.2]) (Region2 stretchG.Φ) := by
  have hc : ∀ e, Continuous fun P : ℝ × ℝ => Poly.rec20 [-1, 1] [-1, 1] (c e) P.1 P.2 := by
    intro e
    have : (fun P : ℝ × ℝ => Poly.rec20 [-1, 1] [-1, 1] (c e) P.1 P.2) = fun P => (1 - P.1) / 2 * ((1 - P.2) / 2) * c e 0 +
        (1 + P.1) / 2 * ((1 - P.2) / 2) * c e 1 + (1 - P.1) / 2 * ((1 + P.2) / 2) * c e 2 + (1 + P.1) / 2 * ((1 + P.2) / 2) * c e 3 := by
      funext P
      rw [Poly.rec20, nodes_one, nodes_one]
      simp only [Poly.dot, Poly.kron, List.flatMap_cons, List.flatMap_nil, List.map_cons, List.map_nil, List.cons_append,
        List.nil_append, List.append_nil, List.length_cons, List.length_nil, List.range_succ, List.range_zero, List.sum_cons,
        List.sum_nil, List.getD_cons_zero, List.getD_cons_succ]
      norm_num
      ring
    rw [this]
    fun_prop
  choose U hU using fun e => exists_field2 stretch_chart fun x y => Space2.value stretchG (c e) x y .k0
  refine ⟨U, fun e => ⟨stretch_chart, gauss2_good, gauss2_good, hU e⟩, fun e => ?_, fun e => ?_⟩
  · apply integrable_of_continuous2 stretch_chart _ (fun P => (2 + P.1) * (Poly.rec20 [-1, 1] [-1, 1] (c e) P.1 P.2) ^ 2)
    · have := hc e
      fun_prop
    · intro P hP
      rw [hU e P.1 hP.1 P.2 hP.2, stretch_det]
      simp [Space2.value, lend_one, stretchG, pow_two]
  · apply integrable_of_continuous2 stretch_chart _
      (fun P => (2 + P.1) * (Poly.rec20 [-1, 1] [-1, 1] (c e) P.1 P.2 - (2 * P.1 + P.1 ^ 2 / 2 + P.2)) ^ 2)
    · have := hc e
      fun_prop
    · intro P hP
      rw [hU e P.1 hP.1 P.2 hP.2, stretch_det]
      simp [Space2.value, distd, stretchG, stretch]

/-! ### Inner products -/

lemma getD_mem_of_lt {l : List ℝ} {i : ℕ} (h : i < l.length) : l.getD i 0 ∈ l := by
  rw [List.getD_eq_getElem _ _ h]
  exact List.getElem_mem h

/-- The inner product of vectors. -/
def dotv (u v : List ℝ) : ℝ := (List.zipWith (· * ·) u v).sum

/-- Full statement: the inner product of two forms on an element is the integral of the inner product of the reconstructed forms over
the element, up to the error of the quadrature. Proved for elements with a constant Jacobian; missing: the others, see
`ip2_refuted`. -/
theorem ip2_partial (e1 e2 : El2 ℝ) (U1 U2 : ℝ × ℝ → List ℝ) (h1 : Good2 e1 U1) (h2 : Good2 e2 U2) (hΦ : e2.Φ = e1.Φ) (hq : e1.qy = e1.qx)
    (D : ℝ) (hJ : ∀ x ∈ O, ∀ y ∈ O, e1.jac x y = D)
    (hi : IntegrableOn (fun P => dotv (U1 P) (U2 P)) (Region2 e1.Φ)) :
    |ip2 e1.jac e1.val e2.val e1.qx - ∫ P in Region2 e1.Φ, dotv (U1 P) (U2 P)| = e1.qerr fun P => dotv (U1 P) (U2 P) := by
  have : ip2 e1.jac e1.val e2.val e1.qx = Q2 e1.qx e1.qy fun x y => det2 (e1.J x y) * dotv (U1 (e1.Φ x y)) (U2 (e1.Φ x y)) := by
    have : ip2 e1.jac e1.val e2.val e1.qx = Q2 e1.qx e1.qx fun x y => D * dotv (e1.val x y) (e2.val x y) := by
      apply einsum2_Q _ _ h1.qx.ok h1.qx.ok
      intro i hi j hj
      have mj := h1.qx.inside _ (getD_mem_of_lt hj)
      rw [at2_ravel _ _ _ _ _ _ hi hj, at2_ravel _ _ _ _ _ _ hi hj, hJ _ mj _ mj, mul_comm]
      rfl
    rw [this, hq]
    apply Q2_ext
    intro x hx y hy
    have mx := h1.qx.inside x hx
    have my := h1.qx.inside y hy
    have f2 := h2.field x mx y my
    rw [hΦ] at f2
    rw [f2, h1.field x mx y my, ← jac2_eq, hJ x mx y my]
  rw [this]
  exact h1.close (fun P => dotv (U1 P) (U2 P)) hi

/-- The local cochain of an inner 1-form of degree 1 with the second component only. -/
def upward (a b : ℝ) (i : ℕ) : ℝ := if i = 2 then a else if i = 3 then b else 0

lemma stretch_value (a b x y : ℝ) (h : 2 + x ≠ 0) :
    Space2.value stretchG (upward a b) x y .inner = [0, (a + b) / 4 + (b - a) / 4 * x] := by
  simp only [Space2.value, stretchG, Poly.rec21i, nodes_one, edges_one, Poly.n21i, Poly.push21i, Mass.Inv, Metric.inverseJM,
    Metric.rows, stretchJ]
  simp [upward, Poly.dot, Poly.kron, List.range_succ]
  field_simp
  ring

/-- The forms `(0, x)` and `(0, 1)` in the coordinates of the reference square. -/
noncomputable def stretchA : El2 ℝ := stretchG.el .inner (upward (-2) 2)
noncomputable def stretchB : El2 ℝ := stretchG.el .inner (upward 2 2)

lemma O_ne {x : ℝ} (hx : x ∈ O) : 2 + x ≠ 0 := by
  have := hx.1
  intro h
  linarith

/-- The inner product of two inner 1-forms on an element whose Jacobian is not constant: zero, although the integral is `4/3` and the
quadrature makes no error for it. -/
theorem ip2_refuted : ∃ U1 U2 : ℝ × ℝ → List ℝ, Good2 stretchA U1 ∧ Good2 stretchB U2 ∧
    (stretchA.qerr fun P => dotv (U1 P) (U2 P)) = 0 ∧
    (∫ P in Region2 stretchA.Φ, dotv (U1 P) (U2 P)) = 4 / 3 ∧ ip2 stretchA.jac stretchA.val stretchB.val stretchA.qx = 0 := by
  obtain ⟨U1, hU1⟩ := exists_field2 stretch_chart stretchA.val
  obtain ⟨U2, hU2⟩ := exists_field2 stretch_chart stretchB.val
  have g1 : Good2 stretchA U1 := ⟨stretch_chart, gauss2_good, gauss2_good, hU1⟩
  have g2 : Good2 stretchB U2 := ⟨stretch_chart, gauss2_good, gauss2_good, hU2⟩
  have v1 : ∀ x y : ℝ, 2 + x ≠ 0 → stretchA.val x y = [0, x] := by
    intro x y h
    refine (stretch_value (-2) 2 x y h).trans ?_
    norm_num
  have v2 : ∀ x y : ℝ, 2 + x ≠ 0 → stretchB.val x y = [0, 1] := by
    intro x y h
    refine (stretch_value 2 2 x y h).trans ?_
    norm_num
  have hd : ∀ P ∈ O2, det2 (stretchJ P.1 P.2) * dotv (U1 (stretch P.1 P.2)) (U2 (stretch P.1 P.2)) = (2 + P.1) * P.1 := by
    intro P hP
    rw [hU1 _ hP.1 _ hP.2, hU2 _ hP.1 _ hP.2, v1 _ _ (O_ne hP.1), v2 _ _ (O_ne hP.1), stretch_det]
    simp [dotv]
  have hint : IntegrableOn (fun P => dotv (U1 P) (U2 P)) (Region2 stretchA.Φ) :=
    integrable_of_continuous2 stretch_chart _ (fun P => (2 + P.1) * P.1) (by fun_prop) hd
  have hval : (∫ P in Region2 stretchA.Φ, dotv (U1 P) (U2 P)) = 4 / 3 := by
    have e : (∫ P in Region2 stretchA.Φ, dotv (U1 P) (U2 P)) = ∫ P in O2, (2 + P.1) * P.1 := by
      rw [integral_region2 g1.chart]
      exact setIntegral_congr_fun measurableSet_O2 hd
    rw [e, integral_O2 (fun x _ => (2 + x) * x)]
    · simp only [intervalIntegral.integral_const]
      have : (fun x : ℝ => (1 - -1 : ℝ) • ((2 + x) * x)) = fun x => 4 * x ^ 1 + 2 * x ^ 2 := by
        funext x; simp only [smul_eq_mul]; ring
      rw [this, intervalIntegral.integral_add (Continuous.intervalIntegrable (by fun_prop) _ _)
        (Continuous.intervalIntegrable (by fun_prop) _ _)]
      simp only [intervalIntegral.integral_const_mul, integral_pow]
      norm_num
    · have hK : IntegrableOn (fun P : ℝ × ℝ => (2 + P.1) * P.1) (Icc (-1 : ℝ) 1 ×ˢ Icc (-1 : ℝ) 1) :=
        Continuous.continuousOn (by fun_prop) |>.integrableOn_compact (isCompact_Icc.prod isCompact_Icc)
      exact hK.mono_set (prod_mono Ioo_subset_Icc_self Ioo_subset_Icc_self)
  have hs : √(1 / 3 : ℝ) * √(1 / 3 : ℝ) = 1 / 3 := Real.mul_self_sqrt (by norm_num)
  refine ⟨U1, U2, g1, g2, ?_, hval, ?_⟩
  · rw [← g1.close _ hint, hval]
    have : (Q2 stretchA.qx stretchA.qy fun x y => det2 (stretchA.J x y) * dotv (U1 (stretchA.Φ x y)) (U2 (stretchA.Φ x y))) =
        Q2 gauss2 gauss2 fun x _ => (2 + x) * x :=
      Q2_ext _ _ _ _ fun x hx y hy => hd (x, y) ⟨gauss2_good.inside x hx, gauss2_good.inside y hy⟩
    rw [this]
    simp only [Q2, rule2, rule_one, gauss2, gp, gw, List.zipWith_cons_cons, List.zipWith_nil_left, List.sum_cons, List.sum_nil]
    rw [abs_eq_zero]
    linear_combination 4 * hs
  · have : ip2 stretchA.jac stretchA.val stretchB.val stretchA.qx = Q2 gauss2 gauss2 fun x y => x * (2 + y) := by
      have hq : stretchA.qx = gauss2 := rfl
      rw [hq]
      apply einsum2_Q _ _ gauss2_good.ok gauss2_good.ok
      intro i hi j hj
      have mi := gauss2_good.inside _ (getD_mem_of_lt hi)
      rw [at2_ravel _ _ _ _ _ _ hi hj, at2_ravel _ _ _ _ _ _ hi hj, v1 _ _ (O_ne mi), v2 _ _ (O_ne mi)]
      have hj : ∀ x y, stretchA.jac x y = 2 + x := stretch_det
      rw [hj]
      simp
    rw [this]
    simp only [Q2, rule2, rule_one, gauss2, gp, gw, List.zipWith_cons_cons, List.zipWith_nil_left, List.sum_cons, List.sum_nil]
    ring

/-! ### Component-wise norms in space -/

lemma comp3_Q (e : El3 ℝ) (hx : e.qx.Ok) (hy : e.qy.Ok) (hz : e.qz.Ok) (c : ℝ) (r : ℕ) (J : Jac3 ℝ)
    (hJ : J = .const c ∨ (∃ f, J = .fn f ∧ e.qx.nodes.length = e.qy.nodes.length ∧ e.qy.nodes.length = e.qz.nodes.length ∧
      ∀ x ∈ e.qx.nodes, ∀ y ∈ e.qy.nodes, ∀ z ∈ e.qz.nodes, f x y z = c)) :
    comp3 J e.val r e.qx e.qy e.qz = some (Q3 e.qx e.qy e.qz fun x y z => c * (e.val x y z).getD r 0 ^ 2) := by
  rcases hJ with rfl | ⟨f, rfl, h1, h2, hf⟩
  · unfold comp3
    dsimp only
    congr 1
    apply einsum3_Q _ _ _ hx hy hz
    intro i hi j hj k hk
    rw [at3_ravel _ _ _ _ _ _ _ _ hi hj hk, mul_comm]
  · unfold comp3
    dsimp only
    rw [if_pos ⟨h1, h2⟩]
    congr 1
    apply einsum3_Q _ _ _ hx hy hz
    intro i hi j hj k hk
    rw [at3_ravel _ _ _ _ _ _ _ _ hi hj hk, mul_comm,
      hf _ (getD_mem_of_lt (by omega)) _ (getD_mem_of_lt (by omega)) _ (getD_mem_of_lt hk)]

/-- Full statement: the component-wise norm of a form is, for every component, the root of the integral of its square over the
elements. Proved: on an element with a constant Jacobian the number that is returned is the integral of the square, without the
root. Missing: the root, and elements whose Jacobian is not constant; see `comp3_refuted`. -/
theorem comp3_partial (e : El3 ℝ) (U : ℝ × ℝ × ℝ → List ℝ) (h : Good3 e U) (c : ℝ) (hc : ∀ x ∈ O, ∀ y ∈ O, ∀ z ∈ O, e.jac x y z = c)
    (r : ℕ) (J : Jac3 ℝ) (hJ : J = .const c ∨ (J = .fn e.jac ∧ e.qx.nodes.length = e.qy.nodes.length ∧
      e.qy.nodes.length = e.qz.nodes.length))
    (hi : IntegrableOn (fun P => (U P).getD r 0 ^ 2) (Region3 e.Φ)) :
    ∃ S, comp3 J e.val r e.qx e.qy e.qz = some S ∧
      |S - ∫ P in Region3 e.Φ, (U P).getD r 0 ^ 2| = e.qerr fun P => (U P).getD r 0 ^ 2 := by
  refine ⟨_, comp3_Q e h.qx.ok h.qy.ok h.qz.ok c r J ?_, ?_⟩
  · rcases hJ with rfl | ⟨rfl, h1, h2⟩
    · exact Or.inl rfl
    · exact Or.inr ⟨_, rfl, h1, h2, fun x hx y hy z hz => hc x (h.qx.inside x hx) y (h.qy.inside y hy) z (h.qz.inside z hz)⟩
  · rw [← h.close (fun P => (U P).getD r 0 ^ 2) hi]
    congr 2
    apply Q3_ext
    intro x hx y hy z hz
    have mx := h.qx.inside x hx
    have my := h.qy.inside y hy
    have mz := h.qz.inside z hz
    rw [h.field x mx y my z mz, ← jac3_eq, hc x mx y my z mz]

/-- The reference cube, with the form `(a, 0, 0)`. -/
noncomputable def cube (a : ℝ) : El3 ℝ :=
  ⟨fun x y z => (x, y, z), fun _ _ _ i j => if i = j then 1 else 0, fun _ _ _ => [a, 0, 0], gauss2, gauss2, gauss2⟩

/-- A rule with three points. -/
noncomputable def simpson : Quad ℝ := ⟨[-1 / 2, 0, 1 / 2], [1 / 2, 1, 1 / 2]⟩

/-- The component-wise norm is not a norm: twice the form has four times the number. And it fails for degrees that differ between the
directions, as soon as the Jacobian is a function of arrays. -/
theorem comp3_refuted :
    comp3 (.const ((cube 1).jac 0 0 0)) (cube 1).val 0 gauss2 gauss2 gauss2 = some 8 ∧
    comp3 (.const ((cube 2).jac 0 0 0)) (cube 2).val 0 gauss2 gauss2 gauss2 = some 32 ∧
    (∀ x y z i, (cube 2).val x y z = ((cube 1).val x y z).map (2 * ·) ∧ (cube i).jac x y z = 1) ∧
    comp3 (.fn (cube 1).jac) (cube 1).val 0 gauss2 gauss2 simpson = none := by
  have hj : ∀ a x y z, (cube a).jac x y z = 1 := by
    intro a x y z
    rw [jac3_eq]
    simp [det3, cube]
  have key : ∀ a : ℝ, comp3 (.const ((cube a).jac 0 0 0)) (cube a).val 0 gauss2 gauss2 gauss2 = some (8 * a ^ 2) := by
    intro a
    refine (comp3_Q (cube a) gauss2_good.ok gauss2_good.ok gauss2_good.ok ((cube a).jac 0 0 0) 0 _ (Or.inl rfl)).trans ?_
    rw [hj]
    change some (Q3 gauss2 gauss2 gauss2 fun x y z => 1 * ([a, 0, 0] : List ℝ).getD 0 0 ^ 2) = _
    simp only [Q3, rule3, rule2, rule_one, gauss2, gp, gw, List.zipWith_cons_cons, List.zipWith_nil_left, List.sum_cons, List.sum_nil,
      List.getD_cons_zero]
    congr 1
    ring
  refine ⟨(key 1).trans (by norm_num), (key 2).trans (by norm_num), ?_, ?_⟩
  · intro x y z i
    exact ⟨by simp [cube], hj i x y z⟩
  · simp [comp3, gauss2, simpson, gp]

lemma cube_chart : Chart3 (fun x y z => (x, y, z)) fun _ _ _ i j => if i = j then 1 else 0 where
  diff x _ y _ z _ := differentiableAt_id
  jac x _ y _ z _ := by
    have : fderiv ℝ (fun P : ℝ × ℝ × ℝ => (P.1, P.2.1, P.2.2)) (x, y, z) = ContinuousLinearMap.id ℝ _ := fderiv_id
    rw [this]
    simp
  inj := fun _ _ _ _ h => h
  pos x _ y _ z _ := by simp [det3]

lemma cube_integrable (F : ℝ × ℝ × ℝ → ℝ) (h : Continuous F) : IntegrableOn F (Region3 fun x y z => (x, y, z)) := by
  have : Region3 (fun x y z => (x, y, z)) = O3 := by
    unfold Region3
    exact image_id _
  rw [this]
  have hK : IntegrableOn F (Icc (-1 : ℝ) 1 ×ˢ Icc (-1 : ℝ) 1 ×ˢ Icc (-1 : ℝ) 1) :=
    h.continuousOn.integrableOn_compact (isCompact_Icc.prod (isCompact_Icc.prod isCompact_Icc))
  exact hK.mono_set (prod_mono Ioo_subset_Icc_self (prod_mono Ioo_subset_Icc_self Ioo_subset_Icc_self))

/-- A case for `comp3_partial` and for `error3_right`, with the exact solution `(x, y z, 1)`. -/
example (a : ℝ) : Good3 (cube a) (fun _ => [a, 0, 0]) ∧ (∀ x y z, (cube a).jac x y z = 1) ∧
    IntegrableOn (fun _ => ([a, 0, 0] : List ℝ).getD 0 0 ^ 2) (Region3 (cube a).Φ) ∧
    IntegrableOn (fun P => distd 2 [a, 0, 0] [P.1, P.2.1 * P.2.2, 1]) (Region3 (cube a).Φ) := by
  refine ⟨⟨cube_chart, gauss2_good, gauss2_good, gauss2_good, fun _ _ _ _ _ _ => rfl⟩, fun x y z => ?_,
    cube_integrable _ continuous_const, cube_integrable _ ?_⟩
  · rw [jac3_eq]
    simp [det3, cube]
  · simp only [distd, List.zipWith_cons_cons, List.zipWith_nil_left, List.sum_cons, List.sum_nil]
    fun_prop

/-- The cube with a basis of degree 1. -/
noncomputable def cubeG : Geo3 := ⟨[-1, 1], [-1, 1], [-1, 1], fun x y z => (x, y, z), fun _ _ _ i j => if i = j then 1 else 0,
  gauss2, gauss2, gauss2, true⟩

/-- A case for `norm3_right` and `norm3_definite`. -/
example (c : ℕ → ℝ) : cubeG.Ok ∧ cubeG.Fine ∧ Good3 (cubeG.el .k0 c) (fun P => [Poly.rec30 [-1, 1] [-1, 1] [-1, 1] c P.1 P.2.1 P.2.2]) ∧
    IntegrableOn (fun P : ℝ × ℝ × ℝ => lend 2 [Poly.rec30 [-1, 1] [-1, 1] [-1, 1] c P.1 P.2.1 P.2.2]) (Region3 cubeG.Φ) := by
  refine ⟨⟨fun x _ y _ z _ => ?_, fun _ x _ y _ z _ => ?_, gauss2_good.weights, gauss2_good.weights, gauss2_good.weights⟩,
    ⟨gauss2_suits, gauss2_suits, gauss2_suits⟩,
    ⟨cube_chart, gauss2_good, gauss2_good, gauss2_good, fun _ _ _ _ _ _ => rfl⟩, cube_integrable _ ?_⟩
  · simp [cubeG, det3]
  · simp [cubeG, Mass.Diag3]
  · simp only [lend_one, Poly.rec30, nodes_one, Poly.dot, Poly.kron, List.flatMap_cons, List.flatMap_nil, List.map_cons, List.map_nil,
      List.cons_append, List.nil_append, List.append_nil, List.length_cons, List.length_nil, List.range_succ, List.range_zero,
      List.sum_cons, List.sum_nil, List.sum_append, List.map_append, List.getD_cons_zero, List.getD_cons_succ]
    fun_prop

/-! ### Odd powers -/

/-- The reference interval, with a form `u`. -/
noncomputable def line (u : ℝ → ℝ) : El1 ℝ := ⟨fun x => x, fun _ _ _ => 1, fun x => [u x], gauss2⟩

lemma line_good (u : ℝ → ℝ) : Good1 (line u) fun x => [u x] where
  chart := ⟨fun x _ => hasDerivAt_id x, fun _ _ _ _ h => h, fun _ _ => zero_le_one⟩
  qx := gauss2_good
  field _ _ := rfl

lemma line_no (u : ℝ → ℝ) (d : ℕ) : (line u).no d = u (-√(1 / 3)) ^ d + u √(1 / 3) ^ d := by
  refine (no1_Q d _ _ _ gauss2_good.ok).trans ?_
  simp [Q1, rule_one, gauss2, gp, gw, valPow, line, El1.jac, Metric.jacobian]

/-- The L^d norm of `msepy` for odd `d`, where the powers are taken without absolute values: the L1 norm of the constant `-1` is `-2`
instead of `2`, that of `x` is `0` instead of `1`, and for every other odd `d` the norm of the constant `-1` is `nan`. -/
theorem ld_odd_refuted :
    ld 1 [[(line fun _ => -1).no 1]] = some (-2) ∧ (∫ x in Region1 (line fun _ => -1).Φ, lend 1 [(-1 : ℝ)]) = 2 ∧
    ld 1 [[(line fun x => x).no 1]] = some 0 ∧ (∫ x in Region1 (line fun x => x).Φ, lend 1 [x]) = 1 ∧
    ∀ d, Odd d → d ≠ 1 → ld d [[(line fun _ => -1).no d]] = none := by
  refine ⟨?_, ?_, ?_, ?_, ?_⟩
  · simp only [line_no, ld, rootd, total]
    norm_num
  · rw [integral_region1 (line_good _).chart]
    simp [lend, line]
    norm_num
  · simp only [line_no, ld, rootd, total]
    norm_num
  · rw [integral_region1 (line_good _).chart]
    simp only [lend, line, List.map_cons, List.map_nil, List.sum_cons, List.sum_nil, pow_one, add_zero, one_mul]
    rw [← intervalIntegral.integral_add_adjacent_intervals (b := 0)
      (Continuous.intervalIntegrable (by fun_prop) _ _) (Continuous.intervalIntegrable (by fun_prop) _ _)]
    have e1 : (∫ x in (-1 : ℝ)..0, |x|) = ∫ x in (-1 : ℝ)..0, -x := by
      apply intervalIntegral.integral_congr
      intro x hx
      rw [uIcc_of_le (by norm_num)] at hx
      exact abs_of_nonpos hx.2
    have e2 : (∫ x in (0 : ℝ)..1, |x|) = ∫ x in (0 : ℝ)..1, x := by
      apply intervalIntegral.integral_congr
      intro x hx
      rw [uIcc_of_le (by norm_num)] at hx
      exact abs_of_nonneg hx.1
    rw [e1, e2, intervalIntegral.integral_neg, integral_id, integral_id]
    norm_num
  · intro d hd h1
    simp only [line_no, hd.neg_one_pow, ld, rootd, total, if_neg h1]
    rw [if_neg (by rintro rfl; simp at hd)]
    norm_num

end Phyem.Norms
