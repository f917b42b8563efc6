import Verif.Reduce.Pull
import Verif.Reduce.Dofs
import Verif.Incidence.Props

/-! Reduction commutes with the differential operators in two dimensions, up to the errors of the quadrature. -/

namespace Phyem.Reduce

open Set Numbering Incidence Poly

lemma node_in {p : ℕ} {xs : List ℝ} (h : Nodes p xs) {i : ℕ} (hi : i < p + 1) : node xs i ∈ I := by
  have hl : i < xs.length := by rw [h.len]; exact hi
  apply h.inside
  rw [node, List.getD_eq_getElem?_getD, List.getElem?_eq_getElem hl]
  exact List.getElem_mem hl

lemma point_in {a b t : ℝ} (ha : a ∈ I) (hb : b ∈ I) (ht : t ∈ I) : a + (b - a) / 2 * (t + 1) ∈ I := by
  obtain ⟨a1, a2⟩ := ha
  obtain ⟨b1, b2⟩ := hb
  obtain ⟨t1, t2⟩ := ht
  have e : a + (b - a) / 2 * (t + 1) = a * ((1 - t) / 2) + b * ((1 + t) / 2) := by ring
  rw [e]
  constructor <;> nlinarith

/-- Only the values at points of the reference interval matter. -/
lemma rule_congr {qs ws : List ℝ} (hq : ∀ t ∈ qs, t ∈ I) {g h : ℝ → ℝ} (gh : ∀ x ∈ I, g x = h x) {a b : ℝ} (ha : a ∈ I)
    (hb : b ∈ I) : rule qs ws g a b = rule qs ws h a b := by
  unfold rule
  congr 2
  induction qs generalizing ws with
  | nil => simp
  | cons t qs ih =>
    cases ws with
    | nil => simp
    | cons w ws =>
      simp only [List.zipWith_cons_cons]
      rw [gh _ (point_in ha hb (hq t (by simp))), ih fun t ht => hq t (by simp [ht])]

lemma rule2_congr {qx wx qy wy : List ℝ} (hqx : ∀ t ∈ qx, t ∈ I) (hqy : ∀ t ∈ qy, t ∈ I) {g h : ℝ → ℝ → ℝ}
    (gh : ∀ x ∈ I, ∀ y ∈ I, g x y = h x y) {a b c d : ℝ} (ha : a ∈ I) (hb : b ∈ I) (hc : c ∈ I) (hd : d ∈ I) :
    rule2 qx wx qy wy g a b c d = rule2 qx wx qy wy h a b c d :=
  rule_congr hqx (fun x hx => rule_congr hqy (fun y hy => gh x hx y hy) hc hd) ha hb

lemma rule3_congr {qx wx qy wy qz wz : List ℝ} (hqx : ∀ t ∈ qx, t ∈ I) (hqy : ∀ t ∈ qy, t ∈ I) (hqz : ∀ t ∈ qz, t ∈ I)
    {g h : ℝ → ℝ → ℝ → ℝ} (gh : ∀ x ∈ I, ∀ y ∈ I, ∀ z ∈ I, g x y z = h x y z) {a b c d e f : ℝ} (ha : a ∈ I) (hb : b ∈ I)
    (hc : c ∈ I) (hd : d ∈ I) (he : e ∈ I) (hf : f ∈ I) :
    rule3 qx wx qy wy qz wz g a b c d e f = rule3 qx wx qy wy qz wz h a b c d e f :=
  rule_congr hqx (fun x hx => rule_congr hqy (fun y hy => rule_congr hqz (fun z hz => gh x hx y hy z hz) he hf) hc hd) ha hb

section
variable {Φ : ℝ → ℝ → ℝ × ℝ} {J : ℝ → ℝ → ℕ → ℕ → ℝ} {f : ℝ × ℝ → ℝ} {v : ℝ × ℝ → ℝ × ℝ} {p q : ℕ}
  {xs ys qx wx qy wy : List ℝ}

lemma dx2 (y t : ℝ) : HasDerivAt (fun t : ℝ => (t, y)) (1, 0) t := (hasDerivAt_id t).prodMk (hasDerivAt_const t y)
lemma dy2 (x t : ℝ) : HasDerivAt (fun t : ℝ => (x, t)) (0, 1) t := (hasDerivAt_const t x).prodMk (hasDerivAt_id t)

/-- **C116, what the numbers of inner 1-forms are**: the circulations along the edges of the grid, by the quadrature rule. -/
theorem reduce21i (hE : Elem2 Φ J) (hx : Nodes p xs) (hy : Nodes q ys) (hqx : ∀ t ∈ qx, t ∈ I) (hqy : ∀ t ∈ qy, t ∈ I)
    (v : ℝ × ℝ → ℝ × ℝ) :
    (red21i Φ J v p q xs ys qx wx qy wy).length = nd21 p q ∧
    (∀ i j, i < p → j < q + 1 → dof (red21i Φ J v p q xs ys qx wx qy wy) (snum (ln21i p q) (0, i, j, 0)) =
      rule qx wx (fun x => dot2 (v (Φ x (node ys j))) (tan2 Φ x (node ys j) (1, 0))) (node xs i) (node xs (i + 1))) ∧
    (∀ i j, i < p + 1 → j < q → dof (red21i Φ J v p q xs ys qx wx qy wy) (snum (ln21i p q) (1, i, j, 0)) =
      rule qy wy (fun y => dot2 (v (Φ (node xs i) y)) (tan2 Φ (node xs i) y (0, 1))) (node ys j) (node ys (j + 1))) := by
  refine ⟨red21i_length hx.len hy.len Φ J v qx wx qy wy, fun i j hi hj => ?_, fun i j hi hj => ?_⟩
  · rw [red21i_at0 hx.len hy.len Φ J v qx wx qy wy hi hj]
    refine rule_congr hqx (fun x hxI => ?_) (node_in hx (by omega)) (node_in hx (by omega))
    rw [tan2, (hE.jac x hxI _ (node_in hy hj)).1, dot2]
    ring
  · rw [red21i_at1 hx.len hy.len Φ J v qx wx qy wy hi hj]
    refine rule_congr hqy (fun y hyI => ?_) (node_in hy (by omega)) (node_in hy (by omega))
    rw [tan2, (hE.jac _ (node_in hx hi) y hyI).2, dot2]
    ring

/-- **C116, what the numbers of outer 1-forms are**: the fluxes through the edges of the grid, to the right and upwards. -/
theorem reduce21o (hE : Elem2 Φ J) (hx : Nodes p xs) (hy : Nodes q ys) (hqx : ∀ t ∈ qx, t ∈ I) (hqy : ∀ t ∈ qy, t ∈ I)
    (v : ℝ × ℝ → ℝ × ℝ) :
    (red21o Φ J v p q xs ys qx wx qy wy).length = nd21 p q ∧
    (∀ i j, i < p + 1 → j < q → dof (red21o Φ J v p q xs ys qx wx qy wy) (snum (ln21o p q) (0, i, j, 0)) =
      rule qy wy (fun y => cross2 (v (Φ (node xs i) y)) (tan2 Φ (node xs i) y (0, 1))) (node ys j) (node ys (j + 1))) ∧
    (∀ i j, i < p → j < q + 1 → dof (red21o Φ J v p q xs ys qx wx qy wy) (snum (ln21o p q) (1, i, j, 0)) =
      rule qx wx (fun x => -cross2 (v (Φ x (node ys j))) (tan2 Φ x (node ys j) (1, 0))) (node xs i) (node xs (i + 1))) := by
  refine ⟨red21o_length hx.len hy.len Φ J v qx wx qy wy, fun i j hi hj => ?_, fun i j hi hj => ?_⟩
  · rw [red21o_at0 hx.len hy.len Φ J v qx wx qy wy hi hj]
    refine rule_congr hqy (fun y hyI => ?_) (node_in hy (by omega)) (node_in hy (by omega))
    rw [tan2, (hE.jac _ (node_in hx hi) y hyI).2, cross2]
    ring
  · rw [red21o_at1 hx.len hy.len Φ J v qx wx qy wy hi hj]
    refine rule_congr hqx (fun x hxI => ?_) (node_in hx (by omega)) (node_in hx (by omega))
    rw [tan2, (hE.jac x hxI _ (node_in hy hj)).1, cross2]
    ring

/-- **C116, what the numbers of 2-forms are**: the integrals over the cells of the grid. -/
theorem reduce22 (hE : Elem2 Φ J) (hx : Nodes p xs) (hy : Nodes q ys) (hqx : ∀ t ∈ qx, t ∈ I) (hqy : ∀ t ∈ qy, t ∈ I)
    (f : ℝ × ℝ → ℝ) :
    (red22 Φ J f p q xs ys qx wx qy wy).length = nd22 p q ∧
    ∀ i j, i < p → j < q → dof (red22 Φ J f p q xs ys qx wx qy wy) (snum (ln22 p q) (0, i, j, 0)) =
      rule2 qx wx qy wy (fun x y => f (Φ x y) * cross2 (tan2 Φ x y (1, 0)) (tan2 Φ x y (0, 1)))
        (node xs i) (node xs (i + 1)) (node ys j) (node ys (j + 1)) := by
  refine ⟨red22_length Φ J f qx wx qy wy, fun i j hi hj => ?_⟩
  rw [red22_at Φ J f qx wx qy wy hi hj]
  refine rule2_congr hqx hqy (fun x hxI y hyI => ?_) (node_in hx (by omega)) (node_in hx (by omega)) (node_in hy (by omega))
    (node_in hy (by omega))
  rw [tan2, tan2, (hE.jac x hxI y hyI).1, (hE.jac x hxI y hyI).2, cross2]
  ring

/-- **C116, gradient in the plane**: the reduction of the gradient of a function is the incidence matrix applied to the
reduction of the function, up to the error of the quadrature along the edges. -/
theorem grad2_commutes (hE : Elem2 Φ J) (hf : SmoothOn2 Φ f) (hx : Nodes p xs) (hy : Nodes q ys) (hqx : ∀ t ∈ qx, t ∈ I)
    (hqy : ∀ t ∈ qy, t ∈ I) {ε : ℝ}
    (e0 : ∀ i < p, ∀ j < q + 1, err qx wx (fun x => dot2 (grad2 f (Φ x (node ys j))) (tan2 Φ x (node ys j) (1, 0)))
      (node xs i) (node xs (i + 1)) ≤ ε)
    (e1 : ∀ i < p + 1, ∀ j < q, err qy wy (fun y => dot2 (grad2 f (Φ (node xs i) y)) (tan2 Φ (node xs i) y (0, 1)))
      (node ys j) (node ys (j + 1)) ≤ ε) :
    ∀ m < nd21 p q, |dof (red21i Φ J (grad2 f) p q xs ys qx wx qy wy) m -
      app (nd20 p q) (E20i p q) (dof (red20 Φ f xs ys)) m| ≤ ε := by
  intro m hm
  obtain ⟨t, d, i, j, k, hd, ⟨hi, hj, hk⟩, rfl⟩ := Stacked.exists_snum (st21i p q) hm
  obtain ⟨_, r0, r1⟩ := reduce21i (wx := wx) (wy := wy) hE hx hy hqx hqy (grad2 f)
  obtain ⟨g0, g1, _⟩ := inner2_differences p q (dof (red20 Φ f xs ys))
  rcases t with _ | _ | t <;> simp [ln21i] at hd <;> subst hd <;> simp only at hi hj hk
  · obtain rfl : k = 0 := by omega
    change |dof _ (snum (ln21i p q) (0, i, j, 0)) - app _ _ _ (snum (ln21i p q) (0, i, j, 0))| ≤ ε
    rw [r0 i j hi hj, g0 i j hi hj, red20_at hx.len hy.len Φ f (by omega) hj, red20_at hx.len hy.len Φ f (by omega) hj]
    have := ftc (A := fun P : ℝ × ℝ => f (Φ P.1 P.2)) (γ := fun t => (t, node ys j)) (dx2 _) (a := node xs i)
      (b := node xs (i + 1)) fun t ht => by
        have hI := sub_I (node_in hx (by omega)) (node_in hx (by omega)) ht
        exact pull_smooth (hE.smooth t hI _ (node_in hy hj)) (hf t hI _ (node_in hy hj))
    rw [← this]
    refine le_of_eq_of_le ?_ (e0 i hi j hj)
    unfold err
    congr 2
    refine intervalIntegral.integral_congr fun t ht => ?_
    have hI := sub_I (node_in hx (by omega)) (node_in hx (by omega)) ht
    exact grad2_pull (hE.smooth t hI _ (node_in hy hj)) (hf t hI _ (node_in hy hj)) _
  · obtain rfl : k = 0 := by omega
    change |dof _ (snum (ln21i p q) (1, i, j, 0)) - app _ _ _ (snum (ln21i p q) (1, i, j, 0))| ≤ ε
    rw [r1 i j hi hj, g1 i j hi hj, red20_at hx.len hy.len Φ f hi (by omega), red20_at hx.len hy.len Φ f hi (by omega)]
    have := ftc (A := fun P : ℝ × ℝ => f (Φ P.1 P.2)) (γ := fun t => (node xs i, t)) (dy2 _) (a := node ys j)
      (b := node ys (j + 1)) fun t ht => by
        have hI := sub_I (node_in hy (by omega)) (node_in hy (by omega)) ht
        exact pull_smooth (hE.smooth _ (node_in hx hi) t hI) (hf _ (node_in hx hi) t hI)
    rw [← this]
    refine le_of_eq_of_le ?_ (e1 i hi j hj)
    unfold err
    congr 2
    refine intervalIntegral.integral_congr fun t ht => ?_
    have hI := sub_I (node_in hy (by omega)) (node_in hy (by omega)) ht
    exact grad2_pull (hE.smooth _ (node_in hx hi) t hI) (hf _ (node_in hx hi) t hI) _

/-- **C116, curl in the plane**. -/
theorem curl2_commutes (hE : Elem2 Φ J) (hf : SmoothOn2 Φ f) (hx : Nodes p xs) (hy : Nodes q ys) (hqx : ∀ t ∈ qx, t ∈ I)
    (hqy : ∀ t ∈ qy, t ∈ I) {ε : ℝ}
    (e0 : ∀ i < p + 1, ∀ j < q, err qy wy (fun y => cross2 (curl2 f (Φ (node xs i) y)) (tan2 Φ (node xs i) y (0, 1)))
      (node ys j) (node ys (j + 1)) ≤ ε)
    (e1 : ∀ i < p, ∀ j < q + 1, err qx wx (fun x => -cross2 (curl2 f (Φ x (node ys j))) (tan2 Φ x (node ys j) (1, 0)))
      (node xs i) (node xs (i + 1)) ≤ ε) :
    ∀ m < nd21 p q, |dof (red21o Φ J (curl2 f) p q xs ys qx wx qy wy) m -
      app (nd20 p q) (E20o p q) (dof (red20 Φ f xs ys)) m| ≤ ε := by
  intro m hm
  obtain ⟨t, d, i, j, k, hd, ⟨hi, hj, hk⟩, rfl⟩ := Stacked.exists_snum (st21o p q) hm
  obtain ⟨_, r0, r1⟩ := reduce21o (wx := wx) (wy := wy) hE hx hy hqx hqy (curl2 f)
  obtain ⟨g0, g1, _⟩ := outer2_differences p q (dof (red20 Φ f xs ys))
  rcases t with _ | _ | t <;> simp [ln21o] at hd <;> subst hd <;> simp only at hi hj hk
  · obtain rfl : k = 0 := by omega
    change |dof _ (snum (ln21o p q) (0, i, j, 0)) - app _ _ _ (snum (ln21o p q) (0, i, j, 0))| ≤ ε
    rw [r0 i j hi hj, g0 i j hi hj, red20_at hx.len hy.len Φ f hi (by omega), red20_at hx.len hy.len Φ f hi (by omega)]
    have := ftc (A := fun P : ℝ × ℝ => f (Φ P.1 P.2)) (γ := fun t => (node xs i, t)) (dy2 _) (a := node ys j)
      (b := node ys (j + 1)) fun t ht => by
        have hI := sub_I (node_in hy (by omega)) (node_in hy (by omega)) ht
        exact pull_smooth (hE.smooth _ (node_in hx hi) t hI) (hf _ (node_in hx hi) t hI)
    rw [← this]
    refine le_of_eq_of_le ?_ (e0 i hi j hj)
    unfold err
    congr 2
    refine intervalIntegral.integral_congr fun t ht => ?_
    have hI := sub_I (node_in hy (by omega)) (node_in hy (by omega)) ht
    exact curl2_pull (hE.smooth _ (node_in hx hi) t hI) (hf _ (node_in hx hi) t hI) _
  · obtain rfl : k = 0 := by omega
    change |dof _ (snum (ln21o p q) (1, i, j, 0)) - app _ _ _ (snum (ln21o p q) (1, i, j, 0))| ≤ ε
    rw [r1 i j hi hj, g1 i j hi hj, red20_at hx.len hy.len Φ f (by omega) hj, red20_at hx.len hy.len Φ f (by omega) hj]
    have := ftc (A := fun P : ℝ × ℝ => f (Φ P.1 P.2)) (γ := fun t => (t, node ys j)) (dx2 _) (a := node xs i)
      (b := node xs (i + 1)) fun t ht => by
        have hI := sub_I (node_in hx (by omega)) (node_in hx (by omega)) ht
        exact pull_smooth (hE.smooth t hI _ (node_in hy hj)) (hf t hI _ (node_in hy hj))
    rw [← this, ← intervalIntegral.integral_neg]
    refine le_of_eq_of_le ?_ (e1 i hi j hj)
    unfold err
    congr 2
    refine intervalIntegral.integral_congr fun t ht => ?_
    have hI := sub_I (node_in hx (by omega)) (node_in hx (by omega)) ht
    exact congrArg Neg.neg (curl2_pull (hE.smooth t hI _ (node_in hy hj)) (hf t hI _ (node_in hy hj)) _)

lemma err_le {qs ws : List ℝ} {g : ℝ → ℝ} {a b ε : ℝ} (h : err qs ws g a b ≤ ε) :
    (∫ x in a..b, g x) - ε ≤ rule qs ws g a b ∧ rule qs ws g a b ≤ (∫ x in a..b, g x) + ε := by
  have := abs_le.1 h
  constructor <;> linarith [this.1, this.2]

lemma err2_le {qx wx qy wy : List ℝ} {g : ℝ → ℝ → ℝ} {a b c d ε : ℝ} (h : err2 qx wx qy wy g a b c d ≤ ε) :
    (∫ x in a..b, ∫ y in c..d, g x y) - ε ≤ rule2 qx wx qy wy g a b c d ∧
      rule2 qx wx qy wy g a b c d ≤ (∫ x in a..b, ∫ y in c..d, g x y) + ε := by
  have := abs_le.1 h
  constructor <;> linarith [this.1, this.2]

lemma line_integrable {E : Type} [NormedAddCommGroup E] [NormedSpace ℝ E] {A : E → ℝ} {γ : ℝ → E} (hγ : Continuous γ)
    (h : ∀ t ∈ I, ContDiffAt ℝ 1 A (γ t)) {a b : ℝ} (ha : a ∈ I) (hb : b ∈ I) :
    IntervalIntegrable (fun t => A (γ t)) MeasureTheory.volume a b :=
  ContinuousOn.intervalIntegrable fun t ht =>
    (ContinuousAt.comp (f := γ) (h t (sub_I ha hb ht)).continuousAt hγ.continuousAt).continuousWithinAt

/-- Green's theorem with the four sides. -/
lemma green_sides {E : Type} [NormedAddCommGroup E] [NormedSpace ℝ E] {A B : E → ℝ} {γ : ℝ → ℝ → E} {e1 e2 : E}
    (hγ : Continuous fun P : ℝ × ℝ => γ P.1 P.2) (h1 : ∀ x y, HasDerivAt (fun t => γ t y) e1 x)
    (h2 : ∀ x y, HasDerivAt (fun t => γ x t) e2 y) (hA : ∀ x ∈ I, ∀ y ∈ I, ContDiffAt ℝ 1 A (γ x y))
    (hB : ∀ x ∈ I, ∀ y ∈ I, ContDiffAt ℝ 1 B (γ x y)) {a b c d : ℝ}
    (ha : a ∈ I) (hb : b ∈ I) (hc : c ∈ I) (hd : d ∈ I) :
    ∫ x in a..b, ∫ y in c..d, (fderiv ℝ B (γ x y) e1 - fderiv ℝ A (γ x y) e2) =
      ((∫ y in c..d, B (γ b y)) - ∫ y in c..d, B (γ a y)) - ((∫ x in a..b, A (γ x d)) - ∫ x in a..b, A (γ x c)) := by
  have hn : ∀ x ∈ I, ∀ y ∈ I, ContDiffAt ℝ 1 (fun P => -A P) (γ x y) := fun x hx y hy => (hA x hx y hy).neg
  have := green hγ h1 h2 hn hB ha hb hc hd
  have e : ∀ P, fderiv ℝ (fun P => -A P) P = -fderiv ℝ A P := fun P => fderiv_fun_neg
  simp only [e, ContinuousLinearMap.neg_apply, ← sub_eq_add_neg] at this
  have cy : ∀ x, Continuous fun t => γ x t := fun x => hγ.comp (Continuous.prodMk_right x)
  have cx : ∀ y, Continuous fun t => γ t y := fun y => hγ.comp (Continuous.prodMk_left y)
  rw [this, intervalIntegral.integral_sub (line_integrable (cy b) (fun t ht => hB b hb t ht) hc hd)
    (line_integrable (cy a) (fun t ht => hB a ha t ht) hc hd), intervalIntegral.integral_sub
    (line_integrable (A := fun P => -A P) (cx d) (fun t ht => hn t ht d hd) ha hb)
    (line_integrable (A := fun P => -A P) (cx c) (fun t ht => hn t ht c hc) ha hb), intervalIntegral.integral_neg,
    intervalIntegral.integral_neg]
  ring

/-- **C116, rotation in the plane**: the reduction of the rotation of a vector field is the incidence matrix applied to the
reduction of the field, up to the errors of the quadrature on the edges and the cells. -/
theorem rot2_commutes (hE : Elem2 Φ J) (hv : SmoothOn2 Φ v) (hx : Nodes p xs) (hy : Nodes q ys) (hqx : ∀ t ∈ qx, t ∈ I)
    (hqy : ∀ t ∈ qy, t ∈ I) {ε δ : ℝ}
    (e0 : ∀ i < p, ∀ j < q + 1, err qx wx (fun x => dot2 (v (Φ x (node ys j))) (tan2 Φ x (node ys j) (1, 0)))
      (node xs i) (node xs (i + 1)) ≤ ε)
    (e1 : ∀ i < p + 1, ∀ j < q, err qy wy (fun y => dot2 (v (Φ (node xs i) y)) (tan2 Φ (node xs i) y (0, 1)))
      (node ys j) (node ys (j + 1)) ≤ ε)
    (e2 : ∀ i < p, ∀ j < q, err2 qx wx qy wy
      (fun x y => rot2 v (Φ x y) * cross2 (tan2 Φ x y (1, 0)) (tan2 Φ x y (0, 1)))
      (node xs i) (node xs (i + 1)) (node ys j) (node ys (j + 1)) ≤ δ) :
    ∀ m < nd22 p q, |dof (red22 Φ J (rot2 v) p q xs ys qx wx qy wy) m -
      app (nd21 p q) (E21i p q) (dof (red21i Φ J v p q xs ys qx wx qy wy)) m| ≤ 4 * ε + δ := by
  intro m hm
  obtain ⟨t, d, i, j, k, hd, ⟨hi, hj, hk⟩, rfl⟩ := Stacked.exists_snum (st22 p q) hm
  obtain ⟨_, r0, r1⟩ := reduce21i (wx := wx) (wy := wy) hE hx hy hqx hqy v
  obtain ⟨_, s⟩ := reduce22 (wx := wx) (wy := wy) hE hx hy hqx hqy (rot2 v)
  obtain ⟨_, _, g⟩ := inner2_differences p q (dof (red21i Φ J v p q xs ys qx wx qy wy))
  rcases t with _ | t <;> simp [ln22] at hd
  subst hd
  simp only at hi hj hk
  obtain rfl : k = 0 := by omega
  change |dof _ (snum (ln22 p q) (0, i, j, 0)) - app _ _ _ (snum (ln22 p q) (0, i, j, 0))| ≤ _
  rw [g i j hi hj, s i j hi hj, r0 i j hi (by omega), r0 i (j + 1) hi (by omega), r1 i j (by omega) hj,
    r1 (i + 1) j (by omega) hj]
  have ha := node_in hx (show i < p + 1 by omega)
  have hb := node_in hx (show i + 1 < p + 1 by omega)
  have hc := node_in hy (show j < q + 1 by omega)
  have hd := node_in hy (show j + 1 < q + 1 by omega)
  have G := green_sides (A := fun P : ℝ × ℝ => dot2 (v (Φ P.1 P.2)) (tan2 Φ P.1 P.2 (1, 0)))
    (B := fun P : ℝ × ℝ => dot2 (v (Φ P.1 P.2)) (tan2 Φ P.1 P.2 (0, 1))) (γ := fun x y => (x, y)) (by fun_prop)
    (fun x y => dx2 y x) (fun x y => dy2 x y)
    (fun x hx y hy => dot2_smooth (pull_smooth (hE.smooth x hx y hy) (hv x hx y hy)) (tan_smooth (hE.smooth x hx y hy) _))
    (fun x hx y hy => dot2_smooth (pull_smooth (hE.smooth x hx y hy) (hv x hx y hy)) (tan_smooth (hE.smooth x hx y hy) _))
    ha hb hc hd
  have e : ∫ x in node xs i..node xs (i + 1), ∫ y in node ys j..node ys (j + 1),
      (rot2 v (Φ x y) * cross2 (tan2 Φ x y (1, 0)) (tan2 Φ x y (0, 1))) = _ :=
    (intervalIntegral.integral_congr fun x hx => intervalIntegral.integral_congr fun y hy =>
      (rot_pull (hE.smooth x (sub_I ha hb hx) y (sub_I hc hd hy)) (hv x (sub_I ha hb hx) y (sub_I hc hd hy)) (1, 0) (0, 1)).symm).trans
      G
  have a0 := err_le (e0 i hi j (by omega))
  have a1 := err_le (e0 i hi (j + 1) (by omega))
  have b0 := err_le (e1 i (by omega) j hj)
  have b1 := err_le (e1 (i + 1) (by omega) j hj)
  have c := err2_le (e2 i hi j hj)
  rw [e] at c
  rw [abs_le]
  constructor <;> linarith [a0.1, a0.2, a1.1, a1.2, b0.1, b0.2, b1.1, b1.2, c.1, c.2]

/-- **C116, divergence in the plane**. -/
theorem div2_commutes (hE : Elem2 Φ J) (hv : SmoothOn2 Φ v) (hx : Nodes p xs) (hy : Nodes q ys) (hqx : ∀ t ∈ qx, t ∈ I)
    (hqy : ∀ t ∈ qy, t ∈ I) {ε δ : ℝ}
    (e0 : ∀ i < p + 1, ∀ j < q, err qy wy (fun y => cross2 (v (Φ (node xs i) y)) (tan2 Φ (node xs i) y (0, 1)))
      (node ys j) (node ys (j + 1)) ≤ ε)
    (e1 : ∀ i < p, ∀ j < q + 1, err qx wx (fun x => -cross2 (v (Φ x (node ys j))) (tan2 Φ x (node ys j) (1, 0)))
      (node xs i) (node xs (i + 1)) ≤ ε)
    (e2 : ∀ i < p, ∀ j < q, err2 qx wx qy wy
      (fun x y => div2 v (Φ x y) * cross2 (tan2 Φ x y (1, 0)) (tan2 Φ x y (0, 1)))
      (node xs i) (node xs (i + 1)) (node ys j) (node ys (j + 1)) ≤ δ) :
    ∀ m < nd22 p q, |dof (red22 Φ J (div2 v) p q xs ys qx wx qy wy) m -
      app (nd21 p q) (E21o p q) (dof (red21o Φ J v p q xs ys qx wx qy wy)) m| ≤ 4 * ε + δ := by
  intro m hm
  obtain ⟨t, d, i, j, k, hd, ⟨hi, hj, hk⟩, rfl⟩ := Stacked.exists_snum (st22 p q) hm
  obtain ⟨_, r0, r1⟩ := reduce21o (wx := wx) (wy := wy) hE hx hy hqx hqy v
  obtain ⟨_, s⟩ := reduce22 (wx := wx) (wy := wy) hE hx hy hqx hqy (div2 v)
  obtain ⟨_, _, g⟩ := outer2_differences p q (dof (red21o Φ J v p q xs ys qx wx qy wy))
  rcases t with _ | t <;> simp [ln22] at hd
  subst hd
  simp only at hi hj hk
  obtain rfl : k = 0 := by omega
  change |dof _ (snum (ln22 p q) (0, i, j, 0)) - app _ _ _ (snum (ln22 p q) (0, i, j, 0))| ≤ _
  rw [g i j hi hj, s i j hi hj, r1 i j hi (by omega), r1 i (j + 1) hi (by omega), r0 i j (by omega) hj,
    r0 (i + 1) j (by omega) hj]
  have ha := node_in hx (show i < p + 1 by omega)
  have hb := node_in hx (show i + 1 < p + 1 by omega)
  have hc := node_in hy (show j < q + 1 by omega)
  have hd := node_in hy (show j + 1 < q + 1 by omega)
  have G := green_sides (A := fun P : ℝ × ℝ => cross2 (v (Φ P.1 P.2)) (tan2 Φ P.1 P.2 (1, 0)))
    (B := fun P : ℝ × ℝ => cross2 (v (Φ P.1 P.2)) (tan2 Φ P.1 P.2 (0, 1))) (γ := fun x y => (x, y)) (by fun_prop)
    (fun x y => dx2 y x) (fun x y => dy2 x y)
    (fun x hx y hy => cross2_smooth (pull_smooth (hE.smooth x hx y hy) (hv x hx y hy)) (tan_smooth (hE.smooth x hx y hy) _))
    (fun x hx y hy => cross2_smooth (pull_smooth (hE.smooth x hx y hy) (hv x hx y hy)) (tan_smooth (hE.smooth x hx y hy) _))
    ha hb hc hd
  have e : ∫ x in node xs i..node xs (i + 1), ∫ y in node ys j..node ys (j + 1),
      (div2 v (Φ x y) * cross2 (tan2 Φ x y (1, 0)) (tan2 Φ x y (0, 1))) = _ :=
    (intervalIntegral.integral_congr fun x hx => intervalIntegral.integral_congr fun y hy =>
      (div_pull (hE.smooth x (sub_I ha hb hx) y (sub_I hc hd hy)) (hv x (sub_I ha hb hx) y (sub_I hc hd hy)) (1, 0) (0, 1)).symm).trans
      G
  have a0 := err_le (e1 i hi j (by omega))
  have a1 := err_le (e1 i hi (j + 1) (by omega))
  have b0 := err_le (e0 i (by omega) j hj)
  have b1 := err_le (e0 (i + 1) (by omega) j hj)
  have c := err2_le (e2 i hi j hj)
  rw [e] at c
  rw [intervalIntegral.integral_neg] at a0 a1
  rw [abs_le]
  constructor <;> linarith [a0.1, a0.2, a1.1, a1.2, b0.1, b0.2, b1.1, b1.2, c.1, c.2]

end

end Phyem.Reduce
