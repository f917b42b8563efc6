import Verif.Norms.Sums
import Verif.Metric.Props
import Mathlib.Algebra.Order.BigOperators.Group.List
import Mathlib.Tactic.Linarith

/-!
C120: errors are distances of functions. The square of the L2 error of a form is the integral of the squared distance between the
reconstructed form and the exact solution over the elements of all ranks, up to the errors of the quadrature rules.
-/

namespace Phyem.Norms

open Set MeasureTheory Reduce

/-! ### Specification -/

/-- A quadrature rule of the reference interval with nonnegative weights and points in the inside, as Gauss rules are. -/
structure GoodQuad (q : Quad ℝ) : Prop where
  ok : q.Ok
  inside : ∀ x ∈ q.nodes, x ∈ O
  weights : ∀ w ∈ q.weights, 0 ≤ w

/-- The element is right: its mapping is a chart, and `U` is the reconstructed form as a function in physical space. -/
structure Good1 (e : El1 ℝ) (U : ℝ → List ℝ) : Prop where
  chart : Chart1 e.Φ fun x => e.J x 0 0
  qx : GoodQuad e.qx
  field : ∀ x ∈ O, U (e.Φ x) = e.val x

structure Good2 (e : El2 ℝ) (U : ℝ × ℝ → List ℝ) : Prop where
  chart : Chart2 e.Φ e.J
  qx : GoodQuad e.qx
  qy : GoodQuad e.qy
  field : ∀ x ∈ O, ∀ y ∈ O, U (e.Φ x y) = e.val x y

structure Good3 (e : El3 ℝ) (U : ℝ × ℝ × ℝ → List ℝ) : Prop where
  chart : Chart3 e.Φ e.J
  qx : GoodQuad e.qx
  qy : GoodQuad e.qy
  qz : GoodQuad e.qz
  field : ∀ x ∈ O, ∀ y ∈ O, ∀ z ∈ O, U (e.Φ x y z) = e.val x y z

/-- The error the quadrature rules of an element make for the integral of a function `g` of physical space. -/
noncomputable def El1.qerr (e : El1 ℝ) (g : ℝ → ℝ) : ℝ := err e.qx.nodes e.qx.weights (fun x => e.J x 0 0 * g (e.Φ x)) (-1) 1
noncomputable def El2.qerr (e : El2 ℝ) (g : ℝ × ℝ → ℝ) : ℝ :=
  err2 e.qx.nodes e.qx.weights e.qy.nodes e.qy.weights (fun x y => det2 (e.J x y) * g (e.Φ x y)) (-1) 1 (-1) 1
noncomputable def El3.qerr (e : El3 ℝ) (g : ℝ × ℝ × ℝ → ℝ) : ℝ :=
  err3 e.qx.nodes e.qx.weights e.qy.nodes e.qy.weights e.qz.nodes e.qz.weights
    (fun x y z => det3 (e.J x y z) * g (e.Φ x y z)) (-1) 1 (-1) 1 (-1) 1

/-- The sum of a number of every element of every rank (of every region, in `msepy`). -/
def over {E : Type} (ranks : List (List E)) (f : E → ℝ) : ℝ := (ranks.map fun r => (r.map f).sum).sum

/-! ### Helpers -/

lemma jac2_eq (e : El2 ℝ) (x y : ℝ) : e.jac x y = det2 (e.J x y) := rfl

lemma jac3_eq (e : El3 ℝ) (x y z : ℝ) : e.jac x y z = det3 (e.J x y z) := by
  have : e.jac x y z = e.J x y z 0 0 * e.J x y z 1 1 * e.J x y z 2 2 + e.J x y z 0 1 * e.J x y z 1 2 * e.J x y z 2 0
      + e.J x y z 0 2 * e.J x y z 1 0 * e.J x y z 2 1 - e.J x y z 0 0 * e.J x y z 1 2 * e.J x y z 2 1
      - e.J x y z 0 1 * e.J x y z 1 0 * e.J x y z 2 2 - e.J x y z 0 2 * e.J x y z 1 1 * e.J x y z 2 0 := rfl
  rw [this]
  unfold det3
  ring

lemma zero_rule (qs ws : List ℝ) : rule qs ws (fun _ => (0 : ℝ)) (-1) 1 = 0 := by
  rw [rule_one]
  induction qs generalizing ws with
  | nil => simp
  | cons t qs ih =>
    cases ws with
    | nil => simp
    | cons w ws => rw [List.zipWith_cons_cons, List.sum_cons, ih]; simp

lemma total_map {E : Type} (ranks : List (List E)) (f : E → ℝ) : total (ranks.map fun r => r.map f) = over ranks f := by
  unfold total over
  rw [List.map_map]
  rfl

lemma over_close {E : Type} (ranks : List (List E)) (f g b : E → ℝ) (h : ∀ r ∈ ranks, ∀ e ∈ r, |f e - g e| ≤ b e) :
    |over ranks f - over ranks g| ≤ over ranks b := by
  have one : ∀ r : List E, (∀ e ∈ r, |f e - g e| ≤ b e) → |(r.map f).sum - (r.map g).sum| ≤ (r.map b).sum := by
    intro r
    induction r with
    | nil => intro _; simp
    | cons e r ih =>
      intro h
      simp only [List.map_cons, List.sum_cons]
      have h1 := h e List.mem_cons_self
      have h2 := ih fun e he => h e (List.mem_cons_of_mem _ he)
      calc |f e + (r.map f).sum - (g e + (r.map g).sum)| = |(f e - g e) + ((r.map f).sum - (r.map g).sum)| := by ring_nf
        _ ≤ |f e - g e| + |(r.map f).sum - (r.map g).sum| := abs_add_le _ _
        _ ≤ b e + (r.map b).sum := add_le_add h1 h2
  unfold over
  induction ranks with
  | nil => simp
  | cons r ranks ih =>
    simp only [List.map_cons, List.sum_cons]
    have h1 := one r (h r List.mem_cons_self)
    have h2 := ih fun r hr => h r (List.mem_cons_of_mem _ hr)
    calc _ = |((r.map f).sum - (r.map g).sum) + ((ranks.map fun r => (r.map f).sum).sum - (ranks.map fun r => (r.map g).sum).sum)| := by
          ring_nf
      _ ≤ _ := abs_add_le _ _
      _ ≤ _ := add_le_add h1 h2

lemma over_nonneg {E : Type} (ranks : List (List E)) (f : E → ℝ) (h : ∀ r ∈ ranks, ∀ e ∈ r, 0 ≤ f e) : 0 ≤ over ranks f := by
  unfold over
  apply List.sum_nonneg
  intro a ha
  obtain ⟨r, hr, rfl⟩ := List.mem_map.1 ha
  apply List.sum_nonneg
  intro a ha
  obtain ⟨e, he, rfl⟩ := List.mem_map.1 ha
  exact h r hr e he

lemma over_congr {E : Type} (ranks : List (List E)) (f g : E → ℝ) (h : ∀ r ∈ ranks, ∀ e ∈ r, f e = g e) :
    over ranks f = over ranks g := by
  unfold over
  congr 1
  apply List.map_congr_left
  intro r hr
  congr 1
  apply List.map_congr_left
  intro e he
  exact h r hr e he

lemma root2_sq {S : ℝ} (h : 0 ≤ S) : ∃ e, root2 S = some e ∧ 0 ≤ e ∧ e ^ 2 = S :=
  ⟨Real.sqrt S, by unfold root2; rw [if_pos h], Real.sqrt_nonneg S, Real.sq_sqrt h⟩

lemma diffPow_even {d : ℕ} (hd : Even d) (u v : List ℝ) : diffPow d u v = distd d u v := by
  unfold diffPow distd
  congr 2
  funext a b
  exact (hd.pow_abs _).symm

lemma valPow_even {d : ℕ} (hd : Even d) (u : List ℝ) : valPow d u = lend d u := by
  unfold valPow lend
  congr 2
  funext a
  exact (hd.pow_abs _).symm

lemma distd_nonneg (d : ℕ) (u v : List ℝ) : 0 ≤ distd d u v := by
  unfold distd
  apply List.sum_nonneg
  intro a ha
  obtain ⟨i, hi, rfl⟩ := List.getElem_of_mem ha
  rw [List.getElem_zipWith]
  positivity

lemma lend_nonneg (d : ℕ) (u : List ℝ) : 0 ≤ lend d u := by
  unfold lend
  apply List.sum_nonneg
  intro a ha
  obtain ⟨b, hb, rfl⟩ := List.mem_map.1 ha
  positivity

/-! ### The number of an element -/

lemma Good1.close {e : El1 ℝ} {U : ℝ → List ℝ} (h : Good1 e U) (g : ℝ → ℝ) :
    |(Q1 e.qx fun x => e.J x 0 0 * g (e.Φ x)) - ∫ P in Region1 e.Φ, g P| = e.qerr g := by
  rw [integral_region1 h.chart]
  rfl

lemma Good2.close {e : El2 ℝ} {U : ℝ × ℝ → List ℝ} (h : Good2 e U) (g : ℝ × ℝ → ℝ) (hg : IntegrableOn g (Region2 e.Φ)) :
    |(Q2 e.qx e.qy fun x y => det2 (e.J x y) * g (e.Φ x y)) - ∫ P in Region2 e.Φ, g P| = e.qerr g := by
  rw [integral_region2 h.chart, integral_O2 (fun x y => det2 (e.J x y) * g (e.Φ x y)) (integrable_region2 h.chart g hg)]
  rfl

lemma Good3.close {e : El3 ℝ} {U : ℝ × ℝ × ℝ → List ℝ} (h : Good3 e U) (g : ℝ × ℝ × ℝ → ℝ) (hg : IntegrableOn g (Region3 e.Φ)) :
    |(Q3 e.qx e.qy e.qz fun x y z => det3 (e.J x y z) * g (e.Φ x y z)) - ∫ P in Region3 e.Φ, g P| = e.qerr g := by
  rw [integral_region3 h.chart, integral_O3 (fun x y z => det3 (e.J x y z) * g (e.Φ x y z)) (integrable_region3 h.chart g hg)]
  rfl

lemma Good1.er_eq {e : El1 ℝ} {U : ℝ → List ℝ} (h : Good1 e U) {d : ℕ} (hd : Even d) (cf : ℝ → List ℝ) :
    e.er d cf = Q1 e.qx fun x => e.J x 0 0 * distd d (U (e.Φ x)) (cf (e.Φ x)) := by
  unfold El1.er
  rw [er1_Q _ _ _ _ _ _ h.qx.ok]
  apply rule_ext
  intro x hx
  rw [diffPow_even hd, h.field x (h.qx.inside x hx)]
  rfl

lemma Good2.er_eq {e : El2 ℝ} {U : ℝ × ℝ → List ℝ} (h : Good2 e U) {d : ℕ} (hd : Even d) (cf : ℝ × ℝ → List ℝ) :
    e.er d cf = Q2 e.qx e.qy fun x y => det2 (e.J x y) * distd d (U (e.Φ x y)) (cf (e.Φ x y)) := by
  unfold El2.er
  rw [er2_Q _ _ _ _ _ _ _ h.qx.ok h.qy.ok]
  apply Q2_ext
  intro x hx y hy
  rw [diffPow_even hd, h.field x (h.qx.inside x hx) y (h.qy.inside y hy), jac2_eq]

lemma Good3.er_eq {e : El3 ℝ} {U : ℝ × ℝ × ℝ → List ℝ} (h : Good3 e U) {d : ℕ} (hd : Even d) (cf : ℝ × ℝ × ℝ → List ℝ) :
    e.er d cf = Q3 e.qx e.qy e.qz fun x y z => det3 (e.J x y z) * distd d (U (e.Φ x y z)) (cf (e.Φ x y z)) := by
  unfold El3.er
  rw [er3_Q _ _ _ _ _ _ _ _ h.qx.ok h.qy.ok h.qz.ok]
  apply Q3_ext
  intro x hx y hy z hz
  rw [diffPow_even hd, h.field x (h.qx.inside x hx) y (h.qy.inside y hy) z (h.qz.inside z hz), jac3_eq]

lemma Good1.er_nonneg {e : El1 ℝ} {U : ℝ → List ℝ} (h : Good1 e U) {d : ℕ} (hd : Even d) (cf : ℝ → List ℝ) : 0 ≤ e.er d cf := by
  rw [h.er_eq hd]
  exact rule_nonneg _ h.qx.weights _ fun x hx => mul_nonneg (h.chart.pos x (h.qx.inside x hx)) (distd_nonneg _ _ _)

lemma Good2.er_nonneg {e : El2 ℝ} {U : ℝ × ℝ → List ℝ} (h : Good2 e U) {d : ℕ} (hd : Even d) (cf : ℝ × ℝ → List ℝ) :
    0 ≤ e.er d cf := by
  rw [h.er_eq hd]
  exact Q2_nonneg _ _ h.qx.weights h.qy.weights _ fun x hx y hy =>
    mul_nonneg (h.chart.pos x (h.qx.inside x hx) y (h.qy.inside y hy)) (distd_nonneg _ _ _)

lemma Good3.er_nonneg {e : El3 ℝ} {U : ℝ × ℝ × ℝ → List ℝ} (h : Good3 e U) {d : ℕ} (hd : Even d) (cf : ℝ × ℝ × ℝ → List ℝ) :
    0 ≤ e.er d cf := by
  rw [h.er_eq hd]
  exact Q3_nonneg _ _ _ h.qx.weights h.qy.weights h.qz.weights _ fun x hx y hy z hz =>
    mul_nonneg (h.chart.pos x (h.qx.inside x hx) y (h.qy.inside y hy) z (h.qz.inside z hz)) (distd_nonneg _ _ _)

/-! ### L2 errors -/

/-- The L2 error in the plane: a number, and its square is the integral of the squared distance over all elements, up to the errors
of the quadrature rules. `U e` is the reconstructed form on the element `e`. -/
theorem error2_right (ranks : List (List (El2 ℝ))) (cf : ℝ × ℝ → List ℝ) (U : El2 ℝ → ℝ × ℝ → List ℝ)
    (h : ∀ r ∈ ranks, ∀ e ∈ r, Good2 e (U e))
    (hi : ∀ r ∈ ranks, ∀ e ∈ r, IntegrableOn (fun P => distd 2 (U e P) (cf P)) (Region2 e.Φ)) :
    ∃ x, l2 "L2" (ranks.map fun r => r.map (El2.er 2 cf)) = some x ∧ 0 ≤ x ∧
      |x ^ 2 - over ranks fun e => ∫ P in Region2 e.Φ, distd 2 (U e P) (cf P)| ≤
        over ranks fun e => e.qerr fun P => distd 2 (U e P) (cf P) := by
  unfold l2
  rw [if_pos rfl, total_map]
  obtain ⟨x, h1, h2, h3⟩ := root2_sq (over_nonneg ranks (El2.er 2 cf) fun r hr e he => (h r hr e he).er_nonneg even_two cf)
  refine ⟨x, h1, h2, ?_⟩
  rw [h3]
  apply over_close
  intro r hr e he
  rw [(h r hr e he).er_eq even_two]
  exact ((h r hr e he).close _ (hi r hr e he)).le

/-- In space. -/
theorem error3_right (ranks : List (List (El3 ℝ))) (cf : ℝ × ℝ × ℝ → List ℝ) (U : El3 ℝ → ℝ × ℝ × ℝ → List ℝ)
    (h : ∀ r ∈ ranks, ∀ e ∈ r, Good3 e (U e))
    (hi : ∀ r ∈ ranks, ∀ e ∈ r, IntegrableOn (fun P => distd 2 (U e P) (cf P)) (Region3 e.Φ)) :
    ∃ x, l2 "L2" (ranks.map fun r => r.map (El3.er 2 cf)) = some x ∧ 0 ≤ x ∧
      |x ^ 2 - over ranks fun e => ∫ P in Region3 e.Φ, distd 2 (U e P) (cf P)| ≤
        over ranks fun e => e.qerr fun P => distd 2 (U e P) (cf P) := by
  unfold l2
  rw [if_pos rfl, total_map]
  obtain ⟨x, h1, h2, h3⟩ := root2_sq (over_nonneg ranks (El3.er 2 cf) fun r hr e he => (h r hr e he).er_nonneg even_two cf)
  refine ⟨x, h1, h2, ?_⟩
  rw [h3]
  apply over_close
  intro r hr e he
  rw [(h r hr e he).er_eq even_two]
  exact ((h r hr e he).close _ (hi r hr e he)).le

/-- Where the quadrature is exact, the error is the L2 distance. -/
theorem error2_exact (ranks : List (List (El2 ℝ))) (cf : ℝ × ℝ → List ℝ) (U : El2 ℝ → ℝ × ℝ → List ℝ)
    (h : ∀ r ∈ ranks, ∀ e ∈ r, Good2 e (U e))
    (hi : ∀ r ∈ ranks, ∀ e ∈ r, IntegrableOn (fun P => distd 2 (U e P) (cf P)) (Region2 e.Φ))
    (hq : ∀ r ∈ ranks, ∀ e ∈ r, (e.qerr fun P => distd 2 (U e P) (cf P)) = 0) :
    l2 "L2" (ranks.map fun r => r.map (El2.er 2 cf)) =
      some (Real.sqrt (over ranks fun e => ∫ P in Region2 e.Φ, distd 2 (U e P) (cf P))) := by
  obtain ⟨x, h1, h2, h3⟩ := error2_right ranks cf U h hi
  rw [over_congr ranks _ (fun _ => (0 : ℝ)) hq] at h3
  have h0 : over ranks (fun _ => (0 : ℝ)) = 0 := by
    unfold over
    induction ranks with
    | nil => simp
    | cons r ranks ih => simp
  rw [h0] at h3
  have h4 : x ^ 2 = over ranks fun e => ∫ P in Region2 e.Φ, distd 2 (U e P) (cf P) := by
    have := abs_nonpos_iff.1 h3
    linarith
  rw [h1, ← h4, Real.sqrt_sq h2]

/-- Where the reconstructed form is the exact solution at the quadrature points, the error is zero. -/
theorem error2_zero (ranks : List (List (El2 ℝ))) (cf : ℝ × ℝ → List ℝ) (U : El2 ℝ → ℝ × ℝ → List ℝ)
    (h : ∀ r ∈ ranks, ∀ e ∈ r, Good2 e (U e)) (he : ∀ r ∈ ranks, ∀ e ∈ r, ∀ P ∈ Region2 e.Φ, U e P = cf P) :
    l2 "L2" (ranks.map fun r => r.map (El2.er 2 cf)) = some 0 := by
  have hz : over ranks (El2.er 2 cf) = 0 := by
    have : over ranks (El2.er 2 cf) = over ranks fun _ => (0 : ℝ) := by
      apply over_congr
      intro r hr e hm
      rw [(h r hr e hm).er_eq even_two, Q2_ext _ _ _ (fun _ _ => (0 : ℝ))]
      · unfold Q2 rule2
        simp only [zero_rule]
      · intro x hx y hy
        have hP : e.Φ x y ∈ Region2 e.Φ :=
          ⟨(x, y), ⟨(h r hr e hm).qx.inside x hx, (h r hr e hm).qy.inside y hy⟩, rfl⟩
        rw [he r hr e hm _ hP]
        have : distd 2 (cf (e.Φ x y)) (cf (e.Φ x y)) = 0 := by
          unfold distd
          generalize cf (e.Φ x y) = l
          induction l with
          | nil => simp
          | cons a l ih => simpa using ih
        rw [this, mul_zero]
    rw [this]
    unfold over
    induction ranks with
    | nil => simp
    | cons r ranks ih => simp
  unfold l2
  rw [if_pos rfl, total_map, hz]
  unfold root2
  simp

/-- Other types of errors are refused. -/
theorem error_types (typ : String) (h : typ ≠ "L2") (ranks : List (List ℝ)) : l2 typ ranks = none := by
  unfold l2
  rw [if_neg h]

/-- The errors of a form: the L2 error, that of the exterior derivative, and both together. -/
theorem formError_right (typ : String) (a b : ℝ) :
    (typ = "L2" → formError typ (some a) (some b) = some a) ∧ (typ = "d_L2" → formError typ (some a) (some b) = some b) ∧
    (typ = "H1" → formError typ (some a) (some b) = some (Real.sqrt (a ^ 2 + b ^ 2))) ∧
    (typ ≠ "L2" → typ ≠ "d_L2" → typ ≠ "H1" → formError typ (some a) (some b) = none) ∧
    (typ = "L2" → formErrorPy typ (some a) (some b) = some a) ∧
    (typ = "H1" → formErrorPy typ (some a) (some b) = some (Real.sqrt (a ^ 2 + b ^ 2))) ∧
    (typ ≠ "L2" → typ ≠ "H1" → formErrorPy typ (some a) (some b) = none) := by
  have hp : (0 : ℝ) ≤ a ^ 2 + b ^ 2 := by positivity
  refine ⟨?_, ?_, ?_, ?_, ?_, ?_, ?_⟩
  · rintro rfl; simp [formError]
  · rintro rfl; simp [formError]
  · rintro rfl; simp [formError, root2, hp]
  · intro h1 h2 h3; simp [formError, h1, h2, h3]
  · rintro rfl; simp [formErrorPy]
  · rintro rfl; simp [formErrorPy, root2, hp]
  · intro h1 h2; simp [formErrorPy, h1, h2]

/-- The H1 error in the plane: `ranks` are the elements with the form, `dranks` with its exterior derivative, `dcf` is that of the
exact solution. -/
theorem h1_error2_right (ranks dranks : List (List (El2 ℝ))) (cf dcf : ℝ × ℝ → List ℝ) (U V : El2 ℝ → ℝ × ℝ → List ℝ)
    (h : ∀ r ∈ ranks, ∀ e ∈ r, Good2 e (U e)) (h' : ∀ r ∈ dranks, ∀ e ∈ r, Good2 e (V e))
    (hi : ∀ r ∈ ranks, ∀ e ∈ r, IntegrableOn (fun P => distd 2 (U e P) (cf P)) (Region2 e.Φ))
    (hi' : ∀ r ∈ dranks, ∀ e ∈ r, IntegrableOn (fun P => distd 2 (V e P) (dcf P)) (Region2 e.Φ)) :
    ∃ x, formError "H1" (l2 "L2" (ranks.map fun r => r.map (El2.er 2 cf))) (l2 "L2" (dranks.map fun r => r.map (El2.er 2 dcf))) =
        some x ∧ 0 ≤ x ∧
      |x ^ 2 - ((over ranks fun e => ∫ P in Region2 e.Φ, distd 2 (U e P) (cf P)) +
          over dranks fun e => ∫ P in Region2 e.Φ, distd 2 (V e P) (dcf P))| ≤
        (over ranks fun e => e.qerr fun P => distd 2 (U e P) (cf P)) +
          over dranks fun e => e.qerr fun P => distd 2 (V e P) (dcf P) := by
  obtain ⟨a, a1, a2, a3⟩ := error2_right ranks cf U h hi
  obtain ⟨b, b1, b2, b3⟩ := error2_right dranks dcf V h' hi'
  rw [a1, b1]
  have hp : (0 : ℝ) ≤ a ^ 2 + b ^ 2 := by positivity
  refine ⟨Real.sqrt (a ^ 2 + b ^ 2), ((formError_right "H1" a b).2.2.1 rfl), Real.sqrt_nonneg _, ?_⟩
  rw [Real.sq_sqrt hp, add_sub_add_comm]
  exact (abs_add_le _ _).trans (add_le_add a3 b3)

/-! ### L^d errors and norms of `msepy` -/

lemma ld_pow {d : ℕ} (hd : Even d) (h0 : d ≠ 0) {R : List (List ℝ)} (h : 0 ≤ total R) :
    ∃ e, ld d R = some e ∧ 0 ≤ e ∧ e ^ d = total R := by
  refine ⟨total R ^ (1 / (d : ℝ)), ?_, Real.rpow_nonneg h _, ?_⟩
  · unfold ld rootd
    rw [if_neg h0, if_neg (by rintro rfl; exact absurd hd (by decide)), if_pos h]
  · rw [one_div]
    exact Real.rpow_inv_natCast_pow h h0

/-- The L^d error on a line, for even `d`. -/
theorem ld_error1_partial (d : ℕ) (hd : Even d) (h0 : d ≠ 0) (regions : List (List (El1 ℝ))) (cf : ℝ → List ℝ)
    (U : El1 ℝ → ℝ → List ℝ) (h : ∀ r ∈ regions, ∀ e ∈ r, Good1 e (U e)) :
    ∃ x, ld d (regions.map fun r => r.map (El1.er d cf)) = some x ∧ 0 ≤ x ∧
      |x ^ d - over regions fun e => ∫ P in Region1 e.Φ, distd d (U e P) (cf P)| ≤
        over regions fun e => e.qerr fun P => distd d (U e P) (cf P) := by
  have hn : 0 ≤ total (regions.map fun r => r.map (El1.er d cf)) := by
    rw [total_map]; exact over_nonneg _ _ fun r hr e he => (h r hr e he).er_nonneg hd cf
  obtain ⟨x, h1, h2, h3⟩ := ld_pow hd h0 hn
  refine ⟨x, h1, h2, ?_⟩
  rw [h3, total_map]
  apply over_close
  intro r hr e he
  rw [(h r hr e he).er_eq hd]
  exact ((h r hr e he).close fun P => distd d (U e P) (cf P)).le

/-- In the plane. -/
theorem ld_error2_partial (d : ℕ) (hd : Even d) (h0 : d ≠ 0) (regions : List (List (El2 ℝ))) (cf : ℝ × ℝ → List ℝ)
    (U : El2 ℝ → ℝ × ℝ → List ℝ) (h : ∀ r ∈ regions, ∀ e ∈ r, Good2 e (U e))
    (hi : ∀ r ∈ regions, ∀ e ∈ r, IntegrableOn (fun P => distd d (U e P) (cf P)) (Region2 e.Φ)) :
    ∃ x, ld d (regions.map fun r => r.map (El2.er d cf)) = some x ∧ 0 ≤ x ∧
      |x ^ d - over regions fun e => ∫ P in Region2 e.Φ, distd d (U e P) (cf P)| ≤
        over regions fun e => e.qerr fun P => distd d (U e P) (cf P) := by
  have hn : 0 ≤ total (regions.map fun r => r.map (El2.er d cf)) := by
    rw [total_map]; exact over_nonneg _ _ fun r hr e he => (h r hr e he).er_nonneg hd cf
  obtain ⟨x, h1, h2, h3⟩ := ld_pow hd h0 hn
  refine ⟨x, h1, h2, ?_⟩
  rw [h3, total_map]
  apply over_close
  intro r hr e he
  rw [(h r hr e he).er_eq hd]
  exact ((h r hr e he).close _ (hi r hr e he)).le

/-- In space. -/
theorem ld_error3_partial (d : ℕ) (hd : Even d) (h0 : d ≠ 0) (regions : List (List (El3 ℝ))) (cf : ℝ × ℝ × ℝ → List ℝ)
    (U : El3 ℝ → ℝ × ℝ × ℝ → List ℝ) (h : ∀ r ∈ regions, ∀ e ∈ r, Good3 e (U e))
    (hi : ∀ r ∈ regions, ∀ e ∈ r, IntegrableOn (fun P => distd d (U e P) (cf P)) (Region3 e.Φ)) :
    ∃ x, ld d (regions.map fun r => r.map (El3.er d cf)) = some x ∧ 0 ≤ x ∧
      |x ^ d - over regions fun e => ∫ P in Region3 e.Φ, distd d (U e P) (cf P)| ≤
        over regions fun e => e.qerr fun P => distd d (U e P) (cf P) := by
  have hn : 0 ≤ total (regions.map fun r => r.map (El3.er d cf)) := by
    rw [total_map]; exact over_nonneg _ _ fun r hr e he => (h r hr e he).er_nonneg hd cf
  obtain ⟨x, h1, h2, h3⟩ := ld_pow hd h0 hn
  refine ⟨x, h1, h2, ?_⟩
  rw [h3, total_map]
  apply over_close
  intro r hr e he
  rw [(h r hr e he).er_eq hd]
  exact ((h r hr e he).close _ (hi r hr e he)).le

/-! The norms by quadrature are the errors with respect to zero. -/

lemma Good1.no_eq {e : El1 ℝ} {U : ℝ → List ℝ} (h : Good1 e U) {d : ℕ} (hd : Even d) :
    e.no d = Q1 e.qx fun x => e.J x 0 0 * lend d (U (e.Φ x)) := by
  unfold El1.no
  rw [no1_Q _ _ _ _ h.qx.ok]
  apply rule_ext
  intro x hx
  rw [valPow_even hd, h.field x (h.qx.inside x hx)]
  rfl

lemma Good2.no_eq {e : El2 ℝ} {U : ℝ × ℝ → List ℝ} (h : Good2 e U) {d : ℕ} (hd : Even d) :
    e.no d = Q2 e.qx e.qy fun x y => det2 (e.J x y) * lend d (U (e.Φ x y)) := by
  unfold El2.no
  rw [no2_Q _ _ _ _ _ h.qx.ok h.qy.ok]
  apply Q2_ext
  intro x hx y hy
  rw [valPow_even hd, h.field x (h.qx.inside x hx) y (h.qy.inside y hy), jac2_eq]

lemma Good3.no_eq {e : El3 ℝ} {U : ℝ × ℝ × ℝ → List ℝ} (h : Good3 e U) {d : ℕ} (hd : Even d) :
    e.no d = Q3 e.qx e.qy e.qz fun x y z => det3 (e.J x y z) * lend d (U (e.Φ x y z)) := by
  unfold El3.no
  rw [no3_Q _ _ _ _ _ _ h.qx.ok h.qy.ok h.qz.ok]
  apply Q3_ext
  intro x hx y hy z hz
  rw [valPow_even hd, h.field x (h.qx.inside x hx) y (h.qy.inside y hy) z (h.qz.inside z hz), jac3_eq]

/-- The L^d norm on a line, for even `d`. -/
theorem ld_norm1_partial (d : ℕ) (hd : Even d) (h0 : d ≠ 0) (regions : List (List (El1 ℝ)))
    (U : El1 ℝ → ℝ → List ℝ) (h : ∀ r ∈ regions, ∀ e ∈ r, Good1 e (U e)) :
    ∃ x, ld d (regions.map fun r => r.map (El1.no d)) = some x ∧ 0 ≤ x ∧
      |x ^ d - over regions fun e => ∫ P in Region1 e.Φ, lend d (U e P)| ≤
        over regions fun e => e.qerr fun P => lend d (U e P) := by
  have hn : 0 ≤ total (regions.map fun r => r.map (El1.no d)) := by
    rw [total_map]
    refine over_nonneg _ _ fun r hr e he => ?_
    rw [(h r hr e he).no_eq hd]
    exact rule_nonneg _ (h r hr e he).qx.weights _ fun x hx =>
      mul_nonneg ((h r hr e he).chart.pos x ((h r hr e he).qx.inside x hx)) (lend_nonneg _ _)
  obtain ⟨x, h1, h2, h3⟩ := ld_pow hd h0 hn
  refine ⟨x, h1, h2, ?_⟩
  rw [h3, total_map]
  apply over_close
  intro r hr e he
  rw [(h r hr e he).no_eq hd]
  exact ((h r hr e he).close fun P => lend d (U e P)).le

/-- In the plane. -/
theorem ld_norm2_partial (d : ℕ) (hd : Even d) (h0 : d ≠ 0) (regions : List (List (El2 ℝ)))
    (U : El2 ℝ → ℝ × ℝ → List ℝ) (h : ∀ r ∈ regions, ∀ e ∈ r, Good2 e (U e))
    (hi : ∀ r ∈ regions, ∀ e ∈ r, IntegrableOn (fun P => lend d (U e P)) (Region2 e.Φ)) :
    ∃ x, ld d (regions.map fun r => r.map (El2.no d)) = some x ∧ 0 ≤ x ∧
      |x ^ d - over regions fun e => ∫ P in Region2 e.Φ, lend d (U e P)| ≤
        over regions fun e => e.qerr fun P => lend d (U e P) := by
  have hn : 0 ≤ total (regions.map fun r => r.map (El2.no d)) := by
    rw [total_map]
    refine over_nonneg _ _ fun r hr e he => ?_
    have g := h r hr e he
    rw [g.no_eq hd]
    exact Q2_nonneg _ _ g.qx.weights g.qy.weights _ fun x hx y hy =>
      mul_nonneg (g.chart.pos x (g.qx.inside x hx) y (g.qy.inside y hy)) (lend_nonneg _ _)
  obtain ⟨x, h1, h2, h3⟩ := ld_pow hd h0 hn
  refine ⟨x, h1, h2, ?_⟩
  rw [h3, total_map]
  apply over_close
  intro r hr e he
  rw [(h r hr e he).no_eq hd]
  exact ((h r hr e he).close _ (hi r hr e he)).le

/-- In space. -/
theorem ld_norm3_partial (d : ℕ) (hd : Even d) (h0 : d ≠ 0) (regions : List (List (El3 ℝ)))
    (U : El3 ℝ → ℝ × ℝ × ℝ → List ℝ) (h : ∀ r ∈ regions, ∀ e ∈ r, Good3 e (U e))
    (hi : ∀ r ∈ regions, ∀ e ∈ r, IntegrableOn (fun P => lend d (U e P)) (Region3 e.Φ)) :
    ∃ x, ld d (regions.map fun r => r.map (El3.no d)) = some x ∧ 0 ≤ x ∧
      |x ^ d - over regions fun e => ∫ P in Region3 e.Φ, lend d (U e P)| ≤
        over regions fun e => e.qerr fun P => lend d (U e P) := by
  have hn : 0 ≤ total (regions.map fun r => r.map (El3.no d)) := by
    rw [total_map]
    refine over_nonneg _ _ fun r hr e he => ?_
    have g := h r hr e he
    rw [g.no_eq hd]
    exact Q3_nonneg _ _ _ g.qx.weights g.qy.weights g.qz.weights _ fun x hx y hy z hz =>
      mul_nonneg (g.chart.pos x (g.qx.inside x hx) y (g.qy.inside y hy) z (g.qz.inside z hz)) (lend_nonneg _ _)
  obtain ⟨x, h1, h2, h3⟩ := ld_pow hd h0 hn
  refine ⟨x, h1, h2, ?_⟩
  rw [h3, total_map]
  apply over_close
  intro r hr e he
  rw [(h r hr e he).no_eq hd]
  exact ((h r hr e he).close _ (hi r hr e he)).le

/-- `d = 0` is refused. -/
theorem ld_zero (regions : List (List ℝ)) : ld 0 regions = none := by
  unfold ld
  rw [if_pos rfl]

/-! ### Masses -/

/-- The mass of a form in the plane (a scalar one): the integral over the elements of all ranks. -/
theorem mass2_right (ranks : List (List (El2 ℝ))) (u : El2 ℝ → ℝ × ℝ → ℝ)
    (h : ∀ r ∈ ranks, ∀ e ∈ r, Good2 e fun P => [u e P])
    (hi : ∀ r ∈ ranks, ∀ e ∈ r, IntegrableOn (u e) (Region2 e.Φ)) :
    |total (ranks.map fun r => r.map fun e => mass2 e.jac (fun x y => (e.val x y).getD 0 0) e.qx e.qy) -
        over ranks fun e => ∫ P in Region2 e.Φ, u e P| ≤ over ranks fun e => e.qerr (u e) := by
  rw [total_map]
  apply over_close
  intro r hr e he
  have g := h r hr e he
  have : mass2 e.jac (fun x y => (e.val x y).getD 0 0) e.qx e.qy = Q2 e.qx e.qy fun x y => det2 (e.J x y) * u e (e.Φ x y) := by
    rw [mass2_Q _ _ _ _ g.qx.ok g.qy.ok]
    apply Q2_ext
    intro x hx y hy
    rw [← g.field x (g.qx.inside x hx) y (g.qy.inside y hy), jac2_eq]
    rfl
  rw [this]
  exact (g.close _ (hi r hr e he)).le

/-- In space. -/
theorem mass3_right (ranks : List (List (El3 ℝ))) (u : El3 ℝ → ℝ × ℝ × ℝ → ℝ)
    (h : ∀ r ∈ ranks, ∀ e ∈ r, Good3 e fun P => [u e P])
    (hi : ∀ r ∈ ranks, ∀ e ∈ r, IntegrableOn (u e) (Region3 e.Φ)) :
    |total (ranks.map fun r => r.map fun e => mass3 e.jac (fun x y z => (e.val x y z).getD 0 0) e.qx e.qy e.qz) -
        over ranks fun e => ∫ P in Region3 e.Φ, u e P| ≤ over ranks fun e => e.qerr (u e) := by
  rw [total_map]
  apply over_close
  intro r hr e he
  have g := h r hr e he
  have : mass3 e.jac (fun x y z => (e.val x y z).getD 0 0) e.qx e.qy e.qz =
      Q3 e.qx e.qy e.qz fun x y z => det3 (e.J x y z) * u e (e.Φ x y z) := by
    rw [mass3_Q _ _ _ _ _ g.qx.ok g.qy.ok g.qz.ok]
    apply Q3_ext
    intro x hx y hy z hz
    rw [← g.field x (g.qx.inside x hx) y (g.qy.inside y hy) z (g.qz.inside z hz), jac3_eq]
    rfl
  rw [this]
  exact (g.close _ (hi r hr e he)).le

end Phyem.Norms
