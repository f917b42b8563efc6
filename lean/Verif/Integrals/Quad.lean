import Verif.Integrals.Sums
import Mathlib.Algebra.Polynomial.Derivative
import Mathlib.Algebra.Polynomial.Eval.Degree
import Mathlib.Algebra.Polynomial.BigOperators
import Mathlib.Tactic.FieldSimp
import Mathlib.Tactic.NormNum

/-! # Integrals of functions over a part of the mesh -/

namespace Phyem.Integrals

open Polynomial

/-- The rule integrates polynomials up to degree `m` over `[-1, 1]` exactly: it gives the difference of a primitive. -/
def Exact (q : List (ℚ × ℚ)) (m : ℕ) : Prop :=
  ∀ P : ℚ[X], P.natDegree ≤ m + 1 → (q.map fun i => P.derivative.eval i.1 * i.2).sum = P.eval 1 - P.eval (-1)

/-- The orthogonal rectangle with a corner `(x, y)` and sides `hx`, `hy`. -/
def rect (x y hx hy : ℚ) : Geo := ⟨fun r s => (x + (r + 1) * hx / 2, y + (s + 1) * hy / 2), fun _ _ => hx / 2 * (hy / 2)⟩

lemma sum_mul {α : Type} (c : ℚ) (g : α → ℚ) : ∀ l : List α, (l.map fun x => c * g x).sum = c * (l.map g).sum
  | [] => by simp
  | x :: l => by simp only [List.map_cons, List.sum_cons, sum_mul c g l]; ring

lemma sum_add {α : Type} (f g : α → ℚ) : ∀ l : List α, (l.map fun x => f x + g x).sum = (l.map f).sum + (l.map g).sum
  | [] => by simp
  | x :: l => by simp only [List.map_cons, List.sum_cons, sum_add f g l]; ring

lemma exact_affine {q : List (ℚ × ℚ)} {m : ℕ} (hq : Exact q m) {P : ℚ[X]} (hP : P.natDegree ≤ m + 1) (x h : ℚ) :
    (q.map fun i => P.derivative.eval (x + (i.1 + 1) * h / 2) * (h / 2) * i.2).sum = P.eval (x + h) - P.eval x := by
  have h1 := hq (P.comp (C (h / 2) * X + C (x + h / 2))) (by
    refine natDegree_comp_le.trans ?_
    refine (Nat.mul_le_mul_left _ (natDegree_linear_le)).trans ?_
    omega)
  rw [derivative_comp] at h1
  simp only [eval_mul, eval_comp, eval_add, eval_C, eval_X, derivative_add, derivative_mul, derivative_C, derivative_X, zero_mul, zero_add,
    mul_one, add_zero] at h1
  have e1 : h / 2 * 1 + (x + h / 2) = x + h := by ring
  have e2 : h / 2 * -1 + (x + h / 2) = x := by ring
  simp only [mul_one] at e1
  rw [e1, e2] at h1
  rw [← h1]
  congr 1
  apply List.map_congr_left
  intro i _
  rw [show h / 2 * i.1 + (x + h / 2) = x + (i.1 + 1) * h / 2 by ring]
  ring

lemma integrate_eq (q : List (ℚ × ℚ)) (geo : ℕ → Geo) (f : ℚ → ℚ → ℚ → ℚ) (t : ℚ) (ranks : List (List ℕ)) :
    integrate 2 q geo f (some t) ranks = some ((ranks.flatten.map fun e => intElem q (f t) (geo e)).sum) := by
  simp only [integrate, if_true]
  exact sumRanks_some _ _

/-- The integral of `F'(x) G'(y)` over orthogonal rectangles is the sum of `(F(x₁) - F(x₀)) (G(y₁) - G(y₀))`, if the rule is exact for the degrees. -/
theorem integrate_exact {q : List (ℚ × ℚ)} {m : ℕ} (hq : Exact q m) {F G : ℚ[X]} (hF : F.natDegree ≤ m + 1) (hG : G.natDegree ≤ m + 1)
    {geo : ℕ → Geo} {X₀ Y₀ HX HY : ℕ → ℚ} {ranks : List (List ℕ)} (hgeo : ∀ e ∈ ranks.flatten, geo e = rect (X₀ e) (Y₀ e) (HX e) (HY e)) (t : ℚ) :
    integrate 2 q geo (fun _ x y => F.derivative.eval x * G.derivative.eval y) (some t) ranks =
      some ((ranks.flatten.map fun e => (F.eval (X₀ e + HX e) - F.eval (X₀ e)) * (G.eval (Y₀ e + HY e) - G.eval (Y₀ e))).sum) := by
  rw [integrate_eq]
  congr 2
  apply List.map_congr_left
  intro e he
  rw [hgeo e he, ← exact_affine hq hF, ← exact_affine hq hG]
  unfold intElem rect
  simp only
  have : ∀ i : ℚ × ℚ, (q.map fun j => F.derivative.eval (X₀ e + (i.1 + 1) * HX e / 2) * G.derivative.eval (Y₀ e + (j.1 + 1) * HY e / 2) *
      (HX e / 2 * (HY e / 2)) * i.2 * j.2).sum =
      (q.map fun j => G.derivative.eval (Y₀ e + (j.1 + 1) * HY e / 2) * (HY e / 2) * j.2).sum *
        (F.derivative.eval (X₀ e + (i.1 + 1) * HX e / 2) * (HX e / 2) * i.2) := by
    intro i
    conv_rhs => rw [mul_comm, ← sum_mul]
    congr 1
    apply List.map_congr_left
    intro j _
    ring
  simp only [this]
  rw [sum_mul, mul_comm]

/-- Simpson's rule. -/
def simpson : List (ℚ × ℚ) := [(-1, 1 / 3), (0, 4 / 3), (1, 1 / 3)]

lemma simpson_exact : Exact simpson 3 := by
  intro P hP
  rw [as_sum_range_C_mul_X_pow' P (show P.natDegree < 5 by omega)]
  simp only [Finset.sum_range_succ, Finset.sum_range_zero, simpson, List.map_cons, List.map_nil, List.sum_cons, List.sum_nil]
  simp [derivative_pow]
  ring

example : integrate 2 simpson (fun e => if e = 4 then rect 0 0 1 2 else rect 1 0 2 2)
    (fun _ x y => (X ^ 3 : ℚ[X]).derivative.eval x * (X ^ 2 : ℚ[X]).derivative.eval y) (some 0) [[4], [7]] = some 108 := by
  rw [integrate_exact simpson_exact (X₀ := fun e => if e = 4 then 0 else 1) (Y₀ := fun _ => 0) (HX := fun e => if e = 4 then 1 else 2) (HY := fun _ => 2)
    (by simp [natDegree_X_pow]) (by simp [natDegree_X_pow]) (by intro e he; simp at he; rcases he with rfl | rfl <;> simp)]
  norm_num

/-- Linear in the function, additive over parts, and the same for all distributions of the elements over ranks. -/
theorem integrate_linear (q : List (ℚ × ℚ)) (geo : ℕ → Geo) (f g : ℚ → ℚ → ℚ → ℚ) (a b t : ℚ) (ranks : List (List ℕ)) :
    ∃ x y, integrate 2 q geo f (some t) ranks = some x ∧ integrate 2 q geo g (some t) ranks = some y ∧
      integrate 2 q geo (fun t x y => a * f t x y + b * g t x y) (some t) ranks = some (a * x + b * y) := by
  refine ⟨_, _, integrate_eq .., integrate_eq .., ?_⟩
  rw [integrate_eq, ← sum_mul, ← sum_mul, ← sum_add]
  congr 2
  apply List.map_congr_left
  intro e _
  unfold intElem
  rw [← sum_mul, ← sum_mul, ← sum_add]
  congr 1
  apply List.map_congr_left
  intro i _
  rw [← sum_mul, ← sum_mul, ← sum_add]
  congr 1
  apply List.map_congr_left
  intro j _
  ring

/-- The integral over two parts is the sum; how the elements are distributed over ranks does not matter. -/
theorem integrate_parts (q : List (ℚ × ℚ)) (geo : ℕ → Geo) (f : ℚ → ℚ → ℚ → ℚ) (t : ℚ) {A B AB : List (List ℕ)}
    (h : AB.flatten.Perm (A.flatten ++ B.flatten)) :
    ∃ x y, integrate 2 q geo f (some t) A = some x ∧ integrate 2 q geo f (some t) B = some y ∧ integrate 2 q geo f (some t) AB = some (x + y) := by
  refine ⟨_, _, integrate_eq .., integrate_eq .., ?_⟩
  rw [integrate_eq, (h.map _).sum_eq, List.map_append, List.sum_append]

example : ([[4, 7], [5]] : List (List ℕ)).flatten.Perm (([[4], []] : List (List ℕ)).flatten ++ ([[], [7, 5]] : List (List ℕ)).flatten) := by decide

/-- It is monotone if the weights and Jacobians are not negative: a function that is nowhere larger on the elements has no larger integral. -/
theorem integrate_mono {q : List (ℚ × ℚ)} (hw : ∀ i ∈ q, 0 ≤ i.2) {geo : ℕ → Geo} {ranks : List (List ℕ)}
    (hj : ∀ e ∈ ranks.flatten, ∀ r s, 0 ≤ (geo e).jac r s) {f g : ℚ → ℚ → ℚ → ℚ} {t : ℚ}
    (hfg : ∀ e ∈ ranks.flatten, ∀ r s, f t ((geo e).map r s).1 ((geo e).map r s).2 ≤ g t ((geo e).map r s).1 ((geo e).map r s).2) {x y : ℚ}
    (hx : integrate 2 q geo f (some t) ranks = some x) (hy : integrate 2 q geo g (some t) ranks = some y) : x ≤ y := by
  rw [integrate_eq] at hx hy
  rw [← Option.some.inj hx, ← Option.some.inj hy]
  apply List.sum_le_sum
  intro e he
  apply List.sum_le_sum
  intro i hi
  apply List.sum_le_sum
  intro j hjq
  have h1 := mul_le_mul_of_nonneg_right (hfg e he i.1 j.1) (hj e he i.1 j.1)
  exact mul_le_mul_of_nonneg_right (mul_le_mul_of_nonneg_right h1 (hw i hi)) (hw j hjq)

example : (∀ i ∈ simpson, (0 : ℚ) ≤ i.2) ∧ ∀ r s, 0 ≤ (rect 0 0 1 2).jac r s := by
  refine ⟨by decide +kernel, fun r s => ?_⟩
  norm_num [rect]

/-- Without a time, or in space, nothing is integrated: there the function of two coordinates is called with three. -/
theorem integrate_space_refuted (q : List (ℚ × ℚ)) (geo : ℕ → Geo) (f : ℚ → ℚ → ℚ → ℚ) (t : Option ℚ) {ranks : List (List ℕ)} (hne : ranks.flatten ≠ []) :
    integrate 3 q geo f t ranks = none ∧ ∀ d, integrate d q geo f none ranks = none := by
  refine ⟨?_, fun d => rfl⟩
  cases t with
  | none => rfl
  | some t =>
    obtain ⟨e, he⟩ := List.exists_mem_of_ne_nil _ hne
    simp only [integrate]
    exact sumRanks_none he rfl

end Phyem.Integrals
