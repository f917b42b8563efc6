import Verif.Mass.Props
import Verif.Poly.Tensor
import Mathlib.Algebra.Polynomial.Derivative
import Mathlib.LinearAlgebra.Lagrange
import Mathlib.Data.List.ProdSigma

/-!
The values at enough quadrature points determine the degrees of freedom.
-/

namespace Phyem.Mass

open Finset Polynomial

variable {K : Type} [Field K]

/-- The values of the combinations of the basis functions `F` at the points `P` determine the coefficients. -/
def Uni {I : Type} (F : I → List K) (n : ℕ) (P : List I) : Prop :=
  (∀ x, (F x).length = n) ∧
    ∀ c : ℕ → K, (∀ x ∈ P, ∑ i ∈ range n, (F x).getD i 0 * c i = 0) → ∀ i < n, c i = 0

theorem uni_nodes {xs P : List K} (h : xs.Nodup) (hP : P.Nodup) (hl : xs.length ≤ P.length) :
    Uni (Poly.nodes xs) xs.length P := by
  classical
  refine ⟨nodes_length xs, fun c hc i hi => ?_⟩
  have hinj := Poly.Distinct.injOn h
  set f := Lagrange.interpolate (range xs.length) (Poly.node xs) c with hf
  have hdeg : f.degree < P.toFinset.card := by
    have h1 := Lagrange.degree_interpolate_lt c hinj
    rw [card_range] at h1
    rw [List.toFinset_card_of_nodup hP]
    exact lt_of_lt_of_le h1 (by exact_mod_cast hl)
  have hev : ∀ x ∈ P.toFinset, f.eval x = 0 := by
    intro x hx
    rw [← hc x (List.mem_toFinset.1 hx), hf, Lagrange.interpolate_apply, eval_finsetSum]
    refine sum_congr rfl fun j hj => ?_
    rw [Poly.nodes_getD xs x (mem_range.1 hj), Poly.lagrange_eq, eval_mul, eval_C, mul_comm]; rfl
  have h0 : f = 0 := eq_zero_of_degree_lt_of_eval_finset_eq_zero _ hdeg hev
  have := Lagrange.eval_interpolate_at_node c hinj (mem_range.2 hi)
  rw [← hf, h0, eval_zero] at this
  exact this.symm

theorem uni_edges [CharZero K] {xs P : List K} (h : xs.Nodup) (hP : P.Nodup) (hl : xs.length ≤ P.length) :
    Uni (Poly.edges xs) (xs.length - 1) P := by
  classical
  refine ⟨edges_length xs, fun c hc i hi => ?_⟩
  have hinj := Poly.Distinct.injOn h
  let v : ℕ → K := fun n => ∑ i ∈ range n, c i
  have hv : ∀ n, v (n + 1) - v n = c n := by intro n; simp only [v, sum_range_succ]; ring
  set f := Lagrange.interpolate (range xs.length) (Poly.node xs) v with hf
  have hdeg : (derivative f).degree < P.toFinset.card := by
    have h1 := Lagrange.degree_interpolate_lt v hinj
    rw [card_range] at h1
    rw [List.toFinset_card_of_nodup hP]
    exact lt_of_le_of_lt degree_derivative_le (lt_of_lt_of_le h1 (by exact_mod_cast hl))
  have hev : ∀ x ∈ P.toFinset, (derivative f).eval x = 0 := by
    intro x hx
    rw [← hc x (List.mem_toFinset.1 hx), hf, Lagrange.interpolate_apply, derivative_sum, eval_finsetSum]
    have e1 : ∑ i ∈ range (xs.length - 1), (Poly.edges xs x).getD i 0 * c i =
        ∑ i ∈ range (xs.length - 1), (v (i + 1) - v i) * Poly.edge xs i x := by
      refine sum_congr rfl fun j hj => ?_
      rw [Poly.edges_getD xs x (mem_range.1 hj), hv, mul_comm]
    rw [e1, Poly.edges_of_differences h]
    refine sum_congr rfl fun j _ => ?_
    rw [derivative_C_mul, eval_mul, eval_C]; rfl
  have h0 : derivative f = 0 := eq_zero_of_degree_lt_of_eval_finset_eq_zero _ hdeg hev
  have hC := eq_C_of_natDegree_eq_zero (natDegree_eq_zero_of_derivative_eq_zero h0)
  have hval : ∀ j < xs.length, v j = f.coeff 0 := by
    intro j hj
    have := Lagrange.eval_interpolate_at_node v hinj (mem_range.2 hj)
    rw [← this, ← hf]
    conv_lhs => rw [hC]
    simp
  rw [← hv i, hval _ (by omega), hval i (by omega), sub_self]

theorem uni_kron {I J : Type} {F : I → List K} {G : J → List K} {n m : ℕ} {P : List I} {Q : List J}
    (hF : Uni F n P) (hG : Uni G m Q) :
    Uni (fun p : I × J => Poly.kron (G p.2) (F p.1)) (m * n) (P ×ˢ Q) := by
  refine ⟨fun p => by rw [Poly.kron_length, hG.1, hF.1], fun c hc k hk => ?_⟩
  have h1 : ∀ x ∈ P, ∀ y ∈ Q, ∑ j ∈ range m, (G y).getD j 0 *
      (∑ i ∈ range n, (F x).getD i 0 * c (i + n * j)) = 0 := by
    intro x hx y hy
    have h := hc (x, y) (List.mem_product.2 ⟨hx, hy⟩)
    have e : ∑ k ∈ range (m * n), (Poly.kron (G y) (F x)).getD k 0 * c k = Poly.dot (Poly.kron (G y) (F x)) 0 c := by
      unfold Poly.dot
      rw [Poly.kron_length, hG.1, hF.1]
      simp only [zero_add]
      rfl
    refine Eq.trans ?_ (e.symm.trans h)
    rw [Poly.kron_T2, hG.1, hF.1]
    unfold Poly.T2
    refine sum_congr rfl fun j _ => ?_
    rw [mul_sum]
    refine sum_congr rfl fun i _ => ?_
    simp only [zero_add]; ring
  have h2 : ∀ x ∈ P, ∀ j < m, ∑ i ∈ range n, (F x).getD i 0 * c (i + n * j) = 0 :=
    fun x hx => hG.2 _ (h1 x hx)
  have hn : 0 < n := Nat.pos_of_ne_zero (by rintro rfl; simp at hk)
  have h3 := hF.2 (fun i => c (i + n * (k / n))) (fun x hx => h2 x hx (k / n) (Nat.div_lt_of_lt_mul (by rwa [mul_comm])))
    (k % n) (Nat.mod_lt _ hn)
  rwa [Nat.mod_add_div] at h3

/-- The reconstruction vanishes at all points only if its coefficients vanish. -/
theorem Uni.zero {I : Type} {F : I → List K} {n : ℕ} {P : List I} (h : Uni F n P) (o : ℕ) (c : ℕ → K)
    (h0 : ∀ x ∈ P, Poly.dot (F x) o c = 0) : ∀ i < n, c (o + i) = 0 :=
  h.2 (fun i => c (o + i)) fun x hx => by
    have := h0 x hx
    unfold Poly.dot at this
    rw [h.1] at this
    exact this

end Phyem.Mass
