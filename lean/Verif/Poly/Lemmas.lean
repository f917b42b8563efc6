import Verif.Poly.Model
import Mathlib.LinearAlgebra.Lagrange
import Mathlib.Analysis.Calculus.Deriv.Polynomial
import Mathlib.Tactic.Ring
import Mathlib.Tactic.FieldSimp
import Mathlib.Data.List.GetD

/-!
Lemmas: the code's formulas are values of the Lagrange polynomials and of their derivatives.
-/

namespace Phyem.Poly

open Polynomial Finset

theorem prod_range_list {M : Type*} [CommMonoid M] (f : ℕ → M) (n : ℕ) :
    ((List.range n).map f).prod = ∏ j ∈ range n, f j := rfl

theorem sum_range_list {M : Type*} [AddCommMonoid M] (f : ℕ → M) (n : ℕ) :
    ((List.range n).map f).sum = ∑ j ∈ range n, f j := rfl

variable {K : Type} [Field K]

/-- Distinct nodes. -/
def Distinct (xs : List K) : Prop := xs.Nodup

theorem Distinct.injOn {xs : List K} (h : xs.Nodup) : Set.InjOn (node xs) (range xs.length) := by
  intro i hi j hj e
  simp only [coe_range, Set.mem_Iio] at hi hj
  unfold node at e
  rw [List.getD_eq_getElem _ _ hi, List.getD_eq_getElem _ _ hj] at e
  exact (h.getElem_inj_iff).1 e

theorem foldl_mul (f : ℕ → K) (P : ℕ → Prop) [DecidablePred P] (l : List ℕ) (a : K) :
    l.foldl (fun b j => if P j then b * f j else b) a = a * (l.map fun j => if P j then f j else 1).prod := by
  induction l generalizing a with
  | nil => simp
  | cons j l ih =>
    rw [List.foldl_cons, ih, List.map_cons, List.prod_cons]
    by_cases h : P j <;> simp [h, mul_assoc]

theorem foldl_sub (f : ℕ → K) (l : List ℕ) (a : K) :
    l.foldl (fun b j => b - f j) a = a - (l.map f).sum := by
  induction l generalizing a with
  | nil => simp
  | cons j l ih => rw [List.foldl_cons, ih, List.map_cons, List.sum_cons]; ring

/-- The Lagrange polynomial of node `i`. -/
noncomputable def L (xs : List K) (i : ℕ) : K[X] := Lagrange.basis (range xs.length) (node xs) i

theorem prod_ite_erase (f : ℕ → K) (s : Finset ℕ) (i : ℕ) :
    ∏ j ∈ s, (if i ≠ j then f j else 1) = ∏ j ∈ s.erase i, f j := by
  rw [← prod_filter]
  congr 1
  ext j
  simp only [mem_filter, mem_erase]
  tauto

theorem lagrange_eq (xs : List K) (i : ℕ) (x : K) : lagrange xs i x = (L xs i).eval x := by
  unfold lagrange
  rw [foldl_mul (fun j => (x - node xs j) / (node xs i - node xs j)) (fun j => i ≠ j), one_mul,
    prod_range_list, prod_ite_erase]
  unfold L Lagrange.basis
  rw [eval_prod]
  refine prod_congr rfl fun j _ => ?_
  simp [Lagrange.basisDivisor, div_eq_inv_mul]

theorem cw_eq (xs : List K) (k : ℕ) :
    cw xs k = ∏ j ∈ (range xs.length).erase k, (node xs k - node xs j) := by
  unfold cw
  rw [prod_range_list, ← prod_ite_erase]
  refine prod_congr rfl fun j _ => ?_
  by_cases h : k = j <;> simp [h]

theorem cw_ne {xs : List K} (h : xs.Nodup) {k : ℕ} (hk : k < xs.length) : cw xs k ≠ 0 := by
  rw [cw_eq, prod_ne_zero_iff]
  intro j hj e
  rw [mem_erase, mem_range] at hj
  exact hj.1 (Distinct.injOn h (by simpa using hj.2) (by simpa using hk) (sub_eq_zero.1 e).symm)

/-- The derivative of a Lagrange polynomial at another node. -/
theorem deriv_off {xs : List K} (h : xs.Nodup) {k j : ℕ} (hk : k < xs.length) (hj : j < xs.length)
    (hkj : k ≠ j) : (derivative (L xs j)).eval (node xs k) = off xs k j := by
  have hx : node xs k - node xs j ≠ 0 := fun e =>
    hkj (Distinct.injOn h (by simpa using hk) (by simpa using hj) (sub_eq_zero.1 e))
  have hk' : k ∈ (range xs.length).erase j := by simp [hk, hkj]
  have hj' : j ∈ (range xs.length).erase k := by simp [hj, hkj.symm]
  unfold L Lagrange.basis
  rw [← mul_prod_erase _ _ hk', derivative_mul, eval_add, eval_mul, eval_mul]
  rw [Lagrange.eval_basisDivisor_right, zero_mul, add_zero]
  unfold off
  rw [if_neg hkj, cw_eq xs k, cw_eq xs j, ← mul_prod_erase _ _ hj', ← mul_prod_erase _ _ hk',
    erase_right_comm, eval_prod]
  have e1 : eval (node xs k) (derivative (Lagrange.basisDivisor (node xs j) (node xs k))) =
      (node xs j - node xs k)⁻¹ := by
    simp [Lagrange.basisDivisor]
  have e2 : ∏ l ∈ ((range xs.length).erase k).erase j,
      eval (node xs k) (Lagrange.basisDivisor (node xs j) (node xs l)) =
      (∏ l ∈ ((range xs.length).erase k).erase j, (node xs k - node xs l)) /
      ∏ l ∈ ((range xs.length).erase k).erase j, (node xs j - node xs l) := by
    rw [← prod_div_distrib]
    refine prod_congr rfl fun l _ => ?_
    simp [Lagrange.basisDivisor, div_eq_inv_mul]
  rw [e1, e2]
  have hd : ∏ l ∈ ((range xs.length).erase k).erase j, (node xs j - node xs l) ≠ 0 := by
    rw [prod_ne_zero_iff]
    intro l hl e
    rw [mem_erase, mem_erase, mem_range] at hl
    exact hl.1 (Distinct.injOn h (by simpa using hl.2.2) (by simpa using hj) (sub_eq_zero.1 e).symm)
  have hx' : node xs j - node xs k ≠ 0 := fun e => hx (by rw [← neg_sub, e, neg_zero])
  field_simp

theorem sum_deriv {xs : List K} (h : xs.Nodup) (hn : xs ≠ []) (x : K) :
    ∑ j ∈ range xs.length, (derivative (L xs j)).eval x = 0 := by
  rw [← eval_finsetSum, ← derivative_sum]
  unfold L
  rw [Lagrange.sum_basis (Distinct.injOn h) ⟨0, by simpa [List.length_pos_iff] using hn⟩]
  simp

theorem dmat_eq {xs : List K} (h : xs.Nodup) {k j : ℕ} (hk : k < xs.length) (hj : j < xs.length) :
    dmat xs k j = (derivative (L xs j)).eval (node xs k) := by
  unfold dmat
  by_cases hkj : k = j
  · subst hkj
    rw [if_pos rfl, sum_range_list]
    have := sum_deriv h (List.ne_nil_of_length_pos (by omega)) (node xs k)
    rw [← add_sum_erase _ _ (mem_range.2 hk)] at this
    rw [eq_neg_of_add_eq_zero_left this, ← add_sum_erase _ _ (mem_range.2 hk)]
    congr 1
    rw [show off xs k k = 0 by simp [off], zero_add]
    refine sum_congr rfl fun m hm => ?_
    rw [mem_erase, mem_range] at hm
    rw [deriv_off h hk hm.2 (Ne.symm hm.1)]
  · rw [if_neg hkj, deriv_off h hk hj hkj]

theorem dpoly_eq {xs : List K} (h : xs.Nodup) {j : ℕ} (hj : j < xs.length) (x : K) :
    dpoly xs j x = (derivative (L xs j)).eval x := by
  have hdeg : (derivative (L xs j)).degree < #(range xs.length) := by
    refine (degree_derivative_lt ?_).trans_le ?_
    · exact Lagrange.basis_ne_zero (Distinct.injOn h) (mem_range.2 hj)
    · unfold L
      rw [Lagrange.degree_basis (Distinct.injOn h) (mem_range.2 hj)]
      exact_mod_cast Nat.sub_le _ _
  conv_rhs => rw [Lagrange.eq_interpolate (Distinct.injOn h) hdeg]
  rw [Lagrange.interpolate_apply, eval_finsetSum]
  unfold dpoly
  rw [sum_range_list]
  refine sum_congr rfl fun k hk => ?_
  rw [eval_mul, eval_C, dmat_eq h (mem_range.1 hk) hj, lagrange_eq]
  rfl

theorem edge_eq {xs : List K} (h : xs.Nodup) {i : ℕ} (hi : i + 1 ≤ xs.length) (x : K) :
    edge xs i x = -∑ j ∈ range (i + 1), (derivative (L xs j)).eval x := by
  unfold edge
  rw [foldl_sub (fun j => dpoly xs j x), zero_sub, sum_range_list]
  congr 1
  refine sum_congr rfl fun j hj => ?_
  rw [mem_range] at hj
  exact dpoly_eq h (by omega) x

/-- Summation by parts. -/
theorem abel (v d : ℕ → K) (p : ℕ) :
    ∑ i ∈ range p, (v (i + 1) - v i) * (-∑ j ∈ range (i + 1), d j) =
      ∑ j ∈ range p, v j * d j - v p * ∑ j ∈ range p, d j := by
  induction p with
  | zero => simp
  | succ p ih => rw [sum_range_succ, ih, sum_range_succ, sum_range_succ]; ring

theorem edges_of_differences {xs : List K} (h : xs.Nodup) (v : ℕ → K) (x : K) :
    ∑ i ∈ range (xs.length - 1), (v (i + 1) - v i) * edge xs i x =
      ∑ j ∈ range xs.length, v j * (derivative (L xs j)).eval x := by
  cases hn : xs.length with
  | zero => simp
  | succ p =>
    have hs := sum_deriv h (List.ne_nil_of_length_pos (by omega)) x
    rw [hn, sum_range_succ] at hs
    rw [Nat.add_sub_cancel, sum_range_succ, eq_neg_of_add_eq_zero_right hs, mul_neg, ← sub_eq_add_neg]
    rw [← abel v (fun j => (derivative (L xs j)).eval x) p]
    refine sum_congr rfl fun i hi => ?_
    rw [mem_range] at hi
    rw [edge_eq h (by omega)]

/-! ### Tensor products -/

theorem kron_length (u v : List K) : (kron u v).length = u.length * v.length := by
  unfold kron
  rw [List.length_flatMap]
  simp

theorem sum_range_mul (f : ℕ → K) (n m : ℕ) :
    ∑ i ∈ range (n * m), f i = ∑ a ∈ range n, ∑ b ∈ range m, f (b + m * a) := by
  induction n with
  | zero => simp
  | succ n ih =>
    rw [Nat.succ_mul, sum_range_add, ih, sum_range_succ]
    congr 1
    refine sum_congr rfl fun b _ => ?_
    rw [Nat.mul_comm n m, Nat.add_comm]

theorem kron_getD (u v : List K) (a b : ℕ) (ha : a < u.length) (hb : b < v.length) :
    (kron u v).getD (b + v.length * a) 0 = u.getD a 0 * v.getD b 0 := by
  induction u generalizing a with
  | nil => simp at ha
  | cons x u ih =>
    unfold kron at ih ⊢
    rw [List.flatMap_cons]
    cases a with
    | zero =>
      rw [List.getD_append _ _ _ _ (by simpa using hb)]
      simp [List.getD, hb]
    | succ a =>
      rw [List.getD_append_right _ _ _ _ (by simp [Nat.mul_succ]; omega)]
      simp only [List.length_map, List.getD_cons_succ]
      rw [← ih a (by simpa using ha)]
      congr 1
      rw [Nat.mul_succ]; omega

theorem dot_eq (bf : List K) (o : ℕ) (c : ℕ → K) :
    dot bf o c = ∑ i ∈ range bf.length, bf.getD i 0 * c (o + i) := rfl

theorem dot_kron (u v : List K) (o : ℕ) (c : ℕ → K) :
    dot (kron u v) o c =
      ∑ a ∈ range u.length, ∑ b ∈ range v.length,
        u.getD a 0 * v.getD b 0 * c (o + (b + v.length * a)) := by
  rw [dot_eq, kron_length, sum_range_mul]
  refine sum_congr rfl fun a ha => sum_congr rfl fun b hb => ?_
  rw [kron_getD _ _ _ _ (mem_range.1 ha) (mem_range.1 hb)]

theorem dot_kron3 (u v w : List K) (o : ℕ) (c : ℕ → K) :
    dot (kron (kron u v) w) o c =
      ∑ k ∈ range u.length, ∑ j ∈ range v.length, ∑ i ∈ range w.length,
        u.getD k 0 * v.getD j 0 * w.getD i 0 * c (o + (i + w.length * (j + v.length * k))) := by
  rw [dot_kron, kron_length, sum_range_mul]
  refine sum_congr rfl fun k hk => sum_congr rfl fun j hj => sum_congr rfl fun i hi => ?_
  rw [kron_getD _ _ _ _ (mem_range.1 hk) (mem_range.1 hj)]

@[simp] theorem nodes_length (xs : List K) (x : K) : (nodes xs x).length = xs.length := by
  simp [nodes]
@[simp] theorem edges_length (xs : List K) (x : K) : (edges xs x).length = xs.length - 1 := by
  simp [edges]

theorem nodes_getD (xs : List K) (x : K) {i : ℕ} (h : i < xs.length) :
    (nodes xs x).getD i 0 = lagrange xs i x := by
  simp [nodes, List.getD, h]

theorem edges_getD (xs : List K) (x : K) {i : ℕ} (h : i < xs.length - 1) :
    (edges xs x).getD i 0 = edge xs i x := by
  simp [edges, List.getD, h]

end Phyem.Poly
