import Verif.Recon.Model
import Verif.Poly.Lemmas
import Verif.Triangle.Commute
import Mathlib.Tactic.Ring
import Mathlib.Tactic.LinearCombination

/-! Lemmas on the reconstruction and the reconstruction matrices. -/

namespace Phyem.Recon

open Poly Triangle

variable {K : Type} [Field K]

/-- The cochain as a function of the dof. -/
def fn (c : List K) (i : ℕ) : K := c.getD i 0

theorem zip_sum (bf : List K) : ∀ (c : List K) (o : ℕ) (f : ℕ → K), bf.length = c.length →
    (∀ i < c.length, f (o + i) = c.getD i 0) → (List.zipWith (· * ·) bf c).sum = dot bf o f := by
  induction bf with
  | nil => intro c o f _ _; simp [dot]
  | cons b bf ih =>
    intro c o f hl hf
    match c with
    | [] => simp at hl
    | x :: c =>
      rw [dot_cons, List.zipWith_cons_cons, List.sum_cons, ih c (o + 1) f (by simpa using hl)]
      · have := hf 0 (by simp)
        simp only [Nat.add_zero, List.getD_cons_zero] at this
        rw [this]
      · intro i hi
        have := hf (i + 1) (by simpa using hi)
        rw [show o + 1 + i = o + (i + 1) by omega, this, List.getD_cons_succ]

theorem contract_some {bf c : List K} (h : bf.length = c.length) :
    contract bf c = some (dot bf 0 (fn c)) := by
  rw [contract, if_pos h, zip_sum bf c 0 (fn c) h (fun i _ => by rw [Nat.zero_add, fn])]

theorem contract_part {bf c : List K} {o n : ℕ} (h : bf.length = n) (hc : o + n ≤ c.length) :
    contract bf ((c.drop o).take n) = some (dot bf o (fn c)) := by
  have hl : bf.length = ((c.drop o).take n).length := by rw [List.length_take, List.length_drop]; omega
  rw [contract, if_pos hl, zip_sum bf _ o _ hl]
  intro i hi
  rw [← hl, h] at hi
  simp only [fn, List.getD_eq_getElem?_getD]
  rw [List.getElem?_take_of_lt hi, List.getElem?_drop]

theorem contract_none {bf c : List K} (h : bf.length ≠ c.length) : contract bf c = none := by
  rw [contract, if_neg h]

theorem scale_length (bf : List K) (a : K) : (scale bf a).length = bf.length := by simp [scale]

theorem dot_scale (bf : List K) (a : K) (o : ℕ) (c : ℕ → K) : dot (scale bf a) o c = dot bf o c * a := by
  induction bf generalizing o with
  | nil => simp [scale, dot]
  | cons b bf ih =>
    have : scale (b :: bf) a = b * a :: scale bf a := rfl
    rw [this, dot_cons, dot_cons, ih]
    ring

theorem dot_neg (bf : List K) (o : ℕ) (c : ℕ → K) : dot (bf.map (-·)) o c = -dot bf o c := by
  induction bf generalizing o with
  | nil => simp [dot]
  | cons b bf ih => rw [List.map_cons, dot_cons, dot_cons, ih]; ring

theorem dot_smul (bf : List K) (a : K) (o : ℕ) (c : ℕ → K) : dot bf o (fun i => a * c i) = dot bf o c * a := by
  induction bf generalizing o with
  | nil => simp [dot]
  | cons b bf ih => rw [dot_cons, dot_cons, ih]; ring

/-! The lengths of the basis functions. -/

theorem len20 (xs ys : List K) {p q : ℕ} (px : xs.length = p + 1) (py : ys.length = q + 1) (x y : K) :
    (kron (nodes ys y) (nodes xs x)).length = (p + 1) * (q + 1) := by
  rw [kron_length, nodes_length, nodes_length, px, py]; ring

theorem len21x (xs ys : List K) {p q : ℕ} (px : xs.length = p + 1) (py : ys.length = q + 1) (x y : K) :
    (kron (nodes ys y) (edges xs x)).length = p * (q + 1) := by
  rw [kron_length, nodes_length, edges_length, px, py, Nat.add_sub_cancel]; ring

theorem len21y (xs ys : List K) {p q : ℕ} (px : xs.length = p + 1) (py : ys.length = q + 1) (x y : K) :
    (kron (edges ys y) (nodes xs x)).length = (p + 1) * q := by
  rw [kron_length, nodes_length, edges_length, px, py, Nat.add_sub_cancel]; ring

theorem len22 (xs ys : List K) {p q : ℕ} (px : xs.length = p + 1) (py : ys.length = q + 1) (x y : K) :
    (kron (edges ys y) (edges xs x)).length = p * q := by
  rw [kron_length, edges_length, edges_length, px, py, Nat.add_sub_cancel, Nat.add_sub_cancel]; ring

/-- Two components: what both ways give. -/
theorem two_parts {b0 b1 c : List K} {n0 n1 : ℕ} (h0 : b0.length = n0) (h1 : b1.length = n1) (hc : c.length = n0 + n1) :
    contract b0 (c.take n0) = some (dot b0 0 (fn c)) ∧
      contract b1 (c.drop n0) = some (dot b1 n0 (fn c)) ∧
      ∀ a0 a1 : K, contract (scale b0 a0 ++ scale b1 a1) c =
        some (dot b0 0 (fn c) * a0 + dot b1 n0 (fn c) * a1) := by
  refine ⟨?_, ?_, ?_⟩
  · have := contract_part (o := 0) h0 (by omega : 0 + n0 ≤ c.length)
    rwa [List.drop_zero] at this
  · have := contract_part (o := n0) h1 (by omega : n0 + n1 ≤ c.length)
    rwa [List.take_of_length_le (by rw [List.length_drop]; omega)] at this
  · intro a0 a1
    rw [contract_some (by rw [List.length_append, scale_length, scale_length]; omega), dot_append, dot_scale, dot_scale,
      scale_length, h0, Nat.zero_add]

/-- Three components. -/
theorem three_parts {b0 b1 b2 c : List K} {n0 n1 n2 : ℕ} (h0 : b0.length = n0) (h1 : b1.length = n1) (h2 : b2.length = n2)
    (hp : 0 < n2) (hc : c.length = n0 + n1 + n2) :
    parts n0 n1 n2 [b0, b1, b2] c = some (dot b0 0 (fn c), dot b1 n0 (fn c),
        dot b2 (n0 + n1) (fn c)) ∧
      ∀ a0 a1 a2 : K, contract (scale b0 a0 ++ scale b1 a1 ++ scale b2 a2) c =
        some (dot b0 0 (fn c) * a0 + dot b1 n0 (fn c) * a1 +
          dot b2 (n0 + n1) (fn c) * a2) := by
  constructor
  · have e0 := contract_part (o := 0) h0 (by omega : 0 + n0 ≤ c.length)
    rw [List.drop_zero] at e0
    have e1 := contract_part (o := n0) h1 (by omega : n0 + n1 ≤ c.length)
    have e2 := contract_part (o := n0 + n1) h2 (by omega : n0 + n1 + n2 ≤ c.length)
    rw [List.take_of_length_le (by rw [List.length_drop]; omega)] at e2
    have t1 : (c.take (n0 + n1)).drop n0 = (c.drop n0).take n1 := by rw [List.take_drop]
    have t2 : pyTail c n2 = c.drop (n0 + n1) := by
      rw [pyTail, if_neg (by omega), show c.length - n2 = n0 + n1 by omega]
    simp only [parts, List.getD_cons_zero, List.getD_cons_succ]
    rw [e0, t1, e1, t2, e2]
    rfl
  · intro a0 a1 a2
    rw [contract_some (by simp only [List.length_append, scale_length]; omega), dot_append, dot_append, dot_scale, dot_scale,
      dot_scale]
    simp only [List.length_append, scale_length, h0, h1, Nat.zero_add]

end Phyem.Recon
