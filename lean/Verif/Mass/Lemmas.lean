import Verif.Mass.Model
import Mathlib.Algebra.BigOperators.Ring.Finset
import Mathlib.Algebra.BigOperators.Group.Finset.Sigma
import Mathlib.Algebra.BigOperators.Intervals
import Mathlib.Tactic.Ring
import Mathlib.Tactic.LinearCombination

namespace Phyem.Mass

open Finset

variable {K : Type} [Field K]

/-- The bilinear form of a matrix with `N` rows and columns. -/
def form (N : ℕ) (M : ℕ → ℕ → K) (a b : ℕ → K) : K := ∑ i ∈ range N, ∑ j ∈ range N, a i * M i j * b j

/-- Component `r` of the reconstruction of `c` at a point, on the reference element. -/
def rec (q : Pt K) (r n o : ℕ) (c : ℕ → K) : K := ∑ i ∈ range n, comp q r i * c (o + i)

theorem listSum_mul (l : List (Pt K)) (f : Pt K → K) (x : K) :
    (l.map f).sum * x = (l.map fun q => f q * x).sum := by
  induction l with
  | nil => simp
  | cons q l ih => simp only [List.map_cons, List.sum_cons, add_mul, ih]

theorem listSum_comm (l : List (Pt K)) (N : ℕ) (f : ℕ → Pt K → K) :
    ∑ i ∈ range N, (l.map (f i)).sum = (l.map fun q => ∑ i ∈ range N, f i q).sum := by
  induction l with
  | nil => simp
  | cons q l ih => simp only [List.map_cons, List.sum_cons, sum_add_distrib, ih]

theorem form_einsum (pts : List (Pt K)) (met : Pt K → K) (r s n m o p : ℕ) (a b : ℕ → K) :
    ∑ i ∈ range n, ∑ j ∈ range m, a (o + i) * einsum pts met r s i j * b (p + j) =
      (pts.map fun q => met q * rec q r n o a * rec q s m p b).sum := by
  have e : ∀ i j, a (o + i) * einsum pts met r s i j * b (p + j) =
      (pts.map fun q => met q * (comp q r i * a (o + i)) * (comp q s j * b (p + j))).sum := by
    intro i j
    unfold einsum
    rw [mul_comm (a _), mul_assoc, listSum_mul]
    congr 1
    apply List.map_congr_left
    intro q _
    ring
  simp only [e]
  simp only [listSum_comm]
  congr 1
  apply List.map_congr_left
  intro q _
  unfold rec
  rw [mul_assoc, sum_mul_sum, mul_sum]
  apply sum_congr rfl
  intro i _
  rw [mul_sum]
  apply sum_congr rfl
  intro j _
  ring

theorem form_einsum_t (pts : List (Pt K)) (met : Pt K → K) (r s n m o p : ℕ) (a b : ℕ → K) :
    ∑ i ∈ range n, ∑ j ∈ range m, a (o + i) * einsum pts met r s j i * b (p + j) =
      (pts.map fun q => met q * rec q s n o a * rec q r m p b).sum := by
  rw [sum_comm]
  have := form_einsum pts met r s m n p o b a
  have e : ∀ j i, a (o + i) * einsum pts met r s j i * b (p + j) = b (p + j) * einsum pts met r s j i * a (o + i) := by
    intros; ring
  simp only [e, this]
  congr 1
  apply List.map_congr_left
  intro q _
  ring

theorem neg_listSum (l : List (Pt K)) (f : Pt K → K) : -(l.map f).sum = (l.map fun q => -f q).sum := by
  induction l with
  | nil => simp
  | cons q l ih => simp only [List.map_cons, List.sum_cons, ← ih]; ring

theorem neg_einsum (pts : List (Pt K)) (met : Pt K → K) (r s i j : ℕ) :
    -einsum pts met r s i j = einsum pts (fun q => -met q) r s i j := by
  unfold einsum
  rw [neg_listSum]
  congr 1
  apply List.map_congr_left
  intro q _
  ring

/-- A block matrix. -/
theorem form_block2 (n0 n1 : ℕ) (B : ℕ → ℕ → ℕ → ℕ → K) (a b : ℕ → K) :
    form (n0 + n1) (block2 n0 B) a b =
      ∑ i ∈ range n0, ∑ j ∈ range n0, a (0 + i) * B 0 0 i j * b (0 + j) +
      ∑ i ∈ range n0, ∑ j ∈ range n1, a (0 + i) * B 0 1 i j * b (n0 + j) +
      ∑ i ∈ range n1, ∑ j ∈ range n0, a (n0 + i) * B 1 0 i j * b (0 + j) +
      ∑ i ∈ range n1, ∑ j ∈ range n1, a (n0 + i) * B 1 1 i j * b (n0 + j) := by
  unfold form
  have h : ∀ i, ∑ j ∈ range (n0 + n1), a i * block2 n0 B i j * b j =
      ∑ j ∈ range n0, a i * block2 n0 B i j * b j + ∑ j ∈ range n1, a i * block2 n0 B i (n0 + j) * b (n0 + j) := by
    intro i; rw [sum_range_add]
  simp only [h]
  rw [sum_range_add]
  simp only [sum_add_distrib]
  have e00 : ∀ i ∈ range n0, ∀ j ∈ range n0, block2 n0 B i j = B 0 0 i j := by
    intro i hi j hj; simp [block2, mem_range.1 hi, mem_range.1 hj]
  have e01 : ∀ i ∈ range n0, ∀ j ∈ range n1, block2 n0 B i (n0 + j) = B 0 1 i j := by
    intro i hi j hj; simp [block2, mem_range.1 hi]
  have e10 : ∀ i ∈ range n1, ∀ j ∈ range n0, block2 n0 B (n0 + i) j = B 1 0 i j := by
    intro i hi j hj; simp [block2, mem_range.1 hj]
  have e11 : ∀ i ∈ range n1, ∀ j ∈ range n1, block2 n0 B (n0 + i) (n0 + j) = B 1 1 i j := by
    intro i hi j hj; simp [block2]
  have s00 : ∑ i ∈ range n0, ∑ j ∈ range n0, a i * block2 n0 B i j * b j =
      ∑ i ∈ range n0, ∑ j ∈ range n0, a i * B 0 0 i j * b j :=
    sum_congr rfl fun i hi => sum_congr rfl fun j hj => by rw [e00 i hi j hj]
  have s01 : ∑ i ∈ range n0, ∑ j ∈ range n1, a i * block2 n0 B i (n0 + j) * b (n0 + j) =
      ∑ i ∈ range n0, ∑ j ∈ range n1, a i * B 0 1 i j * b (n0 + j) :=
    sum_congr rfl fun i hi => sum_congr rfl fun j hj => by rw [e01 i hi j hj]
  have s10 : ∑ i ∈ range n1, ∑ j ∈ range n0, a (n0 + i) * block2 n0 B (n0 + i) j * b j =
      ∑ i ∈ range n1, ∑ j ∈ range n0, a (n0 + i) * B 1 0 i j * b j :=
    sum_congr rfl fun i hi => sum_congr rfl fun j hj => by rw [e10 i hi j hj]
  have s11 : ∑ i ∈ range n1, ∑ j ∈ range n1, a (n0 + i) * block2 n0 B (n0 + i) (n0 + j) * b (n0 + j) =
      ∑ i ∈ range n1, ∑ j ∈ range n1, a (n0 + i) * B 1 1 i j * b (n0 + j) :=
    sum_congr rfl fun i hi => sum_congr rfl fun j hj => by rw [e11 i hi j hj]
  rw [s00, s01, s10, s11]
  simp only [zero_add]
  ring

theorem form_block3 (n0 n1 n2 : ℕ) (B : ℕ → ℕ → ℕ → ℕ → K) (a b : ℕ → K) :
    form (n0 + n1 + n2) (block3 n0 n1 B) a b =
      ∑ i ∈ range n0, ∑ j ∈ range n0, a (0 + i) * B 0 0 i j * b (0 + j) +
      ∑ i ∈ range n0, ∑ j ∈ range n1, a (0 + i) * B 0 1 i j * b (n0 + j) +
      ∑ i ∈ range n0, ∑ j ∈ range n2, a (0 + i) * B 0 2 i j * b (n0 + n1 + j) +
      ∑ i ∈ range n1, ∑ j ∈ range n0, a (n0 + i) * B 1 0 i j * b (0 + j) +
      ∑ i ∈ range n1, ∑ j ∈ range n1, a (n0 + i) * B 1 1 i j * b (n0 + j) +
      ∑ i ∈ range n1, ∑ j ∈ range n2, a (n0 + i) * B 1 2 i j * b (n0 + n1 + j) +
      ∑ i ∈ range n2, ∑ j ∈ range n0, a (n0 + n1 + i) * B 2 0 i j * b (0 + j) +
      ∑ i ∈ range n2, ∑ j ∈ range n1, a (n0 + n1 + i) * B 2 1 i j * b (n0 + j) +
      ∑ i ∈ range n2, ∑ j ∈ range n2, a (n0 + n1 + i) * B 2 2 i j * b (n0 + n1 + j) := by
  unfold form
  have h : ∀ i, ∑ j ∈ range (n0 + n1 + n2), a i * block3 n0 n1 B i j * b j =
      ∑ j ∈ range n0, a i * block3 n0 n1 B i j * b j +
      ∑ j ∈ range n1, a i * block3 n0 n1 B i (n0 + j) * b (n0 + j) +
      ∑ j ∈ range n2, a i * block3 n0 n1 B i (n0 + n1 + j) * b (n0 + n1 + j) := by
    intro i; rw [sum_range_add, sum_range_add]
  simp only [h]
  rw [sum_range_add, sum_range_add]
  simp only [sum_add_distrib]
  have e00 : ∀ i ∈ range n0, ∀ j ∈ range n0, block3 n0 n1 B i j = B 0 0 i j := by
    intro i hi j hj; simp [block3, mem_range.1 hi, mem_range.1 hj]
  have e01 : ∀ i ∈ range n0, ∀ j ∈ range n1, block3 n0 n1 B i (n0 + j) = B 0 1 i j := by
    intro i hi j hj; simp [block3, mem_range.1 hi, mem_range.1 hj]
  have e02 : ∀ i ∈ range n0, ∀ j ∈ range n2, block3 n0 n1 B i (n0 + n1 + j) = B 0 2 i j := by
    intro i hi j hj
    have h1 : ¬ n0 + n1 + j < n0 := by omega
    simp [block3, mem_range.1 hi, h1]
  have e10 : ∀ i ∈ range n1, ∀ j ∈ range n0, block3 n0 n1 B (n0 + i) j = B 1 0 i j := by
    intro i hi j hj; simp [block3, mem_range.1 hi, mem_range.1 hj]
  have e11 : ∀ i ∈ range n1, ∀ j ∈ range n1, block3 n0 n1 B (n0 + i) (n0 + j) = B 1 1 i j := by
    intro i hi j hj; simp [block3, mem_range.1 hi, mem_range.1 hj]
  have e12 : ∀ i ∈ range n1, ∀ j ∈ range n2, block3 n0 n1 B (n0 + i) (n0 + n1 + j) = B 1 2 i j := by
    intro i hi j hj
    have h1 : ¬ n0 + n1 + j < n0 := by omega
    simp [block3, mem_range.1 hi, h1]
  have e20 : ∀ i ∈ range n2, ∀ j ∈ range n0, block3 n0 n1 B (n0 + n1 + i) j = B 2 0 i j := by
    intro i hi j hj
    have h1 : ¬ n0 + n1 + i < n0 := by omega
    simp [block3, mem_range.1 hj, h1]
  have e21 : ∀ i ∈ range n2, ∀ j ∈ range n1, block3 n0 n1 B (n0 + n1 + i) (n0 + j) = B 2 1 i j := by
    intro i hi j hj
    have h1 : ¬ n0 + n1 + i < n0 := by omega
    simp [block3, mem_range.1 hj, h1]
  have e22 : ∀ i ∈ range n2, ∀ j ∈ range n2, block3 n0 n1 B (n0 + n1 + i) (n0 + n1 + j) = B 2 2 i j := by
    intro i hi j hj
    have h1 : ¬ n0 + n1 + i < n0 := by omega
    have h2 : ¬ n0 + n1 + j < n0 := by omega
    simp [block3, h1, h2]
  have s00 : ∑ i ∈ range n0, ∑ j ∈ range n0, a i * block3 n0 n1 B i j * b j =
      ∑ i ∈ range n0, ∑ j ∈ range n0, a i * B 0 0 i j * b j :=
    sum_congr rfl fun i hi => sum_congr rfl fun j hj => by rw [e00 i hi j hj]
  have s01 : ∑ i ∈ range n0, ∑ j ∈ range n1, a i * block3 n0 n1 B i (n0 + j) * b (n0 + j) =
      ∑ i ∈ range n0, ∑ j ∈ range n1, a i * B 0 1 i j * b (n0 + j) :=
    sum_congr rfl fun i hi => sum_congr rfl fun j hj => by rw [e01 i hi j hj]
  have s02 : ∑ i ∈ range n0, ∑ j ∈ range n2, a i * block3 n0 n1 B i (n0 + n1 + j) * b (n0 + n1 + j) =
      ∑ i ∈ range n0, ∑ j ∈ range n2, a i * B 0 2 i j * b (n0 + n1 + j) :=
    sum_congr rfl fun i hi => sum_congr rfl fun j hj => by rw [e02 i hi j hj]
  have s10 : ∑ i ∈ range n1, ∑ j ∈ range n0, a (n0 + i) * block3 n0 n1 B (n0 + i) j * b j =
      ∑ i ∈ range n1, ∑ j ∈ range n0, a (n0 + i) * B 1 0 i j * b j :=
    sum_congr rfl fun i hi => sum_congr rfl fun j hj => by rw [e10 i hi j hj]
  have s11 : ∑ i ∈ range n1, ∑ j ∈ range n1, a (n0 + i) * block3 n0 n1 B (n0 + i) (n0 + j) * b (n0 + j) =
      ∑ i ∈ range n1, ∑ j ∈ range n1, a (n0 + i) * B 1 1 i j * b (n0 + j) :=
    sum_congr rfl fun i hi => sum_congr rfl fun j hj => by rw [e11 i hi j hj]
  have s12 : ∑ i ∈ range n1, ∑ j ∈ range n2, a (n0 + i) * block3 n0 n1 B (n0 + i) (n0 + n1 + j) * b (n0 + n1 + j) =
      ∑ i ∈ range n1, ∑ j ∈ range n2, a (n0 + i) * B 1 2 i j * b (n0 + n1 + j) :=
    sum_congr rfl fun i hi => sum_congr rfl fun j hj => by rw [e12 i hi j hj]
  have s20 : ∑ i ∈ range n2, ∑ j ∈ range n0, a (n0 + n1 + i) * block3 n0 n1 B (n0 + n1 + i) j * b j =
      ∑ i ∈ range n2, ∑ j ∈ range n0, a (n0 + n1 + i) * B 2 0 i j * b j :=
    sum_congr rfl fun i hi => sum_congr rfl fun j hj => by rw [e20 i hi j hj]
  have s21 : ∑ i ∈ range n2, ∑ j ∈ range n1, a (n0 + n1 + i) * block3 n0 n1 B (n0 + n1 + i) (n0 + j) * b (n0 + j) =
      ∑ i ∈ range n2, ∑ j ∈ range n1, a (n0 + n1 + i) * B 2 1 i j * b (n0 + j) :=
    sum_congr rfl fun i hi => sum_congr rfl fun j hj => by rw [e21 i hi j hj]
  have s22 : ∑ i ∈ range n2, ∑ j ∈ range n2, a (n0 + n1 + i) * block3 n0 n1 B (n0 + n1 + i) (n0 + n1 + j) * b (n0 + n1 + j) =
      ∑ i ∈ range n2, ∑ j ∈ range n2, a (n0 + n1 + i) * B 2 2 i j * b (n0 + n1 + j) :=
    sum_congr rfl fun i hi => sum_congr rfl fun j hj => by rw [e22 i hi j hj]
  rw [s00, s01, s02, s10, s11, s12, s20, s21, s22]
  simp only [zero_add]
  ring

end Phyem.Mass
