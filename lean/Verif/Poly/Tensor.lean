import Verif.Poly.Lemmas
import Verif.Incidence.Props
import Mathlib.Analysis.Calculus.Deriv.Add
import Mathlib.Analysis.Calculus.Deriv.Mul
import Mathlib.Topology.Algebra.Polynomial
import Mathlib.MeasureTheory.Integral.IntervalIntegral.FundThmCalculus

/-!
Sums over tensor products of basis functions, their derivatives and integrals.
-/

namespace Phyem.Poly

open Polynomial Finset

section
variable {K : Type} [Field K]

/-- `∑ c i j k X_i Y_j Z_k`. -/
def T3 (X Y Z : ℕ → K) (a b d : ℕ) (c : ℕ → ℕ → ℕ → K) : K :=
  ∑ k ∈ range d, ∑ j ∈ range b, ∑ i ∈ range a, Z k * Y j * X i * c i j k

/-- `∑ c i j X_i Y_j`. -/
def T2 (X Y : ℕ → K) (a b : ℕ) (c : ℕ → ℕ → K) : K :=
  ∑ j ∈ range b, ∑ i ∈ range a, Y j * X i * c i j

theorem T3_congr {X Y Z X' Y' Z' : ℕ → K} {a b d : ℕ} {c c' : ℕ → ℕ → ℕ → K}
    (hX : ∀ i < a, X i = X' i) (hY : ∀ j < b, Y j = Y' j) (hZ : ∀ k < d, Z k = Z' k)
    (hc : ∀ i < a, ∀ j < b, ∀ k < d, c i j k = c' i j k) :
    T3 X Y Z a b d c = T3 X' Y' Z' a b d c' := by
  refine sum_congr rfl fun k hk => sum_congr rfl fun j hj => sum_congr rfl fun i hi => ?_
  rw [mem_range] at hk hj hi
  rw [hX i hi, hY j hj, hZ k hk, hc i hi j hj k hk]

theorem T2_congr {X Y X' Y' : ℕ → K} {a b : ℕ} {c c' : ℕ → ℕ → K}
    (hX : ∀ i < a, X i = X' i) (hY : ∀ j < b, Y j = Y' j)
    (hc : ∀ i < a, ∀ j < b, c i j = c' i j) :
    T2 X Y a b c = T2 X' Y' a b c' := by
  refine sum_congr rfl fun j hj => sum_congr rfl fun i hi => ?_
  rw [mem_range] at hj hi
  rw [hX i hi, hY j hj, hc i hi j hj]

theorem T3_x (X Y Z : ℕ → K) (a b d : ℕ) (c : ℕ → ℕ → ℕ → K) :
    T3 X Y Z a b d c = ∑ k ∈ range d, ∑ j ∈ range b, ∑ i ∈ range a, X i * (Z k * Y j * c i j k) := by
  refine sum_congr rfl fun k _ => sum_congr rfl fun j _ => sum_congr rfl fun i _ => ?_
  ring

theorem T3_y (X Y Z : ℕ → K) (a b d : ℕ) (c : ℕ → ℕ → ℕ → K) :
    T3 X Y Z a b d c = ∑ k ∈ range d, ∑ i ∈ range a, ∑ j ∈ range b, Y j * (Z k * X i * c i j k) := by
  refine sum_congr rfl fun k _ => ?_
  rw [sum_comm]
  refine sum_congr rfl fun j _ => sum_congr rfl fun i _ => ?_
  ring

theorem T3_z (X Y Z : ℕ → K) (a b d : ℕ) (c : ℕ → ℕ → ℕ → K) :
    T3 X Y Z a b d c = ∑ j ∈ range b, ∑ i ∈ range a, ∑ k ∈ range d, Z k * (Y j * X i * c i j k) := by
  unfold T3
  rw [sum_comm]
  refine sum_congr rfl fun j _ => ?_
  rw [sum_comm]
  refine sum_congr rfl fun i _ => sum_congr rfl fun k _ => ?_
  ring

theorem T2_x (X Y : ℕ → K) (a b : ℕ) (c : ℕ → ℕ → K) :
    T2 X Y a b c = ∑ j ∈ range b, ∑ i ∈ range a, X i * (Y j * c i j) := by
  refine sum_congr rfl fun j _ => sum_congr rfl fun i _ => ?_
  ring

theorem T2_y (X Y : ℕ → K) (a b : ℕ) (c : ℕ → ℕ → K) :
    T2 X Y a b c = ∑ i ∈ range a, ∑ j ∈ range b, Y j * (X i * c i j) := by
  unfold T2
  rw [sum_comm]
  refine sum_congr rfl fun j _ => sum_congr rfl fun i _ => ?_
  ring

theorem T3_neg (X Y Z : ℕ → K) (a b d : ℕ) (c : ℕ → ℕ → ℕ → K) :
    T3 X Y Z a b d (fun i j k => -c i j k) = -T3 X Y Z a b d c := by
  simp [T3]

theorem T3_add (X Y Z : ℕ → K) (a b d : ℕ) (c c' : ℕ → ℕ → ℕ → K) :
    T3 X Y Z a b d (fun i j k => c i j k + c' i j k) = T3 X Y Z a b d c + T3 X Y Z a b d c' := by
  simp [T3, mul_add, sum_add_distrib]

theorem T3_sub (X Y Z : ℕ → K) (a b d : ℕ) (c c' : ℕ → ℕ → ℕ → K) :
    T3 X Y Z a b d (fun i j k => c i j k - c' i j k) = T3 X Y Z a b d c - T3 X Y Z a b d c' := by
  simp [T3, mul_sub, sum_sub_distrib]

theorem T2_neg (X Y : ℕ → K) (a b : ℕ) (c : ℕ → ℕ → K) :
    T2 X Y a b (fun i j => -c i j) = -T2 X Y a b c := by
  simp [T2]

theorem T2_add (X Y : ℕ → K) (a b : ℕ) (c c' : ℕ → ℕ → K) :
    T2 X Y a b (fun i j => c i j + c' i j) = T2 X Y a b c + T2 X Y a b c' := by
  simp [T2, mul_add, sum_add_distrib]

theorem T2_sub (X Y : ℕ → K) (a b : ℕ) (c c' : ℕ → ℕ → K) :
    T2 X Y a b (fun i j => c i j - c' i j) = T2 X Y a b c - T2 X Y a b c' := by
  simp [T2, mul_sub, sum_sub_distrib]

/-- The unit vector. -/
def unit (m : ℕ) (i : ℕ) : K := if i = m then 1 else 0

theorem sum_unit {n m : ℕ} (h : m < n) (f : ℕ → K) : ∑ i ∈ range n, unit m i * f i = f m := by
  rw [sum_eq_single m]
  · simp [unit]
  · intro i _ hi; simp [unit, hi]
  · intro hm; exact absurd (mem_range.2 h) hm

theorem T3_unit {a b d l m n : ℕ} (hl : l < a) (hm : m < b) (hn : n < d) (c : ℕ → ℕ → ℕ → K) :
    T3 (unit l) (unit m) (unit n) a b d c = c l m n := by
  rw [T3_x]
  simp_rw [sum_unit hl]
  simp_rw [mul_assoc, ← mul_sum, sum_unit hm, sum_unit hn]

theorem T2_unit {a b l m : ℕ} (hl : l < a) (hm : m < b) (c : ℕ → ℕ → K) :
    T2 (unit l) (unit m) a b c = c l m := by
  rw [T2_x]
  simp_rw [sum_unit hl, sum_unit hm]

theorem kron3_T3 (u v w : List K) (o : ℕ) (c : ℕ → K) :
    dot (kron (kron u v) w) o c =
      T3 (fun i => w.getD i 0) (fun j => v.getD j 0) (fun k => u.getD k 0) w.length v.length u.length
        (fun i j k => c (o + (i + w.length * (j + v.length * k)))) := dot_kron3 u v w o c

theorem kron_T2 (u v : List K) (o : ℕ) (c : ℕ → K) :
    dot (kron u v) o c =
      T2 (fun i => v.getD i 0) (fun j => u.getD j 0) v.length u.length
        (fun i j => c (o + (i + v.length * j))) := dot_kron u v o c

theorem lagrange_node {xs : List K} (h : xs.Nodup) {i k : ℕ} (hi : i < xs.length) (hk : k < xs.length) :
    lagrange xs i (node xs k) = unit k i := by
  rw [lagrange_eq]
  unfold unit L
  by_cases e : i = k
  · subst e; rw [if_pos rfl, Lagrange.eval_basis_self (Distinct.injOn h) (mem_range.2 hi)]
  · rw [if_neg e, Lagrange.eval_basis_of_ne e (mem_range.2 hk)]

end

section
variable {K : Type} [NontriviallyNormedField K]

theorem hasDerivAt_lagrange {xs : List K} (i : ℕ) (x : K) :
    HasDerivAt (fun t => lagrange xs i t) ((derivative (L xs i)).eval x) x := by
  simp_rw [lagrange_eq]
  exact (L xs i).hasDerivAt x

theorem d1 {xs : List K} (h : xs.Nodup) (c : ℕ → K) (x : K) :
    HasDerivAt (fun t => ∑ i ∈ range xs.length, lagrange xs i t * c i)
      (∑ i ∈ range (xs.length - 1), edge xs i x * (c (i + 1) - c i)) x := by
  have e : ∑ i ∈ range (xs.length - 1), edge xs i x * (c (i + 1) - c i) =
      ∑ i ∈ range xs.length, (derivative (L xs i)).eval x * c i := by
    rw [sum_congr rfl fun i _ => mul_comm (edge xs i x) _, edges_of_differences h]
    exact sum_congr rfl fun i _ => mul_comm _ _
  rw [e]
  exact HasDerivAt.fun_sum fun i _ => (hasDerivAt_lagrange i x).mul_const (c i)

theorem dX {xs : List K} (h : xs.Nodup) (Y Z : ℕ → K) (b d : ℕ) (c : ℕ → ℕ → ℕ → K) (x : K) :
    HasDerivAt (fun t => T3 (fun i => lagrange xs i t) Y Z xs.length b d c)
      (T3 (fun i => edge xs i x) Y Z (xs.length - 1) b d fun i j k => c (i + 1) j k - c i j k) x := by
  simp_rw [T3_x]
  refine HasDerivAt.fun_sum fun k _ => HasDerivAt.fun_sum fun j _ => ?_
  have := d1 h (fun i => Z k * Y j * c i j k) x
  simp_rw [← mul_sub] at this
  exact this

theorem dY {ys : List K} (h : ys.Nodup) (X Z : ℕ → K) (a d : ℕ) (c : ℕ → ℕ → ℕ → K) (y : K) :
    HasDerivAt (fun t => T3 X (fun j => lagrange ys j t) Z a ys.length d c)
      (T3 X (fun j => edge ys j y) Z a (ys.length - 1) d fun i j k => c i (j + 1) k - c i j k) y := by
  simp_rw [T3_y]
  refine HasDerivAt.fun_sum fun k _ => HasDerivAt.fun_sum fun i _ => ?_
  have := d1 h (fun j => Z k * X i * c i j k) y
  simp_rw [← mul_sub] at this
  exact this

theorem dZ {zs : List K} (h : zs.Nodup) (X Y : ℕ → K) (a b : ℕ) (c : ℕ → ℕ → ℕ → K) (z : K) :
    HasDerivAt (fun t => T3 X Y (fun k => lagrange zs k t) a b zs.length c)
      (T3 X Y (fun k => edge zs k z) a b (zs.length - 1) fun i j k => c i j (k + 1) - c i j k) z := by
  simp_rw [T3_z]
  refine HasDerivAt.fun_sum fun j _ => HasDerivAt.fun_sum fun i _ => ?_
  have := d1 h (fun k => Y j * X i * c i j k) z
  simp_rw [← mul_sub] at this
  exact this

theorem dX2 {xs : List K} (h : xs.Nodup) (Y : ℕ → K) (b : ℕ) (c : ℕ → ℕ → K) (x : K) :
    HasDerivAt (fun t => T2 (fun i => lagrange xs i t) Y xs.length b c)
      (T2 (fun i => edge xs i x) Y (xs.length - 1) b fun i j => c (i + 1) j - c i j) x := by
  simp_rw [T2_x]
  refine HasDerivAt.fun_sum fun j _ => ?_
  have := d1 h (fun i => Y j * c i j) x
  simp_rw [← mul_sub] at this
  exact this

theorem dY2 {ys : List K} (h : ys.Nodup) (X : ℕ → K) (a : ℕ) (c : ℕ → ℕ → K) (y : K) :
    HasDerivAt (fun t => T2 X (fun j => lagrange ys j t) a ys.length c)
      (T2 X (fun j => edge ys j y) a (ys.length - 1) fun i j => c i (j + 1) - c i j) y := by
  simp_rw [T2_y]
  refine HasDerivAt.fun_sum fun i _ => ?_
  have := d1 h (fun j => X i * c i j) y
  simp_rw [← mul_sub] at this
  exact this

end

/-! ### Integrals -/

theorem continuous_edge {xs : List ℝ} (h : xs.Nodup) {i : ℕ} (hi : i < xs.length - 1) :
    Continuous fun x => edge xs i x := by
  simp_rw [edge_eq h (show i + 1 ≤ xs.length by omega)]
  exact (continuous_finsetSum _ fun j _ => (derivative (L xs j)).continuous).neg

theorem integral_edge {xs : List ℝ} (h : xs.Nodup) {i k : ℕ} (hi : i < xs.length - 1)
    (hk : k < xs.length - 1) :
    ∫ x in (node xs k)..(node xs (k + 1)), edge xs i x = unit k i := by
  have hF : ∀ x, HasDerivAt (fun t => -∑ j ∈ range (i + 1), lagrange xs j t) (edge xs i x) x := by
    intro x
    rw [edge_eq h (by omega)]
    exact (HasDerivAt.fun_sum fun j _ => hasDerivAt_lagrange j x).neg
  rw [intervalIntegral.integral_eq_sub_of_hasDerivAt (fun x _ => hF x)
    ((continuous_edge h hi).intervalIntegrable _ _)]
  have e : ∀ m < xs.length, ∑ j ∈ range (i + 1), lagrange xs j (node xs m) =
      if m ≤ i then (1 : ℝ) else 0 := by
    intro m hm
    rw [sum_congr rfl fun j hj => lagrange_node h (by rw [mem_range] at hj; omega) hm]
    unfold unit
    rw [sum_ite_eq']
    simp only [mem_range, Nat.lt_succ_iff]
  rw [e _ (by omega), e _ (by omega)]
  unfold unit
  split_ifs <;> first | omega | norm_num

theorem i1 {xs : List ℝ} (h : xs.Nodup) {k : ℕ} (hk : k < xs.length - 1) (c : ℕ → ℝ) :
    ∫ x in (node xs k)..(node xs (k + 1)), (∑ i ∈ range (xs.length - 1), edge xs i x * c i) =
      ∑ i ∈ range (xs.length - 1), unit k i * c i := by
  rw [intervalIntegral.integral_finsetSum]
  · refine sum_congr rfl fun i hi => ?_
    rw [intervalIntegral.integral_mul_const, integral_edge h (mem_range.1 hi) hk]
  · intro i hi
    exact ((continuous_edge h (mem_range.1 hi)).mul continuous_const).intervalIntegrable _ _

theorem i1_int {xs : List ℝ} (h : xs.Nodup) (c : ℕ → ℝ) (a b : ℝ) :
    IntervalIntegrable (fun x => ∑ i ∈ range (xs.length - 1), edge xs i x * c i)
      MeasureTheory.volume a b := by
  refine (continuous_finsetSum _ fun i hi => ?_).intervalIntegrable _ _
  exact (continuous_edge h (mem_range.1 hi)).mul continuous_const

theorem iX {xs : List ℝ} (h : xs.Nodup) {m : ℕ} (hm : m < xs.length - 1) (Y Z : ℕ → ℝ) (b d : ℕ)
    (c : ℕ → ℕ → ℕ → ℝ) :
    ∫ x in (node xs m)..(node xs (m + 1)), T3 (fun i => edge xs i x) Y Z (xs.length - 1) b d c =
      T3 (unit m) Y Z (xs.length - 1) b d c := by
  simp_rw [T3_x]
  rw [intervalIntegral.integral_finsetSum]
  · refine sum_congr rfl fun k _ => ?_
    rw [intervalIntegral.integral_finsetSum]
    · exact sum_congr rfl fun j _ => i1 h hm _
    · exact fun j _ => i1_int h _ _ _
  · intro k _
    refine (continuous_finsetSum _ fun j _ => continuous_finsetSum _ fun i hi => ?_).intervalIntegrable _ _
    exact (continuous_edge h (mem_range.1 hi)).mul continuous_const

theorem iY {ys : List ℝ} (h : ys.Nodup) {m : ℕ} (hm : m < ys.length - 1) (X Z : ℕ → ℝ) (a d : ℕ)
    (c : ℕ → ℕ → ℕ → ℝ) :
    ∫ y in (node ys m)..(node ys (m + 1)), T3 X (fun j => edge ys j y) Z a (ys.length - 1) d c =
      T3 X (unit m) Z a (ys.length - 1) d c := by
  simp_rw [T3_y]
  rw [intervalIntegral.integral_finsetSum]
  · refine sum_congr rfl fun k _ => ?_
    rw [intervalIntegral.integral_finsetSum]
    · exact sum_congr rfl fun j _ => i1 h hm _
    · exact fun j _ => i1_int h _ _ _
  · intro k _
    refine (continuous_finsetSum _ fun j _ => continuous_finsetSum _ fun i hi => ?_).intervalIntegrable _ _
    exact (continuous_edge h (mem_range.1 hi)).mul continuous_const

theorem iZ {zs : List ℝ} (h : zs.Nodup) {m : ℕ} (hm : m < zs.length - 1) (X Y : ℕ → ℝ) (a b : ℕ)
    (c : ℕ → ℕ → ℕ → ℝ) :
    ∫ z in (node zs m)..(node zs (m + 1)), T3 X Y (fun k => edge zs k z) a b (zs.length - 1) c =
      T3 X Y (unit m) a b (zs.length - 1) c := by
  simp_rw [T3_z]
  rw [intervalIntegral.integral_finsetSum]
  · refine sum_congr rfl fun k _ => ?_
    rw [intervalIntegral.integral_finsetSum]
    · exact sum_congr rfl fun j _ => i1 h hm _
    · exact fun j _ => i1_int h _ _ _
  · intro k _
    refine (continuous_finsetSum _ fun j _ => continuous_finsetSum _ fun i hi => ?_).intervalIntegrable _ _
    exact (continuous_edge h (mem_range.1 hi)).mul continuous_const

theorem iX2 {xs : List ℝ} (h : xs.Nodup) {m : ℕ} (hm : m < xs.length - 1) (Y : ℕ → ℝ) (b : ℕ)
    (c : ℕ → ℕ → ℝ) :
    ∫ x in (node xs m)..(node xs (m + 1)), T2 (fun i => edge xs i x) Y (xs.length - 1) b c =
      T2 (unit m) Y (xs.length - 1) b c := by
  simp_rw [T2_x]
  rw [intervalIntegral.integral_finsetSum]
  · exact sum_congr rfl fun j _ => i1 h hm _
  · exact fun j _ => i1_int h _ _ _

theorem iY2 {ys : List ℝ} (h : ys.Nodup) {m : ℕ} (hm : m < ys.length - 1) (X : ℕ → ℝ) (a : ℕ)
    (c : ℕ → ℕ → ℝ) :
    ∫ y in (node ys m)..(node ys (m + 1)), T2 X (fun j => edge ys j y) a (ys.length - 1) c =
      T2 X (unit m) a (ys.length - 1) c := by
  simp_rw [T2_y]
  rw [intervalIntegral.integral_finsetSum]
  · exact sum_congr rfl fun j _ => i1 h hm _
  · exact fun j _ => i1_int h _ _ _

end Phyem.Poly
