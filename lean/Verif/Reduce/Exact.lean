import Verif.Reduce.Commute3
import Verif.Poly.Props
import Mathlib.Analysis.SpecialFunctions.Integrals.Basic

/-! Quadrature rules that are exact for polynomials. -/

namespace Phyem.Reduce

open Set Numbering Incidence Poly Polynomial

/-- The rule with points `qs` and weights `ws` is exact on `[-1, 1]` for the powers up to `n`. -/
def ExactTo (n : ℕ) (qs ws : List ℝ) : Prop :=
  ∀ k ≤ n, (List.zipWith (fun t w => w * t ^ k) qs ws).sum = ∫ t in (-1 : ℝ)..1, t ^ k

lemma zip_add (g h : ℝ → ℝ) (qs ws : List ℝ) :
    (List.zipWith (fun t w => w * (g t + h t)) qs ws).sum =
      (List.zipWith (fun t w => w * g t) qs ws).sum + (List.zipWith (fun t w => w * h t) qs ws).sum := by
  induction qs generalizing ws with
  | nil => simp
  | cons t qs ih =>
    cases ws with
    | nil => simp
    | cons w ws => simp only [List.zipWith_cons_cons, List.sum_cons, ih]; ring

lemma zip_mul (g : ℝ → ℝ) (c : ℝ) (qs ws : List ℝ) :
    (List.zipWith (fun t w => w * (g t * c)) qs ws).sum = (List.zipWith (fun t w => w * g t) qs ws).sum * c := by
  induction qs generalizing ws with
  | nil => simp
  | cons t qs ih =>
    cases ws with
    | nil => simp
    | cons w ws => simp only [List.zipWith_cons_cons, List.sum_cons, ih]; ring

lemma zip_sum {ι : Type} (s : Finset ι) (g : ι → ℝ → ℝ) (qs ws : List ℝ) :
    (List.zipWith (fun t w => w * ∑ i ∈ s, g i t) qs ws).sum = ∑ i ∈ s, (List.zipWith (fun t w => w * g i t) qs ws).sum := by
  classical
  induction s using Finset.induction_on with
  | empty =>
    simp only [Finset.sum_empty, mul_zero]
    exact List.sum_eq_zero fun x hx => by
      obtain ⟨i, hi⟩ := List.mem_iff_getElem.1 hx
      obtain ⟨_, rfl⟩ := hi
      simp
  | insert a s ha ih => simp only [Finset.sum_insert ha, zip_add, ih]

/-- Exact for a polynomial on the reference interval. -/
lemma zip_poly {n : ℕ} {qs ws : List ℝ} (h : ExactTo n qs ws) (g : ℝ[X]) (hg : g.natDegree ≤ n) :
    (List.zipWith (fun t w => w * g.eval t) qs ws).sum = ∫ t in (-1 : ℝ)..1, g.eval t := by
  have e : ∀ t, g.eval t = ∑ k ∈ Finset.range (n + 1), t ^ k * g.coeff k := fun t => by
    rw [eval_eq_sum_range' (Nat.lt_succ_of_le hg)]
    exact Finset.sum_congr rfl fun k _ => mul_comm _ _
  simp_rw [e]
  rw [zip_sum, intervalIntegral.integral_finsetSum]
  · refine Finset.sum_congr rfl fun k hk => ?_
    rw [zip_mul, h k (by rw [Finset.mem_range] at hk; omega), intervalIntegral.integral_mul_const]
  · intro k _
    exact ((continuous_pow k).mul continuous_const).intervalIntegrable _ _

/-- Exact for a polynomial on any interval. -/
lemma rule_poly {n : ℕ} {qs ws : List ℝ} (h : ExactTo n qs ws) (g : ℝ[X]) (hg : g.natDegree ≤ n) (a b : ℝ) :
    rule qs ws (fun x => g.eval x) a b = ∫ x in a..b, g.eval x := by
  let l : ℝ[X] := C ((b - a) / 2) * X + C (a + (b - a) / 2)
  have hl : ∀ t, l.eval t = (b - a) / 2 * t + (a + (b - a) / 2) := fun t => by simp [l]
  have hd : (g.comp l).natDegree ≤ n := by
    refine le_trans natDegree_comp_le ?_
    have : l.natDegree ≤ 1 := natDegree_linear_le
    calc g.natDegree * l.natDegree ≤ n * 1 := Nat.mul_le_mul hg this
      _ = n := Nat.mul_one n
  have hz := zip_poly h (g.comp l) hd
  simp only [eval_comp, hl] at hz
  have hi := intervalIntegral.smul_integral_comp_mul_add (a := -1) (b := 1) (fun x => g.eval x) ((b - a) / 2) (a + (b - a) / 2)
  rw [← hz] at hi
  have e1 : (b - a) / 2 * -1 + (a + (b - a) / 2) = a := by ring
  have e2 : (b - a) / 2 * 1 + (a + (b - a) / 2) = b := by ring
  rw [e1, e2] at hi
  rw [← hi, rule, smul_eq_mul]
  congr 3
  funext t w
  congr 2
  ring

/-- `g` is, on the reference interval, a polynomial of degree at most `n`. -/
def PolyOn (n : ℕ) (g : ℝ → ℝ) : Prop := ∃ P : ℝ[X], P.natDegree ≤ n ∧ ∀ x ∈ I, g x = P.eval x

/-- The error vanishes for polynomials. -/
lemma err_zero {n : ℕ} {qs ws : List ℝ} (h : ExactTo n qs ws) (hq : ∀ t ∈ qs, t ∈ I) {g : ℝ → ℝ} (hg : PolyOn n g) {a b : ℝ}
    (ha : a ∈ I) (hb : b ∈ I) : err qs ws g a b = 0 := by
  obtain ⟨P, hP, e⟩ := hg
  rw [err, rule_congr hq e ha hb, rule_poly h P hP, abs_eq_zero, sub_eq_zero]
  exact intervalIntegral.integral_congr fun x hx => (e x (sub_I ha hb hx)).symm

lemma rule_sum {ι : Type} (s : Finset ι) (g : ι → ℝ → ℝ) (qs ws : List ℝ) (a b : ℝ) :
    rule qs ws (fun x => ∑ i ∈ s, g i x) a b = ∑ i ∈ s, rule qs ws (g i) a b := by
  unfold rule
  rw [zip_sum s (fun i t => g i (a + (b - a) / 2 * (t + 1))), Finset.mul_sum]

lemma rule_mul_const (g : ℝ → ℝ) (c : ℝ) (qs ws : List ℝ) (a b : ℝ) :
    rule qs ws (fun x => g x * c) a b = rule qs ws g a b * c := by
  unfold rule
  rw [zip_mul (fun t => g (a + (b - a) / 2 * (t + 1))), mul_assoc]

/-- The rule applied to the edge functions. -/
lemma rule_edge {xs : List ℝ} (h : xs.Nodup) {qs ws : List ℝ} (hq : ExactTo (xs.length - 2) qs ws) {i k : ℕ}
    (hi : i < xs.length - 1) (hk : k < xs.length - 1) :
    rule qs ws (fun x => edge xs i x) (node xs k) (node xs (k + 1)) = unit k i := by
  have e : ∀ x, edge xs i x = (-∑ j ∈ Finset.range (i + 1), derivative (L xs j)).eval x := fun x => by
    rw [edge_eq h (by omega), eval_neg, eval_finsetSum]
  rw [← integral_edge h hi hk]
  simp_rw [e]
  refine rule_poly hq _ ?_ _ _
  rw [natDegree_neg]
  refine natDegree_sum_le_of_forall_le _ _ fun j hj => ?_
  rw [Finset.mem_range] at hj
  refine le_trans (natDegree_derivative_le _) ?_
  have : (L xs j).natDegree = xs.length - 1 := by
    rw [L, Lagrange.natDegree_basis (Distinct.injOn h) (Finset.mem_range.2 (by omega)), Finset.card_range]
  omega

lemma r1 {xs : List ℝ} (h : xs.Nodup) {qs ws : List ℝ} (hq : ExactTo (xs.length - 2) qs ws) {k : ℕ} (hk : k < xs.length - 1)
    (c : ℕ → ℝ) :
    rule qs ws (fun x => ∑ i ∈ Finset.range (xs.length - 1), edge xs i x * c i) (node xs k) (node xs (k + 1)) =
      ∑ i ∈ Finset.range (xs.length - 1), unit k i * c i := by
  rw [rule_sum]
  refine Finset.sum_congr rfl fun i hi => ?_
  rw [rule_mul_const, rule_edge h hq (Finset.mem_range.1 hi) hk]

section
variable {qs ws : List ℝ}

lemma rX {xs : List ℝ} (h : xs.Nodup) (hq : ExactTo (xs.length - 2) qs ws) {m : ℕ} (hm : m < xs.length - 1) (Y Z : ℕ → ℝ)
    (b d : ℕ) (c : ℕ → ℕ → ℕ → ℝ) :
    rule qs ws (fun x => T3 (fun i => edge xs i x) Y Z (xs.length - 1) b d c) (node xs m) (node xs (m + 1)) =
      T3 (unit m) Y Z (xs.length - 1) b d c := by
  simp_rw [T3_x]
  rw [rule_sum]
  refine Finset.sum_congr rfl fun k _ => ?_
  rw [rule_sum]
  exact Finset.sum_congr rfl fun j _ => r1 h hq hm _

lemma rY {ys : List ℝ} (h : ys.Nodup) (hq : ExactTo (ys.length - 2) qs ws) {m : ℕ} (hm : m < ys.length - 1) (X Z : ℕ → ℝ)
    (a d : ℕ) (c : ℕ → ℕ → ℕ → ℝ) :
    rule qs ws (fun y => T3 X (fun j => edge ys j y) Z a (ys.length - 1) d c) (node ys m) (node ys (m + 1)) =
      T3 X (unit m) Z a (ys.length - 1) d c := by
  simp_rw [T3_y]
  rw [rule_sum]
  refine Finset.sum_congr rfl fun k _ => ?_
  rw [rule_sum]
  exact Finset.sum_congr rfl fun j _ => r1 h hq hm _

lemma rZ {zs : List ℝ} (h : zs.Nodup) (hq : ExactTo (zs.length - 2) qs ws) {m : ℕ} (hm : m < zs.length - 1) (X Y : ℕ → ℝ)
    (a b : ℕ) (c : ℕ → ℕ → ℕ → ℝ) :
    rule qs ws (fun z => T3 X Y (fun k => edge zs k z) a b (zs.length - 1) c) (node zs m) (node zs (m + 1)) =
      T3 X Y (unit m) a b (zs.length - 1) c := by
  simp_rw [T3_z]
  rw [rule_sum]
  refine Finset.sum_congr rfl fun k _ => ?_
  rw [rule_sum]
  exact Finset.sum_congr rfl fun j _ => r1 h hq hm _

lemma rX2 {xs : List ℝ} (h : xs.Nodup) (hq : ExactTo (xs.length - 2) qs ws) {m : ℕ} (hm : m < xs.length - 1) (Y : ℕ → ℝ)
    (b : ℕ) (c : ℕ → ℕ → ℝ) :
    rule qs ws (fun x => T2 (fun i => edge xs i x) Y (xs.length - 1) b c) (node xs m) (node xs (m + 1)) =
      T2 (unit m) Y (xs.length - 1) b c := by
  simp_rw [T2_x]
  rw [rule_sum]
  exact Finset.sum_congr rfl fun j _ => r1 h hq hm _

lemma rY2 {ys : List ℝ} (h : ys.Nodup) (hq : ExactTo (ys.length - 2) qs ws) {m : ℕ} (hm : m < ys.length - 1) (X : ℕ → ℝ)
    (a : ℕ) (c : ℕ → ℕ → ℝ) :
    rule qs ws (fun y => T2 X (fun j => edge ys j y) a (ys.length - 1) c) (node ys m) (node ys (m + 1)) =
      T2 X (unit m) a (ys.length - 1) c := by
  simp_rw [T2_y]
  rw [rule_sum]
  exact Finset.sum_congr rfl fun j _ => r1 h hq hm _

end

end Phyem.Reduce
