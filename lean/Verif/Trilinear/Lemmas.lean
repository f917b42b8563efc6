import Verif.Trilinear.Spec
import Verif.Poly.Lemmas
import Verif.Nonlinear.Lemmas
import Verif.Triangle.Commute
import Mathlib.Algebra.BigOperators.Ring.Finset
import Mathlib.Tactic.Ring
import Mathlib.Tactic.LinearCombination

/-! Lemmas on the arrays of trilinear terms. -/

namespace Phyem.Trilinear

open Finset Matrix

variable {K : Type} [Field K]

theorem dot_fin (row : List K) (x : ℕ → K) {n : ℕ} (h : row.length = n) :
    Poly.dot row 0 x = ∑ i ∈ range n, row.getD i 0 * x i := by
  subst h
  rw [Poly.dot, Nonlinear.sum_range_list]
  simp only [Nat.zero_add]

theorem full_add (nA nB nC : ℕ) (d e : ℕ → ℕ → ℕ → K) (x y z : ℕ → K) :
    full nA nB nC (fun i j k => d i j k + e i j k) x y z = full nA nB nC d x y z + full nA nB nC e x y z := by
  simp only [full, add_mul, sum_add_distrib]

theorem full_neg (nA nB nC : ℕ) (d : ℕ → ℕ → ℕ → K) (x y z : ℕ → K) :
    full nA nB nC (fun i j k => -d i j k) x y z = -full nA nB nC d x y z := by
  simp only [full, neg_mul, sum_neg_distrib]

theorem full_sub (nA nB nC : ℕ) (d e : ℕ → ℕ → ℕ → K) (x y z : ℕ → K) :
    full nA nB nC (fun i j k => d i j k - e i j k) x y z = full nA nB nC d x y z - full nA nB nC e x y z := by
  simp only [full, sub_mul, sum_sub_distrib]

theorem full_zero (nA nB nC : ℕ) (x y z : ℕ → K) : full nA nB nC (fun _ _ _ => (0 : K)) x y z = 0 := by
  simp [full]

theorem full_mul (nA nB nC : ℕ) (f g h : ℕ → K) (m : K) (x y z : ℕ → K) :
    full nA nB nC (fun i j k => f i * g j * h k * m) x y z =
      m * (∑ i ∈ range nA, f i * x i) * (∑ j ∈ range nB, g j * y j) * (∑ k ∈ range nC, h k * z k) := by
  have inner : ∀ i j, (∑ k ∈ range nC, f i * g j * h k * m * x i * y j * z k) =
      m * (f i * x i) * (g j * y j) * ∑ k ∈ range nC, h k * z k := by
    intro i j
    rw [mul_sum]
    exact sum_congr rfl fun k _ => by ring
  simp only [full, inner, ← sum_mul, ← mul_sum]

/-- The sum over the points. -/
theorem full_ein {la lb lc nA nB nC : ℕ} {pts : List (Pt K)} (hf : Fits la lb lc nA nB nC pts) {r s t : ℕ} (hr : r < la)
    (hs : s < lb) (ht : t < lc) (x y z : ℕ → K) :
    full nA nB nC (ein pts r s t) x y z = (pts.map fun q => q.m * (field q.a x).getD r 0 * (field q.b y).getD s 0 *
      (field q.c z).getD t 0).sum := by
  induction pts with
  | nil =>
    have : ein ([] : List (Pt K)) r s t = fun _ _ _ => 0 := by funext i j k; simp [ein]
    rw [this, full_zero]
    rfl
  | cons q pts ih =>
    have e : ein (q :: pts) r s t = fun i j k => (at_ q.a r i * at_ q.b s j * at_ q.c t k * q.m) + ein pts r s t i j k := by
      funext i j k; simp [ein]
    have one : ∀ {l n c : ℕ} {rm : List (List K)}, rm.length = l → (∀ row ∈ rm, row.length = n) → c < l → ∀ w : ℕ → K,
        ∑ i ∈ range n, at_ rm c i * w i = (field rm w).getD c 0 := by
      intro l n c rm hl hrow hc w
      have hc' : c < rm.length := by omega
      have g : rm.getD c [] = rm[c] := by simp [List.getD_eq_getElem?_getD, hc']
      have : (field rm w).getD c 0 = Poly.dot (rm.getD c []) 0 w := by
        simp [field, List.getD_eq_getElem?_getD, hc']
      rw [this, dot_fin _ w (n := n) (by rw [g]; exact hrow _ (List.getElem_mem hc'))]
      rfl
    obtain ⟨⟨a1, a2⟩, ⟨b1, b2⟩, c1, c2⟩ := hf q (by simp)
    rw [e, full_add, full_mul, ih (fun q' h' => hf q' (by simp [h'])), one a1 a2 hr, one b1 b2 hs, one c1 c2 ht]
    simp

end Phyem.Trilinear
