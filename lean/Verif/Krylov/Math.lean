import Verif.Krylov.Refine
import Verif.Krylov.Spec
import Mathlib.LinearAlgebra.LinearIndependent.Lemmas
import Mathlib.LinearAlgebra.Matrix.DotProduct
import Mathlib.LinearAlgebra.Dimension.Constructions
import Mathlib.Tactic.Module

/-!
# Iterative solvers: the sequential loop
-/

namespace Phyem.Krylov

open Matrix Finset

variable {n : ℕ}

theorem norm2_sq (v : Vec n) : norm2 v ^ 2 = v ⬝ᵥ v := by
  unfold norm2
  rw [Real.sq_sqrt (sum_nonneg fun i _ => sq_nonneg _)]
  exact sum_congr rfl fun i _ => sq (v i)

theorem norm2_nonneg (v : Vec n) : 0 ≤ norm2 v := Real.sqrt_nonneg _

theorem dot_nonneg (v : Vec n) : 0 ≤ v ⬝ᵥ v := by
  rw [← norm2_sq]
  exact sq_nonneg _

theorem norm2_eq_zero {v : Vec n} : norm2 v = 0 ↔ v = 0 := by
  constructor
  · intro h
    have := norm2_sq v
    rw [h] at this
    exact dotProduct_self_eq_zero.mp (by rw [← this]; ring)
  · rintro rfl
    simp [norm2]

theorem norm2_le {v w : Vec n} (h : v ⬝ᵥ v ≤ w ⬝ᵥ w) : norm2 v ≤ norm2 w := by
  rw [← norm2_sq, ← norm2_sq] at h
  exact le_of_sq_le_sq h (norm2_nonneg w)
where
  le_of_sq_le_sq {a b : ℝ} (h : a ^ 2 ≤ b ^ 2) (hb : 0 ≤ b) : a ≤ b := by
    by_contra hn
    push Not at hn
    nlinarith

theorem size_eq (A : Matrix (Fin n) (Fin n) ℝ) (f x : Vec n) : size A f x = norm2 (f - A *ᵥ x) := rfl

/-- What holds before the turn `j` of the inner loop. -/
structure QInv (m : ℕ) (U : ℕ → Vec n → Vec n) (j : ℕ) (q : Q n) : Prop where
  orth : ∀ a ≤ j, ∀ b ≤ j, a < m → b < m → q.v a ⬝ᵥ q.v b = if a = b then 1 else 0
  col : ∀ b < j, b + 1 < m → U b (q.v b) = ∑ a ∈ range (b + 2), q.H a b • q.v a
  sub : ∀ b < j, b + 1 < m → q.H (b + 1) b ≠ 0
  last : ∀ b < j, b + 1 = m → ∃ hat, U b (q.v b) = ∑ a ∈ range m, q.H a b • q.v a + hat ∧
    (∀ a < m, hat ⬝ᵥ q.v a = 0) ∧ hat ⬝ᵥ hat = q.H m b ^ 2
  zero : ∀ b < j, ∀ a, b + 1 < a → q.H a b = 0

theorem hat_orth {m j : ℕ} {u : Vec n} {v : ℕ → Vec n} (hj : j < m)
    (orth : ∀ a ≤ j, ∀ b ≤ j, a < m → b < m → v a ⬝ᵥ v b = if a = b then 1 else 0) {c : ℕ} (hc : c ≤ j) :
    qHat j u v ⬝ᵥ v c = 0 := by
  unfold qHat
  rw [sub_dotProduct, sum_dotProduct, sum_eq_single c]
  · rw [smul_dotProduct, orth c hc c hc (by omega) (by omega), if_pos rfl, smul_eq_mul, mul_one, sub_self]
  · intro a ha hac
    rw [smul_dotProduct, orth a (by simpa [Nat.lt_succ_iff] using ha) c hc (by simp at ha; omega) (by omega), if_neg hac,
      smul_zero]
  · intro h
    exact absurd (mem_range.mpr (by omega)) h

theorem step_inv {m j : ℕ} {U : ℕ → Vec n → Vec n} {q q' : Q n} (h : QInv m U j q) (hj : j < m)
    (hs : qStep m j (U j (q.v j)) q = some q') : QInv m U (j + 1) q' ∧ ∀ i ≤ j, q'.v i = q.v i := by
  set u := U j (q.v j) with hu
  have ho : ∀ c ≤ j, qHat j u q.v ⬝ᵥ q.v c = 0 := fun c hc => hat_orth hj h.orth hc
  have hsum : ∑ a ∈ range (j + 1), qH j u q a j • q.v a + qHat j u q.v = u := by
    rw [qHat, ← add_sub_assoc, add_comm, add_sub_assoc]
    convert add_zero u using 2
    rw [sub_eq_zero]
    refine sum_congr rfl fun a ha => ?_
    rw [qH, if_pos rfl, if_pos (by simpa [Nat.lt_succ_iff] using ha)]
  have hold : ∀ b < j, ∀ a, qH j u q a b = q.H a b := fun b hb a => by rw [qH, if_neg (by omega)]
  have hz : ∀ a, j + 1 < a → qH j u q a j = 0 := fun a ha => by
    rw [qH, if_pos rfl, if_neg (by omega), if_neg (by omega)]
  have hh : qH j u q (j + 1) j = norm2 (qHat j u q.v) := by
    rw [qH, if_pos rfl, if_neg (by omega), if_pos rfl]
  unfold qStep at hs
  by_cases hj1 : j + 1 < m
  · rw [if_pos hj1] at hs
    split_ifs at hs with h0
    obtain rfl := Option.some.inj hs
    obtain ⟨w, hw⟩ : ∃ w, w = (norm2 (qHat j u q.v))⁻¹ • qHat j u q.v := ⟨_, rfl⟩
    have hv : ∀ i ≤ j, Function.update q.v (j + 1) w i = q.v i := fun i hi => Function.update_of_ne (by omega) _ _
    have hvn : Function.update q.v (j + 1) w (j + 1) = w := Function.update_self ..
    have how : ∀ c ≤ j, w ⬝ᵥ q.v c = 0 := fun c hc => by rw [hw, smul_dotProduct, ho c hc, smul_zero]
    have hww : w ⬝ᵥ w = 1 := by
      rw [hw, smul_dotProduct, dotProduct_smul, ← norm2_sq, smul_eq_mul, smul_eq_mul]
      field_simp
    have hhw : norm2 (qHat j u q.v) • w = qHat j u q.v := by
      rw [hw, smul_smul, mul_inv_cancel₀ h0, one_smul]
    rw [← hw]
    refine ⟨⟨?_, ?_, ?_, ?_, ?_⟩, hv⟩
    · intro a ha b hb _ _
      simp only
      rcases Nat.lt_or_ge j a with h1 | h1 <;> rcases Nat.lt_or_ge j b with h2 | h2
      · obtain rfl : a = j + 1 := by omega
        obtain rfl : b = j + 1 := by omega
        rw [hvn, hww, if_pos rfl]
      · obtain rfl : a = j + 1 := by omega
        rw [hvn, hv b h2, how b h2, if_neg (by omega)]
      · obtain rfl : b = j + 1 := by omega
        rw [hvn, hv a h1, dotProduct_comm, how a h1, if_neg (by omega)]
      · rw [hv a h1, hv b h2]
        exact h.orth a h1 b h2 (by omega) (by omega)
    · intro b hb hbm
      simp only
      rw [hv b (by omega)]
      by_cases hbj : b = j
      · subst hbj
        rw [sum_range_succ, hvn, hh, hhw, ← hu]
        refine hsum.symm.trans (congrArg (· + _) (sum_congr rfl fun a ha => ?_))
        rw [hv a (by simp at ha; omega)]
      · rw [h.col b (by omega) hbm]
        refine sum_congr rfl fun a ha => ?_
        rw [hold b (by omega), hv a (by simp at ha; omega)]
    · intro b hb hbm
      simp only
      by_cases hbj : b = j
      · subst hbj
        rw [hh]
        exact h0
      · rw [hold b (by omega)]
        exact h.sub b (by omega) hbm
    · intro b hb hbm
      omega
    · intro b hb a ha
      simp only
      by_cases hbj : b = j
      · subst hbj
        exact hz a ha
      · rw [hold b (by omega)]
        exact h.zero b (by omega) a ha
  · rw [if_neg hj1] at hs
    split_ifs at hs with h0
    obtain rfl := Option.some.inj hs
    refine ⟨⟨?_, ?_, ?_, ?_, ?_⟩, fun i _ => rfl⟩
    · intro a ha b hb h1 h2
      exact h.orth a (by omega) b (by omega) h1 h2
    · intro b hb hbm
      simp only
      rw [h.col b (by omega) hbm]
      exact sum_congr rfl fun a _ => by rw [hold b (by omega)]
    · intro b hb hbm
      simp only
      rw [hold b (by omega)]
      exact h.sub b (by omega) hbm
    · intro b hb hbm
      obtain rfl : b = j := by omega
      subst hbm
      refine ⟨qHat b u q.v, hsum.symm, fun a ha => ho a (by omega), ?_⟩
      simp only
      rw [hh, norm2_sq]
    · intro b hb a ha
      simp only
      by_cases hbj : b = j
      · subst hbj
        exact hz a ha
      · rw [hold b (by omega)]
        exact h.zero b (by omega) a ha

theorem arnoldi_inv {m : ℕ} {U : ℕ → Vec n → Vec n} {v0 : Vec n} (h0 : v0 ⬝ᵥ v0 = 1) (j : ℕ) (hj : j ≤ m) {q : Q n}
    (hq : qArnoldi m U ⟨fun _ => v0, fun _ _ => 0⟩ j = some q) : QInv m U j q ∧ q.v 0 = v0 := by
  induction j generalizing q with
  | zero =>
    obtain rfl := Option.some.inj hq
    refine ⟨⟨?_, ?_, ?_, ?_, ?_⟩, rfl⟩
    · intro a ha b hb _ _
      rw [h0, if_pos (by omega)]
    · intro b hb; omega
    · intro b hb; omega
    · intro b hb; omega
    · intro b hb; omega
  | succ j ih =>
    unfold qArnoldi at hq
    obtain ⟨q1, h1, h2⟩ := Option.bind_eq_some_iff.mp hq
    obtain ⟨i1, i2⟩ := ih (by omega) h1
    obtain ⟨i3, i4⟩ := step_inv i1 (by omega) h2
    exact ⟨i3, (i4 0 (by omega)).trans i2⟩

/-- The matrix of the least squares problem. -/
def hm (m : ℕ) (q : Q n) : Matrix (Fin (m + 1)) (Fin m) ℝ := of fun a b => q.H a b

/-- Orthonormal vectors: the square of a combination. -/
theorem pythagoras {m : ℕ} {v : ℕ → Vec n} (orth : ∀ a < m, ∀ b < m, v a ⬝ᵥ v b = if a = b then 1 else 0) (c : ℕ → ℝ) :
    (∑ a ∈ range m, c a • v a) ⬝ᵥ (∑ a ∈ range m, c a • v a) = ∑ a ∈ range m, c a ^ 2 := by
  rw [sum_dotProduct]
  refine sum_congr rfl fun a ha => ?_
  rw [dotProduct_sum, sum_eq_single a]
  · rw [smul_dotProduct, dotProduct_smul, orth a (mem_range.mp ha) a (mem_range.mp ha), if_pos rfl, smul_eq_mul, smul_eq_mul,
      mul_one, sq]
  · intro b hb hba
    rw [smul_dotProduct, dotProduct_smul, orth a (mem_range.mp ha) b (mem_range.mp hb), if_neg hba.symm, smul_zero, smul_zero]
  · intro h
    exact absurd ha h

/-- The residual of a correction is as long as the residual of the small problem. -/
theorem residual_small {m : ℕ} {U : ℕ → Vec n → Vec n} {q : Q n} (h : QInv m U m q) (hm0 : 0 < m) (β : ℝ) (y : Fin m → ℝ) :
    (β • q.v 0 - ∑ b : Fin m, y b • U b (q.v b)) ⬝ᵥ (β • q.v 0 - ∑ b : Fin m, y b • U b (q.v b)) =
      (Pi.single 0 β - hm m q *ᵥ y) ⬝ᵥ (Pi.single 0 β - hm m q *ᵥ y) := by
  obtain ⟨l, rfl⟩ : ∃ l, m = l + 1 := ⟨m - 1, by omega⟩
  obtain ⟨hat, h1, h2, h3⟩ := h.last l (by omega) rfl
  have hrow : ∀ b < l + 1, U b (q.v b) = ∑ a ∈ range (l + 1), q.H a b • q.v a + (if b = l then (1 : ℝ) else 0) • hat := by
    intro b hb
    by_cases hbl : b = l
    · subst hbl
      rw [h1, if_pos rfl, one_smul]
    · rw [h.col b (by omega) (by omega), if_neg hbl, zero_smul, add_zero]
      refine sum_subset (by intro a; simp; omega) fun a _ ha => ?_
      rw [h.zero b (by omega) a (by simp at ha; omega), zero_smul]
  have hsum : ∑ b : Fin (l + 1), y b • U b (q.v b) =
      ∑ a ∈ range (l + 1), (∑ b : Fin (l + 1), q.H a b * y b) • q.v a + y (Fin.last l) • hat := by
    rw [sum_congr rfl fun b _ => by rw [hrow b b.2]]
    simp only [smul_add, sum_add_distrib, smul_sum, smul_smul, sum_smul]
    rw [sum_comm]
    congr 1
    · refine sum_congr rfl fun a _ => sum_congr rfl fun b _ => ?_
      rw [mul_comm]
    · rw [sum_eq_single (Fin.last l)]
      · simp
      · intro b _ hb
        rw [if_neg (fun hh : (b : ℕ) = l => hb (Fin.ext hh)), mul_zero, zero_smul]
      · intro hh
        exact absurd (mem_univ _) hh
  have hcomb : β • q.v 0 - ∑ b : Fin (l + 1), y b • U b (q.v b) =
      ∑ a ∈ range (l + 1), ((if a = 0 then β else 0) - ∑ b : Fin (l + 1), q.H a b * y b) • q.v a - y (Fin.last l) • hat := by
    rw [hsum]
    simp only [sub_smul, sum_sub_distrib]
    rw [← sub_sub]
    congr 2
    rw [sum_eq_single 0]
    · rw [if_pos rfl]
    · intro a _ ha
      rw [if_neg ha, zero_smul]
    · intro hh
      exact absurd (mem_range.mpr (by omega)) hh
  obtain ⟨c, hc⟩ : ∃ c : ℕ → ℝ, c = fun a => (if a = 0 then β else 0) - ∑ b : Fin (l + 1), q.H a b * y b := ⟨_, rfl⟩
  have hcross : (∑ a ∈ range (l + 1), c a • q.v a) ⬝ᵥ hat = 0 := by
    rw [sum_dotProduct]
    refine sum_eq_zero fun a ha => ?_
    rw [smul_dotProduct, dotProduct_comm, h2 a (mem_range.mp ha), smul_zero]
  have hlhs : (∑ a ∈ range (l + 1), c a • q.v a - y (Fin.last l) • hat) ⬝ᵥ (∑ a ∈ range (l + 1), c a • q.v a - y (Fin.last l) • hat) =
      ∑ a ∈ range (l + 1), c a ^ 2 + (y (Fin.last l)) ^ 2 * q.H (l + 1) l ^ 2 := by
    rw [sub_dotProduct, dotProduct_sub, dotProduct_sub, dotProduct_smul, hcross, smul_dotProduct, smul_dotProduct, dotProduct_smul,
      dotProduct_comm hat, hcross, h3,
      pythagoras (fun a ha b hb => h.orth a (by omega) b (by omega) ha hb)]
    simp only [smul_eq_mul]
    ring
  have hrhs : ∀ a : Fin (l + 2), (Pi.single 0 β - hm (l + 1) q *ᵥ y : Fin (l + 2) → ℝ) a = c a := by
    intro a
    rw [hc]
    simp only [Pi.sub_apply, mulVec, dotProduct, hm, of_apply, Pi.single_apply, Fin.ext_iff, Fin.val_zero]
  have hlast : c (l + 1) = - (q.H (l + 1) l * y (Fin.last l)) := by
    rw [hc]
    simp only
    rw [if_neg (by omega), zero_sub, sum_eq_single (Fin.last l)]
    · simp
    · intro b _ hb
      rw [h.zero b b.2 (l + 1) (by
        have : (b : ℕ) ≠ l := fun hh => hb (Fin.ext hh)
        omega), zero_mul]
    · intro hh
      exact absurd (mem_univ _) hh
  have hgoal : (Pi.single 0 β - hm (l + 1) q *ᵥ y) ⬝ᵥ (Pi.single 0 β - hm (l + 1) q *ᵥ y) = ∑ a ∈ range (l + 2), c a ^ 2 := by
    rw [Finset.sum_range]
    refine sum_congr rfl fun a _ => ?_
    rw [hrhs a, sq]
  have hcomb' : β • q.v 0 - ∑ b : Fin (l + 1), y b • U b (q.v b) =
      ∑ a ∈ range (l + 1), c a • q.v a - y (Fin.last l) • hat := by
    rw [hcomb, hc]
  rw [hcomb', hlhs, hgoal, sum_range_succ (fun a => c a ^ 2) (l + 1)]
  simp only [hlast]
  ring

/-- The solution of the normal equations is a best approximation. -/
theorem normal_best {k m : ℕ} (H : Matrix (Fin k) (Fin m) ℝ) (g : Fin k → ℝ) {y : Fin m → ℝ}
    (hy : (Hᵀ * H) *ᵥ y = Hᵀ *ᵥ g) (z : Fin m → ℝ) : (g - H *ᵥ y) ⬝ᵥ (g - H *ᵥ y) ≤ (g - H *ᵥ z) ⬝ᵥ (g - H *ᵥ z) := by
  have h0 : Hᵀ *ᵥ (g - H *ᵥ y) = 0 := by
    rw [mulVec_sub, mulVec_mulVec, hy, sub_self]
  have h1 : g - H *ᵥ z = (g - H *ᵥ y) + H *ᵥ (y - z) := by
    rw [mulVec_sub]
    abel
  have h2 : (g - H *ᵥ y) ⬝ᵥ (H *ᵥ (y - z)) = 0 := by
    rw [dotProduct_mulVec, ← mulVec_transpose, h0, zero_dotProduct]
  rw [h1, add_dotProduct, dotProduct_add, dotProduct_add, h2, dotProduct_comm (H *ᵥ (y - z)), h2]
  have := dot_nonneg (H *ᵥ (y - z))
  linarith

/-- The space of the first `k` vectors. -/
def spanV (q : Q n) (k : ℕ) : Submodule ℝ (Vec n) := Submodule.span ℝ (Set.range fun i : Fin k => q.v i)

theorem mem_spanV {q : Q n} {k i : ℕ} (h : i < k) : q.v i ∈ spanV q k := Submodule.subset_span ⟨⟨i, h⟩, rfl⟩

theorem spanV_mono {q : Q n} {k l : ℕ} (h : k ≤ l) : spanV q k ≤ spanV q l := by
  refine Submodule.span_le.mpr ?_
  rintro _ ⟨i, rfl⟩
  exact mem_spanV (by have := i.2; omega)

theorem mem_krylov (A : Matrix (Fin n) (Fin n) ℝ) (r : Vec n) {i k : ℕ} (h : i < k) : (A ^ i) *ᵥ r ∈ krylov A r k :=
  Submodule.subset_span ⟨⟨i, h⟩, rfl⟩

theorem krylov_mono (A : Matrix (Fin n) (Fin n) ℝ) (r : Vec n) {k l : ℕ} (h : k ≤ l) : krylov A r k ≤ krylov A r l := by
  refine Submodule.span_le.mpr ?_
  rintro _ ⟨i, rfl⟩
  exact mem_krylov A r (by have := i.2; omega)

theorem krylov_next (A : Matrix (Fin n) (Fin n) ℝ) (r : Vec n) {k : ℕ} {z : Vec n} (h : z ∈ krylov A r k) :
    A *ᵥ z ∈ krylov A r (k + 1) := by
  induction h using Submodule.span_induction with
  | mem z hz =>
    obtain ⟨i, rfl⟩ := hz
    rw [mulVec_mulVec, ← pow_succ']
    exact mem_krylov A r (by have := i.2; omega)
  | zero => rw [mulVec_zero]; exact zero_mem _
  | add a b _ _ ha hb => rw [mulVec_add]; exact add_mem ha hb
  | smul c a _ ha => rw [mulVec_smul]; exact Submodule.smul_mem _ _ ha

theorem spanV_next {m j : ℕ} {U : ℕ → Vec n → Vec n} {A : Matrix (Fin n) (Fin n) ℝ} {q : Q n} (h : QInv m U j q) {k : ℕ}
    (hk : k ≤ j) (hkm : k + 1 ≤ m) (hU : ∀ b < k, ∀ v, U b v = A *ᵥ v) {z : Vec n} (hz : z ∈ spanV q k) :
    A *ᵥ z ∈ spanV q (k + 1) := by
  induction hz using Submodule.span_induction with
  | mem z hz =>
    obtain ⟨b, rfl⟩ := hz
    have hb := b.2
    simp only
    rw [← hU b hb, h.col b (by omega) (by omega)]
    exact sum_mem fun a ha => Submodule.smul_mem _ _ (mem_spanV (by simp at ha; omega))
  | zero => rw [mulVec_zero]; exact zero_mem _
  | add a b _ _ ha hb => rw [mulVec_add]; exact add_mem ha hb
  | smul c a _ ha => rw [mulVec_smul]; exact Submodule.smul_mem _ _ ha

/-- The vectors of the inner loop span the Krylov space. -/
theorem spanV_krylov {m j : ℕ} {U : ℕ → Vec n → Vec n} {A : Matrix (Fin n) (Fin n) ℝ} {q : Q n} (h : QInv m U j q)
    {r : Vec n} {β : ℝ} (hβ : β ≠ 0) (hr : r = β • q.v 0) (k : ℕ) (hk : k ≤ j + 1) (hkm : k ≤ m)
    (hU : ∀ b, b + 1 < k → ∀ v, U b v = A *ᵥ v) : spanV q k = krylov A r k := by
  have key : ∀ i < k, q.v i ∈ krylov A r (i + 1) ∧ (A ^ i) *ᵥ r ∈ spanV q (i + 1) := by
    intro i
    induction i using Nat.strong_induction_on with
    | _ i ih =>
      intro hi
      rcases Nat.eq_zero_or_pos i with rfl | hpos
      · constructor
        · have : q.v 0 = β⁻¹ • ((A ^ 0) *ᵥ r) := by
            rw [pow_zero, one_mulVec, hr, smul_smul, inv_mul_cancel₀ hβ, one_smul]
          rw [this]
          exact Submodule.smul_mem _ _ (mem_krylov A r (by omega))
        · rw [pow_zero, one_mulVec, hr]
          exact Submodule.smul_mem _ _ (mem_spanV (by omega))
      obtain ⟨i, rfl⟩ : ∃ l, i = l + 1 := ⟨i - 1, by omega⟩
      constructor
      · have hc := h.col i (by omega) (by omega)
        rw [hU i (by omega), sum_range_succ] at hc
        have hs := h.sub i (by omega) (by omega)
        have : q.v (i + 1) = (q.H (i + 1) i)⁻¹ • (A *ᵥ q.v i - ∑ a ∈ range (i + 1), q.H a i • q.v a) := by
          rw [hc, add_sub_cancel_left, smul_smul, inv_mul_cancel₀ hs, one_smul]
        rw [this]
        refine Submodule.smul_mem _ _ (sub_mem (krylov_next A r (ih i (by omega) (by omega)).1) (sum_mem fun a ha => ?_))
        have ha' : a ≤ i := by simp at ha; omega
        exact Submodule.smul_mem _ _ (krylov_mono A r (by omega) (ih a (by omega) (by omega)).1)
      · rw [pow_succ', ← mulVec_mulVec]
        exact spanV_next h (k := i + 1) (by omega) (by omega) (fun b hb => hU b (by omega)) (ih i (by omega) (by omega)).2
  refine le_antisymm (Submodule.span_le.mpr ?_) (Submodule.span_le.mpr ?_)
  · rintro _ ⟨i, rfl⟩
    exact krylov_mono A r (by have := i.2; omega) (key i i.2).1
  · rintro _ ⟨i, rfl⟩
    exact spanV_mono (by have := i.2; omega) (key i i.2).2

end Phyem.Krylov
