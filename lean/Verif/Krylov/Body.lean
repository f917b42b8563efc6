import Verif.Krylov.Seq
import Mathlib.LinearAlgebra.FiniteDimensional.Lemmas
import Mathlib.LinearAlgebra.Dimension.OrzechProperty

/-!
# Iterative solvers: a turn of GMRES
-/

namespace Phyem.Krylov

open Matrix Finset

variable {n : ℕ}

theorem unit_vector {r : Vec n} (h : norm2 r ≠ 0) : ((norm2 r)⁻¹ • r) ⬝ᵥ ((norm2 r)⁻¹ • r) = 1 := by
  rw [smul_dotProduct, dotProduct_smul, ← norm2_sq, smul_eq_mul, smul_eq_mul]
  field_simp

theorem scaled {r : Vec n} (h : norm2 r ≠ 0) : r = norm2 r • ((norm2 r)⁻¹ • r) := by
  rw [smul_smul, mul_inv_cancel₀ h, one_smul]

theorem gBody_some {A : Matrix (Fin n) (Fin n) ℝ} {f : Vec n} {m i : ℕ} {x : Vec n} {c : Vec n × Unit}
    (h : gBody A f m i x () = some c) : 0 < m ∧ norm2 (f - A *ᵥ x) ≠ 0 ∧ ∃ q y,
      QInv m (fun _ v => A *ᵥ v) m q ∧ f - A *ᵥ x = norm2 (f - A *ᵥ x) • q.v 0 ∧ qLeast m q (norm2 (f - A *ᵥ x)) = some y ∧
        c.1 = x + ∑ j : Fin m, y j • q.v j := by
  unfold gBody at h
  simp only at h
  split_ifs at h with h0
  push Not at h0
  obtain ⟨q, h1, h2⟩ := Option.bind_eq_some_iff.mp h
  obtain ⟨y, h3, rfl⟩ := Option.map_eq_some_iff.mp h2
  obtain ⟨hq, hv⟩ := arnoldi_inv (unit_vector h0.2) m le_rfl h1
  exact ⟨by omega, h0.2, q, y, hq, by rw [hv]; exact scaled h0.2, h3, rfl⟩

theorem gBody_best {A : Matrix (Fin n) (Fin n) ℝ} {f : Vec n} {m i : ℕ} {x : Vec n} {c : Vec n × Unit}
    (h : gBody A f m i x () = some c) : Best A f x (krylov A (f - A *ᵥ x) m) (c.1 - x) := by
  obtain ⟨hm0, hr, q, y, hq, hv, hy, hc⟩ := gBody_some h
  rw [hc, add_sub_cancel_left, ← spanV_krylov hq hr hv m (by omega) le_rfl (fun _ _ _ => rfl)]
  exact best_of_least hq hm0 hv (W := q.v) (fun _ _ => rfl) hy

theorem best_le {A : Matrix (Fin n) (Fin n) ℝ} {f x x' : Vec n} {W : Submodule ℝ (Vec n)} (h : Best A f x W (x' - x)) :
    size A f x' ≤ size A f x := by
  have := h.2 0 (zero_mem _)
  rwa [add_zero, add_sub_cancel] at this

theorem gBody_le {A : Matrix (Fin n) (Fin n) ℝ} {f : Vec n} {m i : ℕ} {x : Vec n} {z : Unit} {c : Vec n × Unit}
    (h : gBody A f m i x z = some c) : size A f c.1 ≤ size A f x := best_le (gBody_best h)

theorem orth_indep {m : ℕ} {v : ℕ → Vec n} (orth : ∀ a < m, ∀ b < m, v a ⬝ᵥ v b = if a = b then 1 else 0) :
    LinearIndependent ℝ (fun i : Fin m => v i) := by
  rw [Fintype.linearIndependent_iff]
  intro g hg i
  have := congrArg (fun w => w ⬝ᵥ v i) hg
  simp only [zero_dotProduct, sum_dotProduct, smul_dotProduct, smul_eq_mul] at this
  rw [sum_eq_single i] at this
  · rwa [orth i i.2 i i.2, if_pos rfl, mul_one] at this
  · intro j _ hj
    rw [orth j j.2 i i.2, if_neg (fun h => hj (Fin.ext h)), mul_zero]
  · intro h
    exact absurd (mem_univ _) h

/-- The inner loop does not break down if the Krylov vectors are independent. -/
theorem arnoldi_some {A : Matrix (Fin n) (Fin n) ℝ} {m : ℕ} (hm2 : 2 ≤ m) {v0 r : Vec n} {β : ℝ} (hβ : β ≠ 0) (hr : r = β • v0)
    (h0 : v0 ⬝ᵥ v0 = 1) (hli : LinearIndependent ℝ (fun i : Fin m => (A ^ (i : ℕ)) *ᵥ r)) :
    ∀ j ≤ m, ∃ q, qArnoldi m (fun _ v => A *ᵥ v) ⟨fun _ => v0, fun _ _ => 0⟩ j = some q
  | 0, _ => ⟨_, rfl⟩
  | j + 1, hj => by
    obtain ⟨q, hq⟩ := arnoldi_some hm2 hβ hr h0 hli j (by omega)
    obtain ⟨hi, hv⟩ := arnoldi_inv h0 j (by omega) hq
    unfold qArnoldi
    rw [hq, Option.bind_some]
    unfold qStep
    by_cases h1 : j + 1 < m
    · rw [if_pos h1]
      split_ifs with hz
      · exfalso
        rw [norm2_eq_zero, qHat, sub_eq_zero] at hz
        have hmem : A *ᵥ q.v j ∈ spanV q (j + 1) := by
          rw [hz]
          exact sum_mem fun a ha => Submodule.smul_mem _ _ (mem_spanV (mem_range.mp ha))
        have hk := spanV_krylov hi hβ (hr.trans (by rw [hv])) (j + 1) le_rfl (by omega) (fun _ _ _ => rfl)
        have hnext : ∀ w ∈ spanV q (j + 1), A *ᵥ w ∈ spanV q (j + 1) := by
          intro w hw
          induction hw using Submodule.span_induction with
          | mem w hw =>
            obtain ⟨b, rfl⟩ := hw
            rcases Nat.lt_or_ge b j with hb | hb
            · exact spanV_mono (by omega) (spanV_next hi (k := b + 1) (by omega) (by omega) (fun _ _ _ => rfl)
                (mem_spanV (by omega)))
            · have : (b : ℕ) = j := by have := b.2; omega
              simp only [this]
              exact hmem
          | zero => rw [mulVec_zero]; exact zero_mem _
          | add a b _ _ ha hb => rw [mulVec_add]; exact add_mem ha hb
          | smul c a _ ha => rw [mulVec_smul]; exact Submodule.smul_mem _ _ ha
        have hin : (A ^ (j + 1)) *ᵥ r ∈ krylov A r (j + 1) := by
          rw [← hk, pow_succ', ← mulVec_mulVec]
          refine hnext _ ?_
          rw [hk]
          exact mem_krylov A r (by omega)
        refine hli.notMem_span_image (s := {i : Fin m | (i : ℕ) < j + 1}) (x := ⟨j + 1, h1⟩) (by simp) ?_
        refine Submodule.span_mono ?_ hin
        rintro _ ⟨i, rfl⟩
        exact ⟨⟨i, by omega⟩, i.2, rfl⟩
      · exact ⟨_, rfl⟩
    · rw [if_neg h1, if_neg (by omega)]
      exact ⟨_, rfl⟩

/-- With independent vectors and a regular matrix the small problem has a solution. -/
theorem least_regular {A : Matrix (Fin n) (Fin n) ℝ} (hA : A.det ≠ 0) {m : ℕ} (hm0 : 0 < m) {q : Q n}
    (h : QInv m (fun _ v => A *ᵥ v) m q) (β : ℝ) : ∃ y, qLeast m q β = some y := by
  refine least_some β fun y hy => ?_
  have key := residual_small h hm0 0 y
  rw [hy, Pi.single_zero, sub_zero, zero_dotProduct, zero_smul, zero_sub] at key
  have h0 := dotProduct_self_eq_zero.mp key
  rw [neg_eq_zero] at h0
  have h1 : A *ᵥ (∑ b : Fin m, y b • q.v b) = 0 := by
    rw [mulVec_sum, ← h0]
    exact sum_congr rfl fun b _ => mulVec_smul _ _ _
  have h2 : ∑ b : Fin m, y b • q.v b = 0 := by
    by_contra hne
    exact hA (exists_mulVec_eq_zero_iff.mp ⟨_, hne, h1⟩)
  have := Fintype.linearIndependent_iff.mp
    (orth_indep (v := q.v) (fun a ha b hb => h.orth a (by omega) b (by omega) ha hb)) y h2
  exact funext this

theorem gBody_none {A : Matrix (Fin n) (Fin n) ℝ} (hA : A.det ≠ 0) {f : Vec n} {m i : ℕ} (hm2 : 2 ≤ m) {x : Vec n} :
    gBody A f m i x () = none ↔ ¬ LinearIndependent ℝ (fun i : Fin m => (A ^ (i : ℕ)) *ᵥ (f - A *ᵥ x)) := by
  rw [← not_iff_not, not_not, ← Ne, Option.ne_none_iff_exists']
  constructor
  swap
  · intro hli
    have hr : norm2 (f - A *ᵥ x) ≠ 0 := by
      intro h0
      rw [norm2_eq_zero] at h0
      refine hli.ne_zero ⟨0, by omega⟩ ?_
      rw [h0, mulVec_zero]
    obtain ⟨q, hq⟩ := arnoldi_some hm2 hr (scaled hr) (unit_vector hr) hli m le_rfl
    obtain ⟨hi, hv⟩ := arnoldi_inv (unit_vector hr) m le_rfl hq
    obtain ⟨y, hy⟩ := least_regular hA (by omega) hi (norm2 (f - A *ᵥ x))
    refine ⟨(x + ∑ j : Fin m, y j • q.v j, ()), ?_⟩
    unfold gBody
    simp only
    rw [if_neg (by push Not; exact ⟨by omega, hr⟩), hq, Option.bind_some, hy]
    rfl
  · rintro ⟨c, hc⟩
    obtain ⟨hm0, hr, q, y, hq, hv, hy, -⟩ := gBody_some hc
    have ho := orth_indep (v := q.v) (fun a ha b hb => hq.orth a (by omega) b (by omega) ha hb)
    rw [linearIndependent_iff_card_eq_finrank_span] at ho ⊢
    rw [ho]
    have hk := spanV_krylov hq hr hv m (by omega) le_rfl (fun _ _ _ => rfl)
    unfold spanV krylov at hk
    unfold Set.finrank
    rw [hk]

/-- With as many vectors as unknowns a turn solves the system. -/
theorem gBody_exact {A : Matrix (Fin n) (Fin n) ℝ} (hA : A.det ≠ 0) {f : Vec n} {i : ℕ} {x : Vec n} {c : Vec n × Unit}
    (h : gBody A f n i x () = some c) : A *ᵥ c.1 = f := by
  have hb := gBody_best h
  obtain ⟨hm0, hr, q, y, hq, hv, hy, -⟩ := gBody_some h
  have ho := orth_indep (v := q.v) (fun a ha b hb => hq.orth a (by omega) b (by omega) ha hb)
  have htop : krylov A (f - A *ᵥ x) n = ⊤ := by
    rw [← spanV_krylov hq hr hv n (by omega) le_rfl (fun _ _ _ => rfl)]
    refine ho.span_eq_top_of_card_eq_finrank' ?_
    simp
  have := hb.2 (A⁻¹ *ᵥ (f - A *ᵥ x)) (by rw [htop]; trivial)
  have hs : size A f (x + A⁻¹ *ᵥ (f - A *ᵥ x)) = 0 := by
    rw [size_eq, norm2_eq_zero, mulVec_add, mulVec_mulVec, mul_nonsing_inv _ (isUnit_iff_ne_zero.mpr hA), one_mulVec]
    abel
  rw [hs, add_sub_cancel, size_eq] at this
  have h0 := norm2_eq_zero.mp (le_antisymm this (norm2_nonneg _))
  exact (sub_eq_zero.mp h0).symm

end Phyem.Krylov
