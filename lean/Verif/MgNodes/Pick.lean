import Verif.MgNodes.Model
import Mathlib.Data.List.Sort
import Mathlib.Tactic.Linarith
import Mathlib.Tactic.Ring
import Mathlib.Tactic.FieldSimp
import Mathlib.Tactic.Positivity

/-! # What the loop over the base nodes finds -/

namespace Phyem.MgNodes

lemma pick_cons (p c b : ℚ) (cs bs : List ℚ) :
    pick p (c :: cs) (b :: bs) = if b > c then p :: pick b cs bs else pick b (c :: cs) bs := by
  rw [pick]

lemma pick_nil (p : ℚ) (bs : List ℚ) : pick p [] bs = [] := by cases bs <;> rfl

lemma pick_nil' (p : ℚ) (cs : List ℚ) : pick p cs [] = [] := by cases cs <;> rfl

/-- What is found are base nodes, increasing, from the node before on, each smaller than another base node. -/
lemma pick_sorted : ∀ (bs : List ℚ) (p : ℚ) (cs : List ℚ), (p :: bs).Pairwise (· < ·) →
    (pick p cs bs).Pairwise (· < ·) ∧ ∀ q ∈ pick p cs bs, q ∈ p :: bs ∧ p ≤ q ∧ ∃ b ∈ bs, q < b
  | [], p, cs, _ => by rw [pick_nil']; simp
  | b :: bs, p, [], _ => by rw [pick_nil]; simp
  | b :: bs, p, c :: cs, h => by
    rw [List.pairwise_cons] at h
    obtain ⟨hp, hb⟩ := h
    rw [pick_cons]
    have hpb : p < b := hp b (by simp)
    split_ifs with hc
    · obtain ⟨h1, h2⟩ := pick_sorted bs b cs hb
      refine ⟨List.pairwise_cons.2 ⟨fun q hq => lt_of_lt_of_le hpb (h2 q hq).2.1, h1⟩, ?_⟩
      intro q hq
      rcases List.mem_cons.1 hq with rfl | hq
      · exact ⟨by simp, le_rfl, b, by simp, hpb⟩
      · obtain ⟨h3, h4, x, hx, h5⟩ := h2 q hq
        exact ⟨List.mem_cons_of_mem _ h3, le_trans hpb.le h4, x, List.mem_cons_of_mem _ hx, h5⟩
    · obtain ⟨h1, h2⟩ := pick_sorted bs b (c :: cs) hb
      refine ⟨h1, fun q hq => ?_⟩
      obtain ⟨h3, h4, x, hx, h5⟩ := h2 q hq
      exact ⟨List.mem_cons_of_mem _ h3, le_trans hpb.le h4, x, List.mem_cons_of_mem _ hx, h5⟩

/-- How many are found: one for every check node, if enough base nodes are beyond each. -/
lemma pick_length (c : ℕ → ℚ) (hc : ∀ i j, i < j → c i < c j) : ∀ (bs : List ℚ) (p : ℚ) (k n : ℕ), bs.Pairwise (· < ·) →
    (∀ i < n, n - i ≤ bs.countP fun b => decide (c (k + i) < b)) → (pick p ((List.range' k n).map c) bs).length = n
  | bs, p, k, 0, _, _ => by simp [pick_nil]
  | [], p, k, n + 1, _, h => by simpa using h 0 (by omega)
  | b :: bs, p, k, n + 1, hs, h => by
    rw [List.pairwise_cons] at hs
    obtain ⟨hb, hs⟩ := hs
    rw [List.range'_succ, List.map_cons, pick_cons]
    split_ifs with hbc
    · rw [List.length_cons, pick_length c hc bs b (k + 1) n hs]
      intro i hi
      by_cases hbi : c (k + 1 + i) < b
      · have hall : bs.countP (fun x => decide (c (k + 1 + i) < x)) = bs.length := by
          rw [List.countP_eq_length]
          intro x hx
          simpa using lt_trans hbi (hb x hx)
        have h0 := h 0 (by omega)
        have := List.countP_le_length (p := fun x => decide (c (k + 0) < x)) (l := b :: bs)
        rw [hall]
        simp only [List.length_cons] at this
        omega
      · have h1 := h (i + 1) (by omega)
        rw [List.countP_cons, if_neg (by rw [show k + (i + 1) = k + 1 + i by ring]; simpa using hbi),
          show k + (i + 1) = k + 1 + i by ring] at h1
        omega
    · have := pick_length c hc bs b k (n + 1) hs (by
        intro i hi
        have h1 := h i hi
        rw [List.countP_cons, if_neg] at h1
        · omega
        · have : c k ≤ c (k + i) := by
            rcases Nat.eq_zero_or_pos i with rfl | hi
            · simp
            · exact (hc _ _ (by omega)).le
          simp only [decide_eq_true_eq, not_lt]
          exact le_trans (not_lt.1 hbc) this)
      rwa [List.range'_succ, List.map_cons] at this

/-- The first one found is the node before, or not beyond the check node. -/
lemma pick_head : ∀ (bs : List ℚ) (p c : ℚ) (cs : List ℚ) (q : ℚ), (pick p (c :: cs) bs)[0]? = some q → q ≤ max p c
  | [], p, c, cs, q, h => by simp [pick_nil'] at h
  | b :: bs, p, c, cs, q, h => by
    rw [pick_cons] at h
    split_ifs at h with hc
    · simp at h; rw [← h]; exact le_max_left _ _
    · have := pick_head bs b c cs q h
      rw [max_eq_right (not_lt.1 hc)] at this
      exact le_trans this (le_max_right _ _)

/-- The next ones: each beyond the check node before, and within the largest gap of the one before or not beyond its own check node. -/
lemma pick_next (c : ℕ → ℚ) (D : ℚ) : ∀ (bs : List ℚ) (p : ℚ) (k n : ℕ), (p :: bs).Pairwise (· < ·) →
    (p :: bs).IsChain (fun a b => b - a ≤ D) → ∀ i q q', (pick p ((List.range' k n).map c) bs)[i]? = some q →
      (pick p ((List.range' k n).map c) bs)[i + 1]? = some q' → c (k + i) < q' ∧ (q' ≤ q + D ∨ q' ≤ c (k + i + 1))
  | [], p, k, n, _, _, i, q, q', h, _ => by simp [pick_nil'] at h
  | b :: bs, p, k, 0, _, _, i, q, q', h, _ => by simp [pick_nil] at h
  | b :: bs, p, k, n + 1, hs, hD, i, q, q', h, h' => by
    rw [List.pairwise_cons] at hs
    rw [List.isChain_cons_cons] at hD
    rw [List.range'_succ, List.map_cons, pick_cons] at h h'
    split_ifs at h h' with hbc
    · rcases i with _ | i
      · simp only [List.getElem?_cons_zero, Option.some.injEq, List.getElem?_cons_succ] at h h'
        subst h
        have hge : b ≤ q' := ((pick_sorted bs b _ hs.2).2 q' (List.mem_of_getElem? h')).2.1
        refine ⟨lt_of_lt_of_le hbc hge, ?_⟩
        rcases n with _ | n
        · simp [pick_nil] at h'
        · rw [List.range'_succ, List.map_cons] at h'
          have := pick_head bs b _ _ q' h'
          rcases le_max_iff.1 this with h1 | h1
          · left; linarith [hD.1]
          · right; exact h1
      · rw [List.getElem?_cons_succ] at h h'
        have := pick_next c D bs b (k + 1) n hs.2 hD.2 i q q' h h'
        rwa [show k + 1 + i = k + (i + 1) by ring, show k + (i + 1) + 1 = k + (i + 1) + 1 from rfl] at this
    · have e : c k :: (List.range' (k + 1) n).map c = (List.range' k (n + 1)).map c := by
        rw [List.range'_succ, List.map_cons]
      rw [e] at h h'
      exact pick_next c D bs b k (n + 1) hs.2 hD.2 i q q' h h'

/-- The node found for the first check node and, by the largest gap, for the others: not beyond a line. -/
lemma pick_upper (c : ℕ → ℚ) (D : ℚ) (u : ℕ → ℚ) (hu : ∀ i, u i + D ≤ u (i + 1)) {bs : List ℚ} {p : ℚ} {n : ℕ}
    (huc : ∀ i < n, c i ≤ u i) (hp : p ≤ u 0)
    (hs : (p :: bs).Pairwise (· < ·)) (hD : (p :: bs).IsChain (fun a b => b - a ≤ D)) :
    ∀ i q, (pick p ((List.range' 0 n).map c) bs)[i]? = some q → i < n → q ≤ u i := by
  intro i
  induction i with
  | zero =>
    intro q h hi
    obtain ⟨n', rfl⟩ : ∃ n', n = n' + 1 := ⟨n - 1, by omega⟩
    rw [List.range'_succ, List.map_cons] at h
    exact le_trans (pick_head bs p _ _ q h) (max_le hp (huc 0 hi))
  | succ i ih =>
    intro q h hi
    have hlt := (List.getElem?_eq_some_iff.1 h).1
    have h0 : (pick p ((List.range' 0 n).map c) bs)[i]? = some ((pick p ((List.range' 0 n).map c) bs)[i]) :=
      List.getElem?_eq_getElem (by omega)
    have := ih _ h0 (by omega)
    rcases (pick_next c D bs p 0 n hs hD i _ q h0 h).2 with h1 | h1
    · linarith [hu i]
    · rw [Nat.zero_add] at h1
      exact le_trans h1 (huc _ hi)

end Phyem.MgNodes
