import Verif.Monitor.Model
import Mathlib.Tactic.Linarith
import Mathlib.Tactic.NormNum
import Mathlib.Tactic.FieldSimp
import Mathlib.Tactic.Ring
import Mathlib.Data.Rat.Floor
import Mathlib.Data.List.Range

/-! # Which data are in a report -/

namespace Phyem.Monitor

lemma floor_toNat (a b : ℕ) : ⌊(a : ℚ) / (b : ℚ)⌋.toNat = a / b := by
  rw [Rat.floor_natCast_div_natCast]
  exact Int.toNat_natCast (a / b)

lemma select_eq {n M L : ℕ} (h : 10 ≤ M ∧ 1 ≤ L ∧ L < M) (hn : M < n) :
    select n M L = some (((List.range (M + 1 - L)).map fun k : ℕ => (n - L) * k / (M - L)) ++ (List.range (L - 1)).map fun i => n + 1 - L + i) := by
  unfold select
  rw [if_pos h, if_pos hn]
  congr 2
  apply List.map_congr_left
  intro k _
  rw [← floor_toNat]
  push_cast
  rfl

/-- The rows of a report: different ones in order, the first one and all of the last `L` among them, and at most `M`. Of at most `M` rows all are
shown. -/
theorem select_spec {n M L : ℕ} {l : List ℕ} (h : select n M L = some l) :
    l.Pairwise (· < ·) ∧ (∀ i ∈ l, i < n) ∧ l.length = min n M ∧ (∀ i, n ≤ i + L → i < n → i ∈ l) ∧ (0 < n → 0 ∈ l) ∧
      (n ≤ M → l = List.range n) := by
  by_cases hp : 10 ≤ M ∧ 1 ≤ L ∧ L < M
  swap
  · unfold select at h
    rw [if_neg hp] at h
    cases h
  by_cases hn : M < n
  swap
  · unfold select at h
    rw [if_pos hp, if_neg hn] at h
    cases h
    refine ⟨List.pairwise_lt_range, fun i hi => List.mem_range.1 hi, by simp; omega, fun i _ hi => List.mem_range.2 hi, fun h => List.mem_range.2 h, fun _ => rfl⟩
  rw [select_eq hp hn] at h
  cases h
  have hML : 0 < M - L := by omega
  have last : (n - L) * (M - L) / (M - L) = n - L := Nat.mul_div_cancel _ hML
  have le : ∀ k < M + 1 - L, (n - L) * k / (M - L) ≤ n - L := by
    intro k hk
    calc (n - L) * k / (M - L) ≤ (n - L) * (M - L) / (M - L) := Nat.div_le_div_right (Nat.mul_le_mul_left _ (by omega))
      _ = n - L := last
  refine ⟨?_, ?_, ?_, ?_, ?_, fun h => by omega⟩
  · rw [List.pairwise_append]
    refine ⟨?_, ?_, ?_⟩
    · rw [List.pairwise_map]
      refine List.pairwise_lt_range.imp ?_
      intro i j hij
      rw [Nat.lt_iff_add_one_le, ← Nat.add_div_right _ hML]
      apply Nat.div_le_div_right
      calc (n - L) * i + (M - L) ≤ (n - L) * i + (n - L) := by omega
        _ = (n - L) * (i + 1) := by ring
        _ ≤ (n - L) * j := Nat.mul_le_mul_left _ hij
    · rw [List.pairwise_map]
      refine List.pairwise_lt_range.imp ?_
      intro i j hij
      omega
    · intro x hx y hy
      obtain ⟨k, hk, rfl⟩ := List.mem_map.1 hx
      obtain ⟨i, hi, rfl⟩ := List.mem_map.1 hy
      have := le k (List.mem_range.1 hk)
      omega
  · intro i hi
    rcases List.mem_append.1 hi with hi | hi
    · obtain ⟨k, hk, rfl⟩ := List.mem_map.1 hi
      have := le k (List.mem_range.1 hk)
      omega
    · obtain ⟨k, hk, rfl⟩ := List.mem_map.1 hi
      have := List.mem_range.1 hk
      omega
  · simp
    omega
  · intro i h1 h2
    rw [List.mem_append, List.mem_map, List.mem_map]
    by_cases hi : i = n - L
    · left
      exact ⟨M - L, List.mem_range.2 (by omega), by rw [last, hi]⟩
    · right
      exact ⟨i - (n + 1 - L), List.mem_range.2 (by omega), by omega⟩
  · intro _
    rw [List.mem_append]
    left
    exact List.mem_map.2 ⟨0, List.mem_range.2 (by omega), by simp⟩

example : (select 1000 300 75).isSome = true ∧ select 14 10 3 = some [0, 1, 3, 4, 6, 7, 9, 11, 12, 13] := by decide +kernel

lemma foldl_max (l : List ℚ) : ∀ x : ℚ, (x ≤ l.foldl max x) ∧ (∀ y ∈ l, y ≤ l.foldl max x) ∧ (l.foldl max x = x ∨ l.foldl max x ∈ l) := by
  induction l with
  | nil => intro x; simp
  | cons z l ih =>
    intro x
    simp only [List.foldl_cons]
    obtain ⟨h1, h2, h3⟩ := ih (max x z)
    refine ⟨(le_max_left _ _).trans h1, ?_, ?_⟩
    · intro y hy
      rcases List.mem_cons.1 hy with rfl | hy
      · exact (le_max_right _ _).trans h1
      · exact h2 y hy
    · rcases h3 with h3 | h3
      · rcases max_choice x z with h | h
        · left; rw [h3, h]
        · right; rw [h3, h]; simp
      · right; exact List.mem_cons_of_mem _ h3

lemma maxOf_spec {l : List ℚ} (h : l ≠ []) : maxOf l ∈ l ∧ ∀ y ∈ l, y ≤ maxOf l := by
  cases l with
  | nil => exact absurd rfl h
  | cons x l =>
    obtain ⟨h1, h2, h3⟩ := foldl_max l x
    refine ⟨?_, ?_⟩
    · rcases h3 with h3 | h3
      · show l.foldl max x ∈ _
        rw [h3]; simp
      · exact List.mem_cons_of_mem _ h3
    · intro y hy
      rcases List.mem_cons.1 hy with rfl | hy
      · exact h1
      · exact h2 y hy

lemma map_id_of_none {b : ℚ} (hb : 0 ≤ b) : ∀ times : List (Option ℚ), (times.filterMap id).filter (fun x => decide (x > b)) = [] →
    times.map (fun x => if x.getD 0 > b then none else x) = times
  | [], _ => rfl
  | none :: ts, h => by
    simp only [List.filterMap_cons, id] at h
    simp only [List.map_cons, map_id_of_none hb ts h, Option.getD_none]
    rw [if_neg (not_lt.2 hb)]
  | some x :: ts, h => by
    simp only [List.filterMap_cons, id] at h
    by_cases hx : x > b
    · rw [List.filter_cons_of_pos (by simpa using hx)] at h; cases h
    · rw [List.filter_cons_of_neg (by simpa using hx)] at h
      simp only [List.map_cons, map_id_of_none hb ts h, Option.getD_some]
      rw [if_neg hx]

lemma map_set_of_one {b v : ℚ} (hb : 0 ≤ b) : ∀ times : List (Option ℚ), (times.filterMap id).filter (fun x => decide (x > b)) = [v] →
    ∃ i : ℕ, times[i]? = some (some v) ∧ times.map (fun x => if x.getD 0 > b then none else x) = times.set i none
  | [], h => by simp at h
  | none :: ts, h => by
    simp only [List.filterMap_cons, id] at h
    obtain ⟨i, h1, h2⟩ := map_set_of_one hb ts h
    refine ⟨i + 1, by simpa using h1, ?_⟩
    simp only [List.map_cons, h2, Option.getD_none]
    rw [if_neg (not_lt.2 hb)]
    rfl
  | some x :: ts, h => by
    simp only [List.filterMap_cons, id] at h
    by_cases hx : x > b
    · rw [List.filter_cons_of_pos (by simpa using hx)] at h
      have h1 := (List.cons.inj h).1
      have h2 := (List.cons.inj h).2
      refine ⟨0, by simp [h1], ?_⟩
      simp only [List.map_cons, map_id_of_none hb ts h2, Option.getD_some]
      rw [if_pos hx]
      rfl
    · rw [List.filter_cons_of_neg (by simpa using hx)] at h
      obtain ⟨i, h1, h2⟩ := map_set_of_one hb ts h
      refine ⟨i + 1, by simpa using h1, ?_⟩
      simp only [List.map_cons, h2, Option.getD_some]
      rw [if_neg hx]
      rfl

/-- At most one time is left out of the plot: the largest, if it is more than twice the average and no other is above nine tenths of it. -/
theorem filter_spec (times : List (Option ℚ)) :
    filterExtreme times = times ∨ ∃ (i : ℕ) (v : ℚ), times[i]? = some (some v) ∧ filterExtreme times = times.set i none ∧
      (∀ w, some w ∈ times → w ≤ v) ∧ (∀ (j : ℕ) w, j ≠ i → times[j]? = some (some w) → w ≤ 9 / 10 * v) ∧
      v * (times.filterMap id).length > 2 * (times.filterMap id).sum := by
  unfold filterExtreme
  simp only
  by_cases h1 : (times.filterMap id).length > 0
  swap
  · rw [if_neg h1]; exact Or.inl rfl
  rw [if_pos h1]
  by_cases h2 : maxOf (times.filterMap id) > 2 * ((times.filterMap id).sum / ((times.filterMap id).length : ℚ)) ∧
      ((times.filterMap id).filter fun x => decide (x > 9 / 10 * maxOf (times.filterMap id))).length = 1
  swap
  · rw [if_neg h2]; exact Or.inl rfl
  rw [if_pos h2]
  right
  obtain ⟨ha, hc⟩ := h2
  obtain ⟨m1, m2⟩ := maxOf_spec (l := times.filterMap id) (by intro h; rw [h] at h1; simp at h1)
  set m := maxOf (times.filterMap id) with hm
  obtain ⟨v, hv⟩ := List.length_eq_one_iff.1 hc
  have hvm : v ∈ (times.filterMap id).filter fun x => decide (x > 9 / 10 * m) := by rw [hv]; simp
  rw [List.mem_filter] at hvm
  have hv1 : v > 9 / 10 * m := by simpa using hvm.2
  have hpos : 0 < m := by
    have := m2 v hvm.1
    linarith
  have hmv : m = v := by
    have : m ∈ (times.filterMap id).filter fun x => decide (x > 9 / 10 * m) := List.mem_filter.2 ⟨m1, by simp; linarith⟩
    rw [hv] at this
    simpa using this
  have hval : ∀ w, some w ∈ times ↔ w ∈ times.filterMap id := by
    intro w
    simp [List.mem_filterMap]
  obtain ⟨i, hi, hs⟩ := map_set_of_one (by linarith) times hv
  refine ⟨i, v, hi, hs, ?_, ?_, ?_⟩
  · intro w hw
    rw [← hmv]
    exact m2 w ((hval w).1 hw)
  · intro j w hj hw
    by_contra hcon
    have hw' : w > 9 / 10 * m := by rw [hmv]; linarith
    have h3 : (times.map (fun x => if x.getD 0 > 9 / 10 * m then none else x))[j]? = some none := by
      rw [List.getElem?_map, hw]
      simp only [Option.map_some, Option.getD_some]
      rw [if_pos hw']
    rw [hs, List.getElem?_set_ne (Ne.symm hj), hw] at h3
    cases h3
  · have hl : (0 : ℚ) < ((times.filterMap id).length : ℚ) := by exact_mod_cast h1
    rw [← hmv]
    have := mul_lt_mul_of_pos_right ha hl
    have e : 2 * ((times.filterMap id).sum / ((times.filterMap id).length : ℚ)) * ((times.filterMap id).length : ℚ) = 2 * (times.filterMap id).sum := by
      field_simp
    linarith

example : filterExtreme [none, some 1, some 9, some 1, some 1] = [none, some 1, none, some 1, some 1] ∧
    filterExtreme [none, some 1, some 9, some 9, some 1] = [none, some 1, some 9, some 9, some 1] := by decide +kernel

end Phyem.Monitor
