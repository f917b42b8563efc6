import Verif.MgNodes.Pick

/-! # The check nodes -/

namespace Phyem.MgNodes

/-- Twice the sum of the ratios before they are divided. -/
def total (m : ℕ) (half : Bool) : ℚ := if half then (m : ℚ) * m else (m : ℚ) * (m + 1)

/-- The `k`-th check node. -/
def check (D : ℚ) (k : ℕ) : ℚ := -1 + 2 * ((k : ℚ) + 1) * (k + 2) / D

lemma cumulate_append : ∀ (x y : List ℚ) (a : ℚ), cumulate a (x ++ y) = cumulate a x ++ cumulate (a + 2 * x.sum) y
  | [], y, a => by simp [cumulate]
  | r :: x, y, a => by
    rw [List.cons_append, cumulate, cumulate, cumulate_append x y, List.sum_cons, List.cons_append]
    congr 3; ring

lemma cumulate_range (s : ℚ) : ∀ (n k : ℕ) (a : ℚ), cumulate a ((List.range' k n).map fun i : ℕ => ((i : ℚ) + 1) / s) =
    (List.range' k n).map fun i : ℕ => a + (((i : ℚ) + 1) * (i + 2) - k * (k + 1)) / s
  | 0, k, a => by simp [cumulate]
  | n + 1, k, a => by
    rw [List.range'_succ, List.map_cons, List.map_cons, cumulate, cumulate_range s n (k + 1)]
    congr 1
    · ring
    · apply List.map_congr_left
      intro i _
      push_cast
      ring

lemma sum_range (m : ℕ) : ((List.range m).map fun i : ℕ => (i : ℚ) + 1).sum = (m : ℚ) * (m + 1) / 2 := by
  induction m with
  | zero => simp
  | succ m ih => rw [List.range_succ, List.map_append, List.sum_append, ih]; simp; ring

lemma ratio_eq (m : ℕ) (half : Bool) : ∃ z, ratio (m + 1) half =
    ((List.range' 0 m).map fun i : ℕ => ((i : ℚ) + 1) / (total (m + 1) half / 2)) ++ [z] := by
  unfold ratio
  have e : ((List.range (m + 1)).map fun i : ℕ => (i : ℚ) + 1) = ((List.range m).map fun i : ℕ => (i : ℚ) + 1) ++ [(m : ℚ) + 1] := by
    rw [List.range_succ, List.map_append]; rfl
  dsimp only
  cases half
  · refine ⟨((m : ℚ) + 1) / (((List.range (m + 1)).map fun i : ℕ => (i : ℚ) + 1).sum), ?_⟩
    simp only [Bool.false_eq_true, if_false]
    rw [sum_range, e, List.map_append, List.map_map, ← List.range_eq_range']
    congr 1
  · simp only [if_true]
    rw [e, List.dropLast_concat, List.sum_append, sum_range, List.map_append, List.map_map, ← List.range_eq_range']
    refine ⟨((m + 1 : ℕ) : ℚ) / 2 / ((m : ℚ) * (m + 1) / 2 + [((m + 1 : ℕ) : ℚ) / 2].sum), ?_⟩
    congr 1
    apply List.map_congr_left
    intro i _
    simp only [Function.comp, total, if_true, List.sum_cons, List.sum_nil]
    congr 1
    push_cast
    ring

lemma checks_eq (m : ℕ) (half : Bool) : checks (m + 1) half = (List.range' 0 m).map (check (total (m + 1) half)) := by
  obtain ⟨z, hz⟩ := ratio_eq m half
  unfold checks
  rw [hz, cumulate_append, show ∀ a : ℚ, cumulate a [z] = [a + 2 * z] from fun a => rfl, List.dropLast_concat, cumulate_range]
  apply List.map_congr_left
  intro i _
  unfold check
  push_cast
  rw [div_div_eq_mul_div]
  ring

lemma total_pos {m : ℕ} {half : Bool} (h : 2 ≤ m) : 0 < total m half := by
  have : (2 : ℚ) ≤ m := by exact_mod_cast h
  unfold total
  split_ifs <;> positivity

lemma check_lt {D : ℚ} (hD : 0 < D) : ∀ i j, i < j → check D i < check D j := by
  intro i j hij
  have : (i : ℚ) < j := by exact_mod_cast hij
  have hi : (0 : ℚ) ≤ i := by positivity
  unfold check
  have : 2 * ((i : ℚ) + 1) * (i + 2) / D < 2 * ((j : ℚ) + 1) * (j + 2) / D := by
    apply div_lt_div_of_pos_right _ hD
    nlinarith
  linarith

end Phyem.MgNodes
