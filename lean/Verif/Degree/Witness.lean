import Verif.Degree.Props
import Mathlib.Tactic.FieldSimp

/-! Examples, and a degree that is refused. -/

namespace Phyem.Degree

/-- Evenly spaced nodes. -/
def even (n : ℕ) : List ℚ := (List.range (n + 1)).map fun (k : ℕ) => 2 * (k : ℚ) / n - 1

/-- Evenly spaced nodes meet the hypotheses of `edges_spec`. -/
example : Lobatto even where
  length n _ := by simp [even]
  mono n hn := by
    unfold even
    rw [List.pairwise_map]
    refine List.pairwise_lt_range.imp fun {a b} h => ?_
    have h1 : (0 : ℚ) < n := by exact_mod_cast hn
    have h2 : (a : ℚ) < b := by exact_mod_cast h
    have : 2 * (a : ℚ) / n < 2 * (b : ℚ) / n := by
      rw [div_lt_div_iff_of_pos_right h1]; linarith
    linarith
  first n _ := by simp [even]
  last n hn := by
    have h1 : (n : ℚ) ≠ 0 := by exact_mod_cast hn.ne'
    simp only [even, List.getElem?_map, List.getElem?_range (Nat.lt_succ_self n), Option.map_some, Option.some.injEq]
    field_simp
    norm_num

/-- Degrees that are accepted and refused, and edges. -/
example : parse 2 (.seq [.int 3, .int 2]) = some [3, 2] ∧ parse 3 (.flt 2) = some [2, 2, 2] ∧ parse 2 (.seq [.int 3, .int 0]) = none ∧
    parse 2 (.int (-1)) = none ∧ parseB 2 (.seq [.seq [.int 3, .flt 1], .seq [.int 2, .int 2]]) = some [[3, 1], [2, 2]] ∧
    edges even [2, 1] = [[1, 1], [2]] := by decide +kernel

/-- A number that is accepted as a degree is accepted for each axis. -/
def Uniform : Prop := ∀ (m : ℕ) (q : ℚ), parse m (.flt q) ≠ none → parse m (.seq (List.replicate m (.flt q))) ≠ none

/-- C190, what fails: 3.0 is a degree, but (3.0, 3.0) is not. -/
theorem uniform_refuted : ¬ Uniform := by
  intro h
  exact h 2 3 (by decide +kernel) (by decide +kernel)

end Phyem.Degree
