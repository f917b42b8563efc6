import Verif.Folder.Props

/-! Cases that meet the hypotheses, and what does not hold. -/

namespace Phyem.Folder

/-- The root with the folder `a`, the files `a/x` and `a/y`, and the folder `b` with the folder `b/c` and the file `b/z`. -/
def ex : FS := fun p =>
  if p = [] ∨ p = ["a"] ∨ p = ["b"] ∨ p = ["b", "c"] then some .folder
  else if p = ["a", "x"] ∨ p = ["a", "y"] ∨ p = ["b", "z"] then some .file else none

example : Tree ex := by
  refine ⟨by simp [ex], fun p n h => ?_⟩
  rcases p with _ | ⟨a, _ | ⟨b, p⟩⟩
  · simp [ex]
  · simp only [ex, List.cons_append, List.nil_append, List.cons.injEq, and_true, reduceCtorEq, false_or, or_false, and_false] at h ⊢
    by_cases h1 : a = "a"
    · simp [h1]
    · by_cases h2 : a = "b"
      · simp [h2]
      · simp [h1, h2] at h
  · simp [ex] at h

example : ["y", "x"].Nodup ∧ ∀ n, n ∈ ["y", "x"] ↔ ex (["a"] ++ [n]) ≠ none := by
  refine ⟨by decide, fun n => ?_⟩
  by_cases h1 : n = "x" <;> by_cases h2 : n = "y" <;> simp [ex, h1, h2]

example : (emptyDir true ex ["a"] ["y", "x"]).2 = true := by decide +kernel

example : (mkdir true ex ["a", "k"]).2 = true ∧ (mkdir true ex ["k", "a"]).2 = false ∧ (mkdir true ex ["a", "x"]).2 = false := by decide +kernel

example : (remove true ex [["a", "x"], ["b", "z"]]).2 = true ∧ (remove true ex [["a", "x"], ["a", "x"]]).2 = false := by decide +kernel

example : (rmdir true ex [["b", "c"]]).2 = true := (rmdir_iff ex _).2 (by simp [ex])

/-- C198, refuted: when an error is raised, files may be gone already. -/
theorem atomic_refuted : ¬ ∀ (fs : FS) (p : Path) (names : List String), names.Nodup → (∀ n, n ∈ names ↔ fs (p ++ [n]) ≠ none) →
    (emptyDir true fs p names).2 = false → (emptyDir true fs p names).1 = fs := by
  intro h
  have hl : ∀ n, n ∈ ["z", "c"] ↔ ex (["b"] ++ [n]) ≠ none := by
    intro n
    by_cases h1 : n = "c" <;> by_cases h2 : n = "z" <;> simp [ex, h1, h2]
  have h1 := congrFun (h ex ["b"] ["z", "c"] (by decide) hl (by decide +kernel)) ["b", "z"]
  have h2 : (emptyDir true ex ["b"] ["z", "c"]).1 ["b", "z"] = none := by decide +kernel
  rw [h2] at h1
  simp [ex] at h1

end Phyem.Folder
