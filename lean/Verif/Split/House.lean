import Verif.Split.Numbers

/-!
# A concrete mesh that is split, and where splitting goes wrong
-/

namespace Phyem.Split

example : Distinct house := by unfold Distinct; decide +kernel

example : (ts house).map (fun M => M.map fun d => d.map fun p => p.2.map) =
    some [[[0, 8, 9, 10], [1, 11, 9, 8], [2, 10, 9, 11]],
      [[2, 11, 12, 13], [11, 1, 14, 12], [12, 14, 3, 15], [13, 12, 15, 5], [1, 16, 17, 14], [16, 6, 18, 17], [17, 18, 7, 19],
        [14, 17, 19, 3]]] := by decide +kernel

example : ((parseTs 2 [] house).map fun q => (elems q.1).length) = some 44 := by decide +kernel

/-- Elements whose indices are an integer and its text: one loses its new elements. -/
theorem names_refuted : ((ts [[(.inl 1, (⟨.quad (0, 0) (1, 0) (1, 1) (0, 1), [0, 1, 2, 3]⟩ : Elem ℚ ℕ)),
      (.inr ['1'], ⟨.quad (1, 0) (2, 0) (2, 1) (1, 1), [1, 4, 5, 2]⟩)]]).map fun M => (elems M).length) = some 4 := by
  decide +kernel

/-- A periodic strip of two elements: the two different edges between nodes 0 and 1 have one middle, so that all four quarters of the strip at
the lower side have it as a corner. -/
theorem periodic_refuted : ((ts [[(.inl 0, (⟨.quad (0, 0) (1, 0) (1, 1) (0, 1), [0, 1, 2, 3]⟩ : Elem ℚ ℕ)),
      (.inl 1, ⟨.quad (1, 0) (2, 0) (2, 1) (1, 1), [1, 0, 3, 2]⟩)]]).map fun M =>
        ((elems M).filter fun e => decide (4 ∈ e.map)).length) = some 4 := by
  decide +kernel

end Phyem.Split
