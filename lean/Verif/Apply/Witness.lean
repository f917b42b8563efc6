import Verif.Apply.Props

/-! Cases that meet the hypotheses. -/

namespace Phyem.Apply

open Phyem.Dict

/-- Two forms and three at time instants, one of which is registered before its base form. -/
def exForms : List AForm := [⟨5, some 1, true⟩, ⟨1, none, true⟩, ⟨2, none, true⟩, ⟨6, some 1, true⟩, ⟨7, some 2, true⟩]

example : (exForms.map (·.pure)).Nodup ∧ (∀ f ∈ exForms, f.degree = true) := by decide

example : ∀ f ∈ exForms, ∀ b, f.base = some b → ∃ g ∈ exForms, g.pure = b ∧ g.base = none := by
  intro f hf b hb
  simp only [exForms, List.mem_cons, List.not_mem_nil, or_false] at hf
  rcases hf with rfl | rfl | rfl | rfl | rfl <;> cases hb
  · exact ⟨⟨1, none, true⟩, by decide, rfl, rfl⟩
  · exact ⟨⟨1, none, true⟩, by decide, rfl, rfl⟩
  · exact ⟨⟨2, none, true⟩, by decide, rfl, rfl⟩

example : (rootForms exForms).map (·.2) = some [(2, 7), (1, 6), (1, 5)] := by decide +kernel

/-- A form without a degree. -/
example : rootForms [⟨1, none, true⟩, ⟨5, some 1, false⟩] = none := by decide +kernel

def exImpl : Impl ℕ := ⟨[(0, 10)], [(0, 20)], [(3, 33)], [(1, 41)], fun i => if i = 9 then some 99 else none⟩

example : objects exImpl [(0, .manifold 0), (1, .space 3), (2, .space 4), (3, .form true 1), (4, .form false 1), (5, .other 9), (6, .other 8)] [] =
    some [(0, 10), (1, 33), (3, 41), (5, 99)] := by decide +kernel

example : (objects exImpl [(0, .mesh 7)] []) = none := by decide +kernel

end Phyem.Apply
