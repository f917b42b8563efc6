import Verif.SideFaces.Props

/-! Cases that meet the hypotheses, and what does not hold. -/

namespace Phyem.SideFaces

open Phyem.Dict

/-- Two regions of 2 by 3 elements side by side along the first axis. -/
def exNum (ri : ℕ) (idx : List ℕ) : ℕ := match idx with
  | [a, b] => 6 * ri + a + 2 * b
  | _ => 0

def exShape (_ : ℕ) : List ℕ := [2, 3]

def exInner (ri j : ℕ) : Bool := decide (ri = 0 ∧ j = 1 ∨ ri = 1 ∧ j = 0)

/-- A section that covers the first side of region 0 and the upper sides of both. -/
def exMap : List (ℕ × List Bool) := [(0, [true, false, false, true]), (1, [false, false, false, true])]

example : faces exNum exInner exShape exMap = some [(0, 0, 0), (2, 0, 0), (4, 0, 0), (4, 1, 1), (5, 1, 1), (10, 1, 1), (11, 1, 1)] := by decide +kernel

example : ∀ ri, ∀ s ∈ exShape ri, 0 < s := by simp [exShape]

example : (exMap.map (·.1)).Nodup := by decide

example : ∀ ri ri' a b, InBox a (exShape ri) → InBox b (exShape ri') → exNum ri a = exNum ri' b → ri = ri' ∧ a = b := by
  intro ri ri' a b ha hb e
  simp only [InBox, exShape] at ha hb
  cases ha with
  | cons h1 ha => cases ha with
    | cons h2 ha => cases ha with
      | nil => cases hb with
        | cons h3 hb => cases hb with
          | cons h4 hb => cases hb with
            | nil =>
              simp only [exNum] at e
              simp only [List.cons.injEq, and_true]
              omega

/-- A side between two regions is refused. -/
example : faces exNum exInner exShape [(0, [false, true, false, false])] = none := by decide +kernel

/-- Two sections that share a face. -/
example : reads [([(0, 0, 0), (2, 0, 0)], 1), ([(2, 0, 0), (3, 1, 1)], 0), ([(2, 0, 0), (3, 1, 1)], 1)] ⟨[], 0⟩ =
    [some ((2, 0, 0), 0), some ((2, 0, 0), 0), some ((3, 1, 1), 1)] := by decide +kernel

/-- C203, refuted: whether a negative number gives a face depends on what was read before. -/
theorem item_refuted : ¬ ∀ (F : List Face) (i : ℤ) (k k' : Kept), Good k → Good k' → (((item F i k).1.map (·.1)) = ((item F i k').1.map (·.1))) := by
  intro h
  have h0 : Good ⟨[], 0⟩ := ⟨fun _ _ h => (by cases h), fun _ _ _ h => (by cases h)⟩
  have h1 := (item_good [(4, 0, 1)] 0 ⟨[], 0⟩ h0).1
  have h2 := h [(4, 0, 1)] (-1) _ _ h0 h1
  revert h2
  decide +kernel

end Phyem.SideFaces
