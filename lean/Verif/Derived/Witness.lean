import Verif.Derived.Props

/-! Examples. -/

namespace Phyem.Derived

open Phyem.Dict Phyem.Cochain Phyem.Chaining

/-- Two forms at times 0 and 1; the second one also has a cochain at time 2. -/
def two : World := fun i =>
  if i = 0 then ⟨[(0, fun _ k => k), (1, fun e k => e + k)], some 1⟩
  else if i = 1 then ⟨[(0, fun _ _ => 1), (1, fun _ k => 2 * k), (2, fun _ _ => 0)], some 2⟩
  else S.empty

def grad : ℕ → ℕ → ℤ := fun k j => if j = k + 1 then 1 else if j = k then -1 else 0

/-- The first form plus the second one, and its derivative, at a time that is rounded to 1. -/
example : (loc two (.add (.base 0) (.base 1)) (some (1 + 1 / 10 ^ 9))).map (fun z => z 3 2) = some 9 ∧
    (loc two (.d 3 grad (.sub (.base 0) (.base 1))) (some 1)).map (fun z => (z 3 0, z 3 1)) = some (-1, -1) ∧
    (loc two (.add (.base 0) (.base 1)) (some 2)).isNone ∧ (loc two (.add (.base 0) (.base 1)) none).isNone ∧
    (loc two (.add (.base 0) (.base 0)) none).map (fun z => z 3 2) = some 10 := by decide +kernel

def curl : ℕ → ℕ → ℤ := fun _ i => ([1, -1, -1, 1] : List ℤ).getD i 0

def grad4 : ℕ → ℕ → ℤ := fun i j => (([[-1, 1, 0, 0], [0, 0, -1, 1], [-1, 0, 1, 0], [0, -1, 0, 1]] : List (List ℤ)).getD i []).getD j 0

/-- The hypothesis of `d_d` is met: the curl of the gradient on four nodes of a square. -/
example (k j : ℕ) (hj : j < 4) : ∑ i ∈ Finset.range 4, curl k i * grad4 i j = 0 := by
  have h : ∀ j < 4, ∑ i ∈ Finset.range 4, curl 0 i * grad4 i j = 0 := by decide +kernel
  exact h j hj

/-- A new cochain at time 1 is seen in the sum. -/
example : (loc (setAt two 0 1 fun _ _ => 100) (.add (.base 0) (.base 1)) (some 1)).map (fun z => z 3 2) = some 104 ∧
    (1 : ℕ) ∉ leaves (.d 3 grad (.base 0)) ∧ parseT 2 ≠ parseT 1 := by decide +kernel

/-- Two elements that share the dofs 1 and 3: the mean of different values, the values of a global vector, and counting from the end. -/
example : numDofs [[0, 1, 2, 3], [1, 4, 3, 5]] = some 6 ∧ ofDof [[0, 1, 2, 3], [1, 4, 3, 5]] (fun e r => 10 * e + r) 1 true = some (11 / 2) ∧
    ofDof [[0, 1, 2, 3], [1, 4, 3, 5]] (fun e r => 10 * e + r) (-3) true = some (15 / 2) ∧
    ofDof [[0, 1, 2, 3], [1, 4, 3, 5]] (fun e r => 10 * e + r) 1 false = some 1 ∧ ofDof [[0, 1, 2, 3], [1, 4, 3, 5]] (fun e r => 10 * e + r) 6 true = none ∧
    ∀ e < 2, ∀ r < 4, (rowOf [[0, 1, 2, 3], [1, 4, 3, 5]] e)[r]? = some ((rowOf [[0, 1, 2, 3], [1, 4, 3, 5]] e).getD r 0) := by decide +kernel

/-- Functions for the same regions in another order, and for other regions. -/
example : (keys [('a', 1), ('b', 2)]).Nodup ∧ (keys [('b', 10), ('a', 20)]).Nodup ∧
    combine (· - ·) [('a', (1 : ℤ)), ('b', 2)] [('b', 10), ('a', 20)] = some [('a', -19), ('b', -8)] ∧
    combine (· + ·) [('a', (1 : ℤ)), ('b', 2)] [('b', 10), ('c', 20)] = none ∧ combine (· + ·) [('a', (1 : ℤ))] [('a', 10), ('c', 20)] = none := by
  decide +kernel

end Phyem.Derived
