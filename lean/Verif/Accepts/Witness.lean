import Verif.Accepts.Props
import Mathlib.Tactic.FinCases

/-! Examples, and what is accepted against the documentation. -/

namespace Phyem.Accepts

/-- Some classes. -/
inductive C where
  | int
  | float
  | array
deriving DecidableEq

def arr (sh : List ℕ) : Val C := ⟨"ndarray".toList, [.array], none, sh⟩

def five : Val C := ⟨"int".toList, [.int], some 5, []⟩

/-- A method with an integer or an array with two rows, and a natural number. -/
example : accepted [.text "self".toList, .many [.cls .int, .name "ndarray".toList], .text "natural_number".toList]
    [arr [1], five, five] [] = true ∧
    accepted [.text "self".toList, .many [.name "ndarray".toList, .ndim 2, .shape [.num 2, .any]], .text "positive_int".toList]
      [five, arr [2, 7], five] [] = true ∧
    accepted [.text "self".toList, .many [.name "ndarray".toList, .ndim 2, .shape [.num 2, .any]], .text "negative_int".toList]
      [five, arr [2, 7], five] [] = false := by decide +kernel

example : shapeOk [4, 5, 6] [.num 4, .any, .dots] = true ∧ shapeOk [4, 5] [.dots, .num 5] = false ∧ shapeOk [] [.any] = false := by decide +kernel

/-- The hypotheses of `type_ordered` and of the two parts of `many_iff` are met. -/
example : (∀ t ∈ ([.name "ndarray".toList, .ndim 2] : List (Item C)), ∀ c, t ≠ .cls c) ∧
    Item.name "sparse_matrix".toList ∉ ([.cls .int, .name "ndarray".toList] : List (Item C)) ∧
    Item.name "sparse_matrix".toList ∈ ([.cls .int, .name "sparse_matrix".toList] : List (Item C)) :=
  ⟨by intro t ht c; fin_cases ht <;> simp, by decide +kernel, by decide +kernel⟩

/-- `text_iff` with a name. -/
example : "ndarray".toList ∉ "sparse_matrix".toList :: alone ∧ check 1 (arr [2]) (.text "ndarray".toList) = true := by decide +kernel

/-- As documented (`accepts.py:62-65`): without `...` the shape has as many entries as are asked for, and with it at least as many as are before it. -/
def AsMany : Prop := ∀ (sh : List ℕ) (ds : List Dim), shapeOk sh ds = true →
  (Dim.dots ∉ ds → sh.length = ds.length) ∧ (Dim.dots ∈ ds → ds.length - 1 ≤ sh.length)

/-- C187, what fails: `shape=(4,x)` accepts an array with three axes. -/
theorem more_refuted : ¬ AsMany := by
  intro h
  have := (h [4, 5, 6] [.num 4, .any] (by decide +kernel)).1 (by decide +kernel)
  simp at this

/-- C187, what fails: `shape=(4,x,...)` accepts an array with one axis. -/
theorem fewer_refuted : ¬ ∀ (sh : List ℕ) (ds : List Dim), shapeOk sh ds = true → Dim.dots ∈ ds → ds.length - 1 ≤ sh.length := by
  intro h
  have := h [4] [.num 4, .any, .dots] (by decide +kernel) (by decide +kernel)
  simp at this

/-- All requirements of dimensions in a tuple are checked. -/
def AllDims : Prop := ∀ (sh : List ℕ) (l : List (Item C)), dimsOk sh l = true → ∀ n, Item.ndim n ∈ l → (sh.length : ℤ) = n

/-- C187, what fails: `ndim=2` after `shape=(4,x)` is not looked at. -/
theorem dims_refuted : ¬ AllDims := by
  intro h
  have := h [4, 5, 6] [.shape [.num 4, .any], .ndim 2] (by decide +kernel) 2 (by decide +kernel)
  simp at this

/-- It does not matter whether an argument is given by its place or by its name. -/
def AnyWay : Prop := ∀ (types : List (Req C)) (a : Val C) (name : Str), accepted types [a] [] = accepted types [] [(name, a)]

/-- C187, what fails: an argument that is given by its name is not checked. -/
theorem keyword_refuted : ¬ AnyWay := by
  intro h
  have := h [.text "negative_int".toList] five ['n']
  exact absurd this (by decide +kernel)

end Phyem.Accepts
