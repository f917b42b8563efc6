import Verif.Memo.Props
import Verif.Memo.Keys

/-! Examples, and values that are given by mistake. -/

namespace Phyem.Memo

/-- The hypothesis of `memo1_faithful` is met, with a call that is repeated. -/
example : ∀ a ∈ ([⟨[.int 12], []⟩, ⟨[.bool true], []⟩, ⟨[.int 1, .text ['2']], []⟩, ⟨[.int 12], []⟩, ⟨[], [(['n'], .int (-2))]⟩] : List Args),
    ∀ b ∈ ([⟨[.int 12], []⟩, ⟨[.bool true], []⟩, ⟨[.int 1, .text ['2']], []⟩, ⟨[.int 12], []⟩, ⟨[], [(['n'], .int (-2))]⟩] : List Args),
    key1 a = key1 b → a = b := by decide +kernel

/-- The second call with the same arguments does not run the function; after an error it is run again. -/
example : memo1 [(none, ⟨[.int 1], []⟩), (some 5, ⟨[.int 1], []⟩), (some 6, ⟨[.int 1], []⟩), (some 7, ⟨[.bool true], []⟩)] =
    [⟨none, true⟩, ⟨some 5, true⟩, ⟨some 5, false⟩, ⟨some 7, true⟩] := by decide +kernel

/-- Objects do not share values, methods neither, and the order of keyword arguments does not matter. -/
example : memo2 [] [⟨0, 'f', ⟨[.int 1], [(['a'], .int 1), (['b'], .int 2)]⟩, some 5⟩, ⟨1, 'f', ⟨[.int 1], [(['a'], .int 1), (['b'], .int 2)]⟩, some 6⟩,
      ⟨0, 'g', ⟨[.int 1], [(['a'], .int 1), (['b'], .int 2)]⟩, some 7⟩, ⟨0, 'f', ⟨[.int 1], [(['b'], .int 2), (['a'], .int 1)]⟩, some 8⟩,
      ⟨0, 'f', ⟨[.arr [1]], []⟩, some 9⟩] =
    [⟨some 5, true⟩, ⟨some 6, true⟩, ⟨some 7, true⟩, ⟨some 5, false⟩, ⟨none, false⟩] := by decide +kernel

/-- The hypotheses of `memo2_faithful` are met by a method that counts its arguments. -/
example : ∀ a b, key2 a = key2 b → ((key2 a).elim 0 fun k => k.1.length) = ((key2 b).elim 0 fun k => k.1.length) := fun _ _ h => by rw [h]

/-- The hypothesis of `memo4_faithful` is met by a function that uses its arguments. -/
example : (∀ a b, keyPos a = keyPos b → (keyPos a).getD [] = (keyPos b).getD []) ∧
    memo4 [] [(some 5, [.int 1, .text ['a']]), (some 6, [.int 2]), (some 7, [.int 1, .text ['a']]), (some 8, [.arr [1]])] =
      [⟨some 5, true⟩, ⟨some 6, true⟩, ⟨some 5, false⟩, ⟨none, false⟩] := ⟨fun _ _ h => by rw [h], by decide +kernel⟩

/-- The hypotheses of `key1_ints` and `memo1_ints` are met. -/
example : ∀ a ∈ ([⟨[.int 12, .int (-3)], [("n".toList, .int 4), ("m".toList, .int 0)]⟩, ⟨[.int 1, .int 2], []⟩] : List Args), Ints a := by
  intro a ha
  rcases List.mem_cons.1 ha with rfl | ha
  · exact ⟨by simp, by simp⟩
  · rw [List.mem_singleton] at ha
    subst ha
    exact ⟨by simp, by simp⟩

/-- The hypotheses of `key2_iff` are met, and the order of keyword arguments does not matter. -/
example : (∀ x ∈ ([.int 1, .text ['a']] : List Py), NoArr x) ∧ (∀ p ∈ ([(['a'], .int 1), (['b'], .bool false)] : List (Str × Py)), NoArr p.2) ∧
    key2 ⟨[.int 1], [(['a'], .int 1), (['b'], .bool false)]⟩ = key2 ⟨[.bool true], [(['b'], .int 0), (['a'], .int 1)]⟩ ∧
    key2 ⟨[.int 1, .int 2], []⟩ ≠ key2 ⟨[.int 1, .int 3], []⟩ := by
  refine ⟨by simp [NoArr], by simp [NoArr], by decide +kernel, by decide +kernel⟩

/-- A function gives the same when it is decorated with `memoize1`. -/
def Faithful1 : Prop := ∀ (f : Args → ℤ) (h : List Args), (memo1 (h.map fun a => (some (f a), a))).map Res.val = h.map fun a => some (f a)

def zeros : List ℤ := List.replicate 1001 0

def bump : List ℤ := List.replicate 500 0 ++ 1 :: List.replicate 500 0

/-- The sum of an array. -/
def total (a : Args) : ℤ := match a.pos with
  | [.arr l] => l.sum
  | _ => 0

lemma printed_same : key1 ⟨[.arr zeros], []⟩ = key1 ⟨[.arr bump], []⟩ := by decide +kernel

/-- C186, what fails: two arrays of 1001 entries that differ in the middle are printed the same, and the sum of the one is given for the other. -/
theorem memo1_refuted : ¬ Faithful1 := by
  intro h
  have hs := h total [⟨[.arr zeros], []⟩, ⟨[.arr bump], []⟩]
  have hk : (memo1 ([⟨[.arr zeros], []⟩, ⟨[.arr bump], []⟩].map fun a => (some (total a), a)))[1]? = some ⟨some (total ⟨[.arr zeros], []⟩), false⟩ :=
    (memo1_spec _ 1 (some (total ⟨[.arr bump], []⟩)) ⟨[.arr bump], []⟩ rfl).2 0 (by decide) (total ⟨[.arr zeros], []⟩) ⟨[.arr zeros], []⟩ rfl
      printed_same (fun l hl => absurd hl (by omega))
  have h1 := congrArg (fun l => l[1]?) hs
  simp only [List.getElem?_map, hk] at h1
  have h2 : total ⟨[.arr zeros], []⟩ = total ⟨[.arr bump], []⟩ := by simpa using h1
  exact absurd h2 (by decide +kernel)

/-- A method gives the same when it is decorated with `memoize2`, for arguments without arrays. -/
def Faithful2 : Prop := ∀ (f : Args → Str) (h : List Args), (∀ a ∈ h, key2 a ≠ none) →
  (memo2 (O := ℕ) (M := Char) [] (h.map fun a => ⟨0, 'f', a, some (f a)⟩)).map Res.val = h.map fun a => some (f a)

/-- C186, what fails: after a call with 1, a call with `True` gives what was given for 1. -/
theorem memo2_refuted : ¬ Faithful2 := by
  intro h
  have := h (fun a => (a.pos.map repr).flatten) [⟨[.int 1], []⟩, ⟨[.bool true], []⟩] (by decide +kernel)
  exact absurd this (by decide +kernel)

/-- A method that reads its object, which is changed between calls, gives the same when it is decorated. -/
def Fresh2 : Prop := ∀ (f : ℕ → Args → ℕ) (h : List (ℕ × Args)), (∀ e ∈ h, key2 e.2 ≠ none) →
  (memo2 (O := ℕ) (M := Char) [] (h.map fun e => ⟨0, 'f', e.2, some (f e.1 e.2)⟩)).map Res.val = h.map fun e => some (f e.1 e.2)

/-- C186, what fails: what a method gave before its object was changed is given afterwards, too. -/
theorem fresh2_refuted : ¬ Fresh2 := by
  intro h
  have := h (fun s _ => s) [(3, ⟨[.int 1], []⟩), (4, ⟨[.int 1], []⟩)] (by decide +kernel)
  exact absurd this (by decide +kernel)

end Phyem.Memo
