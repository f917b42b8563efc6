import Verif.Rename.Props
import Mathlib.Tactic.IntervalCases

/-! Examples, and files that are lost. -/

namespace Phyem.Rename

/-- A folder that is given by a list. -/
def folder (l : List (Name × ℕ)) : Folder ℕ := fun s => (l.find? fun p => p.1 == s).map Prod.snd

def album : List (Name × ℕ) := [("b.png".toList, 1), (".rc".toList, 2), ("a.b.txt".toList, 3), ("c.png".toList, 4)]

lemma album_lists : Lists (folder album) (album.map Prod.fst) where
  nodup := by decide +kernel
  mem := by
    intro s
    simp only [folder, album, List.map_cons, List.map_nil, List.mem_cons, List.not_mem_nil, or_false, List.find?_cons, List.find?_nil]
    by_cases h1 : s = "b.png".toList
    · simp [h1]
    by_cases h2 : s = ".rc".toList
    · subst h2; decide +kernel
    by_cases h3 : s = "a.b.txt".toList
    · subst h3; decide +kernel
    by_cases h4 : s = "c.png".toList
    · subst h4; decide +kernel
    · have e1 : ("b.png".toList == s) = false := by simpa using fun e => h1 e.symm
      have e2 : (".rc".toList == s) = false := by simpa using fun e => h2 e.symm
      have e3 : ("a.b.txt".toList == s) = false := by simpa using fun e => h3 e.symm
      have e4 : ("c.png".toList == s) = false := by simpa using fun e => h4 e.symm
      simp only [h1, h2, h3, h4, e1, e2, e3, e4]
      simp

/-- The hypotheses of `rename_spec` are met: of four files, the two pictures are renamed, to number 1 and number 4. -/
example : ∃ G, rename (folder album) (album.map Prod.fst) "im".toList (some [".png".toList]) = .done G ∧ G "im_1.png".toList = some 1 ∧
    G "im_4.png".toList = some 4 ∧ G ".rc".toList = some 2 ∧ G "b.png".toList = none := by
  obtain ⟨G, hG, h1, h2, h3⟩ := rename_spec (folder album) (album.map Prod.fst) album_lists "im".toList (some [".png".toList]) (by decide +kernel)
    (free_of_fresh _ _ album_lists _ _ (by decide +kernel))
  refine ⟨G, hG, ?_, ?_, ?_, ?_⟩
  · have := h1 0 "b.png".toList (by decide +kernel) (Or.inr ⟨_, rfl, by decide +kernel⟩)
    exact this
  · have := h1 3 "c.png".toList (by decide +kernel) (Or.inr ⟨_, rfl, by decide +kernel⟩)
    exact this
  · exact h2 ".rc".toList (by decide +kernel) ⟨_, rfl, by decide +kernel⟩
  · by_contra hne
    obtain ⟨c, hc⟩ := Option.ne_none_iff_exists'.1 hne
    obtain ⟨i, s, hi, hs⟩ := h3 _ c hc
    have : ∀ i < 4, ∀ s, (album.map Prod.fst)[i]? = some s → "b.png".toList ≠ newName "im".toList (some [".png".toList]) i s := by
      intro i hi s hs
      interval_cases i <;> simp [album] at hs <;> subst hs <;> decide +kernel
    refine this i ?_ s hi hs
    have := (List.getElem?_eq_some_iff.1 hi).1
    simpa [album] using this

example : ext "a.b.txt".toList = ".txt".toList ∧ ext ".rc".toList = [] ∧ ext "..a".toList = [] ∧ ext "x.".toList = ".".toList := by decide +kernel

/-- Renaming the files of a folder keeps all files. -/
def Keeps : Prop := ∀ (F : Folder ℕ) (L : List Name), Lists F L → ∀ pre exts G, rename F L pre exts = .done G → ∀ x c, F x = some c → ∃ y, G y = some c

def twice : List (Name × ℕ) := [("a.txt".toList, 1), ("f_1.txt".toList, 2)]

lemma twice_lists : Lists (folder twice) (twice.map Prod.fst) where
  nodup := by decide +kernel
  mem := by
    intro s
    simp only [folder, twice, List.map_cons, List.map_nil, List.mem_cons, List.not_mem_nil, or_false, List.find?_cons, List.find?_nil]
    by_cases h1 : s = "a.txt".toList
    · simp [h1]
    by_cases h2 : s = "f_1.txt".toList
    · subst h2; decide +kernel
    · have e1 : ("a.txt".toList == s) = false := by simpa using fun e => h1 e.symm
      have e2 : ("f_1.txt".toList == s) = false := by simpa using fun e => h2 e.symm
      simp only [h1, h2, e1, e2]
      simp

/-- C185, what fails: a folder that has been renamed already and has got one more file, which is listed first. It takes the name `f_1.txt`, and what was
in this file is lost. -/
theorem keeps_refuted : ¬ Keeps := by
  intro h
  have hl : loop "f".toList none (folder twice) 0 (twice.map Prod.fst) =
      some fun x => if x = "f_2.txt".toList then some 1 else if x = "f_1.txt".toList then none else
        if x = "f_1.txt".toList then some 1 else if x = "a.txt".toList then none else folder twice x := by
    simp only [twice, List.map_cons, List.map_nil, loop, chosen, if_true]
    rw [move_some (c := 1) (by decide +kernel)]
    simp only [Option.bind_some]
    rw [move_some (c := 1) (by decide +kernel)]
    have e1 : target "f".toList 0 "a.txt".toList = "f_1.txt".toList := by decide +kernel
    have e2 : target "f".toList (0 + 1) "f_1.txt".toList = "f_2.txt".toList := by decide +kernel
    simp only [Option.bind_some, e1, e2]
  have hr : rename (folder twice) (twice.map Prod.fst) "f".toList none = .done fun x => if x = "f_2.txt".toList then some 1 else
      if x = "f_1.txt".toList then none else if x = "f_1.txt".toList then some 1 else if x = "a.txt".toList then none else folder twice x := by
    unfold rename
    rw [if_neg (by decide +kernel), hl]
  obtain ⟨y, hy⟩ := h _ _ twice_lists _ _ _ hr "f_1.txt".toList 2 (by decide +kernel)
  by_cases h1 : y = "f_2.txt".toList
  · simp [h1] at hy
  · by_cases h2 : y = "f_1.txt".toList
    · subst h2; exact absurd hy (by decide +kernel)
    · by_cases h3 : y = "a.txt".toList
      · subst h3; exact absurd hy (by decide +kernel)
      · rw [if_neg h1, if_neg h2, if_neg h2, if_neg h3] at hy
        have e1 : ("a.txt".toList == y) = false := by simpa using fun e => h3 e.symm
        have e2 : ("f_1.txt".toList == y) = false := by simpa using fun e => h2 e.symm
        simp only [folder, twice, List.find?_cons, List.find?_nil, e1, e2] at hy
        simp at hy

end Phyem.Rename
