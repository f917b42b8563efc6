import Verif.Folder.Model
import Mathlib.Data.List.Nodup

/-! What is removed and what is kept. -/

namespace Phyem.Folder

/-- What is there is in folders, and the root is a folder. -/
def Tree (fs : FS) : Prop := fs [] = some .folder ∧ ∀ p n, fs (p ++ [n]) ≠ none → fs p = some .folder

lemma unlinks_spec : ∀ (ps : List Path) (fs : FS), ∃ k ≤ ps.length,
    (∀ q, (unlinks fs ps).1 q = if q ∈ ps.take k then none else fs q) ∧ (∀ q ∈ ps.take k, fs q = some .file) ∧ (ps.take k).Nodup ∧
    ((unlinks fs ps).2 = true ↔ k = ps.length) ∧
    ((unlinks fs ps).2 = false → ∃ p, ps[k]? = some p ∧ (fs p ≠ some .file ∨ p ∈ ps.take k))
  | [], fs => ⟨0, by simp, by simp [unlinks], by simp, by simp, by simp [unlinks], by simp [unlinks]⟩
  | p :: ps, fs => by
    by_cases h : fs p = some .file
    · have hu : unlinks fs (p :: ps) = unlinks (Function.update fs p none) ps := by simp [unlinks, unlink, h]
      obtain ⟨k, hk, h1, h2, h3, h4, h5⟩ := unlinks_spec ps (Function.update fs p none)
      have hp : p ∉ ps.take k := fun hm => by have := h2 p hm; simp at this
      refine ⟨k + 1, by simpa using hk, ?_, ?_, ?_, ?_, ?_⟩
      · intro q
        rw [hu, h1, List.take_succ_cons]
        by_cases hq : q = p
        · subst hq; simp
        · simp [hq]
      · intro q hq
        rw [List.take_succ_cons, List.mem_cons] at hq
        rcases hq with rfl | hq
        · exact h
        · have hne : q ≠ p := fun e => hp (e ▸ hq)
          have := h2 q hq
          rwa [Function.update_of_ne hne] at this
      · rw [List.take_succ_cons, List.nodup_cons]
        exact ⟨hp, h3⟩
      · rw [hu, h4]; simp
      · rw [hu]
        intro hf
        obtain ⟨q, hq, hor⟩ := h5 hf
        refine ⟨q, by simpa using hq, ?_⟩
        rw [List.take_succ_cons, List.mem_cons]
        by_cases hqp : q = p
        · exact Or.inr (Or.inl hqp)
        · rcases hor with ho | ho
          · rw [Function.update_of_ne hqp] at ho
            exact Or.inl ho
          · exact Or.inr (Or.inr ho)
    · have hu : unlinks fs (p :: ps) = (fs, false) := by simp [unlinks, unlink, h]
      exact ⟨0, by simp, by simp [hu], by simp, by simp, by simp [hu], fun _ => ⟨p, by simp, Or.inl h⟩⟩

/-- C197: files are removed one after the other up to the first that cannot be; nothing else is. There is no error iff all are different files. -/
theorem remove_spec (fs : FS) (ps : List Path) :
    (∃ k ≤ ps.length, (∀ q, (remove true fs ps).1 q = if q ∈ ps.take k then none else fs q) ∧ (∀ q ∈ ps.take k, fs q = some .file) ∧
      ((remove true fs ps).2 = true ↔ k = ps.length) ∧
      ((remove true fs ps).2 = false → ∃ p, ps[k]? = some p ∧ (fs p ≠ some .file ∨ p ∈ ps.take k))) ∧
    ((remove true fs ps).2 = true ↔ ps.Nodup ∧ ∀ p ∈ ps, fs p = some .file) := by
  simp only [remove, if_true]
  obtain ⟨k, hk, h1, h2, h3, h4, h5⟩ := unlinks_spec ps fs
  refine ⟨⟨k, hk, h1, h2, h4, h5⟩, ?_⟩
  constructor
  · intro h
    have := h4.1 h
    subst this
    rw [List.take_length] at h2 h3
    exact ⟨h3, h2⟩
  · rintro ⟨hn, hf⟩
    by_contra hc
    obtain ⟨p, hp, ho⟩ := h5 (by simpa using hc)
    rcases ho with ho | ho
    · exact ho (hf p (List.mem_of_getElem? hp))
    · obtain ⟨j, hj⟩ := List.mem_iff_getElem?.1 ho
      rw [List.getElem?_take] at hj
      split at hj
      · rename_i hjk
        obtain ⟨hk', hp'⟩ := List.getElem?_eq_some_iff.1 hp
        obtain ⟨hj', hq'⟩ := List.getElem?_eq_some_iff.1 hj
        have := (List.Nodup.getElem_inj_iff hn).1 (hq'.trans hp'.symm)
        omega
      · cases hj

/-- C198: emptying a folder never removes anything but files that are directly in it, wherever it ends, and in whatever order names come. -/
theorem emptyDir_safe (fs : FS) (p : Path) (names : List String) (q : Path) (h : ¬ (fs q = some .file ∧ ∃ n ∈ names, q = p ++ [n])) :
    (emptyDir true fs p names).1 q = fs q := by
  simp only [emptyDir, if_true]
  split
  · obtain ⟨k, -, h1, h2, -⟩ := unlinks_spec (names.map fun n => p ++ [n]) fs
    rw [h1]
    split
    · rename_i hq
      refine absurd ⟨h2 q hq, ?_⟩ h
      obtain ⟨n, hn, rfl⟩ := List.mem_map.1 (List.mem_of_mem_take hq)
      exact ⟨n, hn, rfl⟩
    · rfl
  · rfl

/-- C198: it ends without an error iff it is a folder without folders in it; then nothing is left in it, and the folder itself and all else is as before. -/
theorem emptyDir_spec (fs : FS) (p : Path) (names : List String) (hn : names.Nodup) (hl : ∀ n, n ∈ names ↔ fs (p ++ [n]) ≠ none) :
    ((emptyDir true fs p names).2 = true ↔ fs p = some .folder ∧ ∀ n, fs (p ++ [n]) ≠ some .folder) ∧
    ((emptyDir true fs p names).2 = true → (∀ n, (emptyDir true fs p names).1 (p ++ [n]) = none) ∧
      ∀ q, (∀ n, q ≠ p ++ [n]) → (emptyDir true fs p names).1 q = fs q) := by
  have hiff : (emptyDir true fs p names).2 = true ↔ fs p = some .folder ∧ ∀ n, fs (p ++ [n]) ≠ some .folder := by
    simp only [emptyDir, if_true]
    split
    · rename_i hp
      have := (remove_spec fs (names.map fun n => p ++ [n])).2
      simp only [remove, if_true] at this
      rw [this]
      constructor
      · rintro ⟨-, h⟩
        refine ⟨hp, fun n hc => ?_⟩
        have := h (p ++ [n]) (List.mem_map.2 ⟨n, (hl n).2 (by rw [hc]; simp), rfl⟩)
        rw [hc] at this
        cases this
      · rintro ⟨-, h⟩
        refine ⟨hn.map (fun a b e => by simpa using e), ?_⟩
        intro q hq
        obtain ⟨n, hm, rfl⟩ := List.mem_map.1 hq
        have h1 := (hl n).1 hm
        have h2 := h n
        cases hk : fs (p ++ [n]) with
        | none => exact absurd hk h1
        | some k => cases k with
          | file => rfl
          | folder => exact absurd hk h2
    · rename_i hp
      simp [hp]
  refine ⟨hiff, fun hok => ⟨fun n => ?_, fun q hq => emptyDir_safe fs p names q (fun hc => ?_)⟩⟩
  · have hp := (hiff.1 hok).1
    simp only [emptyDir, if_true, hp] at hok ⊢
    obtain ⟨k, -, h1, -, -, h4, -⟩ := unlinks_spec (names.map fun n => p ++ [n]) fs
    rw [h1, h4.1 hok, List.take_length]
    split
    · rfl
    · rename_i hm
      by_contra hc
      exact hm (List.mem_map.2 ⟨n, (hl n).2 hc, rfl⟩)
  · obtain ⟨-, n, -, rfl⟩ := hc
    exact hq n rfl

/-- C199: there is no error iff the folder was there, or nothing was there and it is in a folder; then the folder is there and all else is as before.
With an error nothing has changed. Making it again changes nothing. -/
theorem mkdir_spec (fs : FS) (ht : Tree fs) (p : Path) :
    ((mkdir true fs p).2 = true ↔ fs p = some .folder ∨ fs p = none ∧ fs p.dropLast = some .folder) ∧
    ((mkdir true fs p).2 = true → (mkdir true fs p).1 p = some .folder) ∧ (∀ q, q ≠ p → (mkdir true fs p).1 q = fs q) ∧
    ((mkdir true fs p).2 = false → (mkdir true fs p).1 = fs) ∧
    ((mkdir true fs p).2 = true → mkdir true (mkdir true fs p).1 p = mkdir true fs p) := by
  by_cases h : fs p = some .folder
  · have e : mkdir true fs p = (fs, true) := by simp [mkdir, h]
    rw [e]
    simp [h, e]
  · by_cases h2 : fs p = none ∧ fs p.dropLast = some .folder
    · have hp : p ≠ [] := fun e => by rw [e] at h2; rw [ht.1] at h2; cases h2.1
      have e : mkdir true fs p = (Function.update fs p (some .folder), true) := by simp [mkdir, osMkdir, h2, hp]
      rw [e]
      refine ⟨by simp [h2], by simp, fun q hq => Function.update_of_ne hq _ _, by simp, fun _ => by simp [mkdir]⟩
    · have e : mkdir true fs p = (fs, false) := by
        have : osMkdir fs p = none := by
          rw [osMkdir, if_neg]
          rintro ⟨-, h3⟩
          exact h2 h3
        simp [mkdir, h, this]
      rw [e]
      simp [h, h2]

lemma rmdirs_files (q : Path) : ∀ (ps : List Path) (fs : FS), (fs q ≠ some .folder → (rmdirs fs ps).1 q = fs q) ∧ (q ∉ ps → (rmdirs fs ps).1 q = fs q)
  | [], fs => ⟨fun _ => rfl, fun _ => rfl⟩
  | p :: ps, fs => by
    by_cases hc : p ≠ [] ∧ fs p = some .folder ∧ ∀ n, fs (p ++ [n]) = none
    · have e : rmdirs fs (p :: ps) = rmdirs (Function.update fs p none) ps := by simp only [rmdirs, osRmdir, if_pos hc]
      obtain ⟨h1, h2⟩ := rmdirs_files q ps (Function.update fs p none)
      rw [e]
      constructor
      · intro h
        have hne : q ≠ p := fun e => h (e ▸ hc.2.1)
        rw [Function.update_of_ne hne] at h1
        exact h1 h
      · intro h
        rw [List.mem_cons, not_or] at h
        rw [Function.update_of_ne h.1] at h2
        exact h2 h.2
    · have e : rmdirs fs (p :: ps) = (fs, false) := by simp only [rmdirs, osRmdir, if_neg hc]
      rw [e]
      exact ⟨fun _ => rfl, fun _ => rfl⟩

/-- C199: removing folders never removes a file, nor a folder that is not given; without an error all that are given are gone. -/
theorem rmdir_spec (fs : FS) (ps : List Path) :
    (∀ q, fs q ≠ some .folder ∨ q ∉ ps → (rmdir true fs ps).1 q = fs q) ∧ ((rmdir true fs ps).2 = true → ∀ p ∈ ps, (rmdir true fs ps).1 p = none) := by
  simp only [rmdir, if_true]
  refine ⟨fun q h => h.elim (rmdirs_files q ps fs).1 (rmdirs_files q ps fs).2, ?_⟩
  induction ps generalizing fs with
  | nil => intro _ p hp; cases hp
  | cons a ps ih =>
    by_cases hc : a ≠ [] ∧ fs a = some .folder ∧ ∀ n, fs (a ++ [n]) = none
    · have e : rmdirs fs (a :: ps) = rmdirs (Function.update fs a none) ps := by simp only [rmdirs, osRmdir, if_pos hc]
      rw [e]
      intro h p hp
      rcases List.mem_cons.1 hp with rfl | hp
      · rw [(rmdirs_files p ps _).1 (by simp)]; simp
      · exact ih _ h p hp
    · have e : rmdirs fs (a :: ps) = (fs, false) := by simp only [rmdirs, osRmdir, if_neg hc]
      rw [e]
      intro h; cases h

/-- One folder that is given is removed iff it is empty. -/
theorem rmdir_iff (fs : FS) (p : Path) : (rmdir true fs [p]).2 = true ↔ p ≠ [] ∧ fs p = some .folder ∧ ∀ n, fs (p ++ [n]) = none := by
  by_cases hc : p ≠ [] ∧ fs p = some .folder ∧ ∀ n, fs (p ++ [n]) = none
  · simp only [rmdir, if_true, rmdirs, osRmdir, if_pos hc]; simpa using hc
  · simp only [rmdir, if_true, rmdirs, osRmdir, if_neg hc]; simpa using hc

lemma tree_unlinks : ∀ (ps : List Path) (fs : FS), Tree fs → Tree (unlinks fs ps).1
  | [], _, h => h
  | p :: ps, fs, h => by
    by_cases hf : fs p = some .file
    · have hu : unlinks fs (p :: ps) = unlinks (Function.update fs p none) ps := by simp [unlinks, unlink, hf]
      rw [hu]
      refine tree_unlinks ps _ ⟨?_, ?_⟩
      · rw [Function.update_of_ne]
        · exact h.1
        · rintro rfl; rw [h.1] at hf; cases hf
      · intro q n hq
        by_cases e : q ++ [n] = p
        · rw [e] at hq; simp at hq
        · rw [Function.update_of_ne e] at hq
          have := h.2 q n hq
          rw [Function.update_of_ne]
          · exact this
          · rintro rfl; rw [this] at hf; cases hf
    · have hu : unlinks fs (p :: ps) = (fs, false) := by simp [unlinks, unlink, hf]
      rw [hu]; exact h

lemma tree_rmdirs : ∀ (ps : List Path) (fs : FS), Tree fs → Tree (rmdirs fs ps).1
  | [], _, h => h
  | p :: ps, fs, h => by
    by_cases hc : p ≠ [] ∧ fs p = some .folder ∧ ∀ n, fs (p ++ [n]) = none
    · have e : rmdirs fs (p :: ps) = rmdirs (Function.update fs p none) ps := by simp only [rmdirs, osRmdir, if_pos hc]
      rw [e]
      refine tree_rmdirs ps _ ⟨?_, ?_⟩
      · rw [Function.update_of_ne (Ne.symm hc.1)]; exact h.1
      · intro q n hq
        by_cases e : q ++ [n] = p
        · rw [e] at hq; simp at hq
        · rw [Function.update_of_ne e] at hq
          rw [Function.update_of_ne]
          · exact h.2 q n hq
          · rintro rfl; exact hq (hc.2.2 n)
    · have e : rmdirs fs (p :: ps) = (fs, false) := by simp only [rmdirs, osRmdir, if_neg hc]
      rw [e]; exact h

/-- What a program does with files and folders. -/
inductive Op where
  | remove (master : Bool) (ps : List Path)
  | emptyDir (master : Bool) (p : Path) (names : List String)
  | mkdir (master : Bool) (p : Path)
  | rmdir (master : Bool) (ps : List Path)

noncomputable def Op.run (fs : FS) : Op → FS
  | .remove m ps => (Folder.remove m fs ps).1
  | .emptyDir m p names => (Folder.emptyDir m fs p names).1
  | .mkdir m p => (Folder.mkdir m fs p).1
  | .rmdir m ps => (Folder.rmdir m fs ps).1

/-- Whether an operation is done by the master rank. -/
def Op.master : Op → Bool
  | .remove m _ => m
  | .emptyDir m _ _ => m
  | .mkdir m _ => m
  | .rmdir m _ => m

/-- C199: after any operations, with or without errors, all that is there is in folders, and what other ranks did has no effect. -/
theorem history (ops : List Op) (fs : FS) (h : Tree fs) :
    Tree (ops.foldl Op.run fs) ∧ ops.foldl Op.run fs = (ops.filter Op.master).foldl Op.run fs := by
  induction ops generalizing fs with
  | nil => exact ⟨h, rfl⟩
  | cons o ops ih =>
    have hT : Tree (o.run fs) := by
      cases o with
      | remove m ps => cases m with
        | false => exact h
        | true => exact tree_unlinks ps fs h
      | emptyDir m p names => cases m with
        | false => exact h
        | true =>
          simp only [Op.run, emptyDir, if_true]
          split
          · exact tree_unlinks _ fs h
          · exact h
      | mkdir m p => cases m with
        | false => exact h
        | true =>
          obtain ⟨h1, h2, h3, h4, -⟩ := mkdir_spec fs h p
          show Tree (mkdir true fs p).1
          cases hb : (mkdir true fs p).2 with
          | false => rw [h4 hb]; exact h
          | true =>
            have h5 := h2 hb
            refine ⟨?_, fun q n hq => ?_⟩
            · by_cases e : ([] : Path) = p
              · rw [e]; exact h5
              · rw [h3 _ e]; exact h.1
            · by_cases eq : q = p
              · rw [eq]; exact h5
              · rw [h3 _ eq]
                by_cases e : q ++ [n] = p
                · rcases h1.1 hb with hf | ⟨-, hd⟩
                  · rw [← e] at hf
                    exact h.2 q n (by rw [hf]; simp)
                  · rw [← e, List.dropLast_concat] at hd
                    exact hd
                · rw [h3 _ e] at hq
                  exact h.2 q n hq
      | rmdir m ps => cases m with
        | false => exact h
        | true => exact tree_rmdirs ps fs h
    refine ⟨(ih _ hT).1, ?_⟩
    have h2 := (ih _ hT).2
    cases hm : o.master with
    | true => rw [List.filter_cons_of_pos hm]; exact h2
    | false =>
      rw [List.filter_cons_of_neg (by simp [hm])]
      have : o.run fs = fs := by
        cases o <;> simp only [Op.master] at hm <;> subst hm <;> rfl
      rw [List.foldl_cons, h2, this]

end Phyem.Folder
