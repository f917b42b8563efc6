import Verif.Rename.Model
import Mathlib.Data.List.Induction
import Mathlib.Data.List.TakeWhile
import Mathlib.Tactic.Linarith

/-! What is in the folder afterwards. -/

namespace Phyem.Rename

variable {C : Type}

/-- `L` lists the folder `F`: each name once. -/
structure Lists (F : Folder C) (L : List Name) : Prop where
  nodup : L.Nodup
  mem : ∀ s, s ∈ L ↔ F s ≠ none

lemma move_some {F : Folder C} {a b : Name} {c : C} (h : F a = some c) :
    move F a b = some fun x => if x = b then some c else if x = a then none else F x := by
  simp [move, h]

/-- No file is missing on the way, whatever the names are. -/
lemma loop_total (pre : Name) (exts : Option (List Name)) : ∀ (L : List Name) (F : Folder C) (k : ℕ), L.Nodup → (∀ s ∈ L, F s ≠ none) →
    ∃ G, loop pre exts F k L = some G := by
  intro L
  induction L with
  | nil => intro F k _ _; exact ⟨F, rfl⟩
  | cons s L ih =>
    intro F k hn h
    rw [List.nodup_cons] at hn
    simp only [loop]
    by_cases hc : chosen exts s
    · rw [if_pos hc]
      obtain ⟨c, hs⟩ := Option.ne_none_iff_exists'.1 (h s List.mem_cons_self)
      rw [move_some hs]
      refine ih _ (k + 1) hn.2 ?_
      intro t ht
      have hts : t ≠ s := fun e => hn.1 (e ▸ ht)
      by_cases e : t = target pre k s
      · simp [e]
      · simpa [e, hts] using h t (List.mem_cons_of_mem _ ht)
    · rw [if_neg hc]
      exact ih _ _ hn.2 fun t ht => h t (List.mem_cons_of_mem _ ht)

/-- C185: for a prefix that is not refused, the call comes to its end, and a prefix with one of the special characters is refused before anything is
renamed. -/
theorem rename_total (F : Folder C) (L : List Name) (h : Lists F L) (pre : Name) (exts : Option (List Name)) :
    ((∃ c ∈ pre, c ∈ specials) → rename F L pre exts = .refused) ∧
      ((∀ c ∈ pre, c ∉ specials) → ∃ G, rename F L pre exts = .done G) := by
  constructor
  · rintro ⟨c, hc, hs⟩
    have : special pre = true := List.any_eq_true.2 ⟨c, hc, List.contains_iff_mem.2 hs⟩
    simp [rename, this]
  · intro hp
    have : special pre = false := by
      rw [Bool.eq_false_iff]; intro e
      obtain ⟨c, hc, hs⟩ := List.any_eq_true.1 e
      exact hp c hc (List.contains_iff_mem.1 hs)
    obtain ⟨G, hG⟩ := loop_total pre exts L F 0 h.nodup fun s hs => (h.mem s).1 hs
    exact ⟨G, by simp [rename, this, hG]⟩

lemma loop_from (pre : Name) (exts : Option (List Name)) : ∀ (L : List Name) (F G : Folder C) (k : ℕ), loop pre exts F k L = some G →
    ∀ x c, G x = some c → ∃ y, F y = some c := by
  intro L
  induction L with
  | nil => intro F G k h x c hx; simp only [loop, Option.some.injEq] at h; exact ⟨x, h ▸ hx⟩
  | cons s L ih =>
    intro F G k h x c hx
    simp only [loop] at h
    by_cases hc : chosen exts s
    · rw [if_pos hc] at h
      cases hs : F s with
      | none => simp [move, hs] at h
      | some d =>
        rw [move_some hs] at h
        obtain ⟨y, hy⟩ := ih _ _ _ h x c hx
        by_cases e : y = target pre k s
        · simp only [e, if_true] at hy; exact ⟨s, hs.trans hy⟩
        · simp only [e, if_false] at hy
          by_cases e' : y = s
          · simp [e'] at hy
          · rw [if_neg e'] at hy; exact ⟨y, hy⟩
    · rw [if_neg hc] at h; exact ih _ _ _ h x c hx

/-- C185: the files hold nothing but what files of the folder have held before. -/
theorem rename_from (F : Folder C) (L : List Name) (pre : Name) (exts : Option (List Name)) (G : Folder C) (h : rename F L pre exts = .done G)
    (x : Name) (c : C) (hx : G x = some c) : ∃ y, F y = some c := by
  unfold rename at h
  by_cases hp : special pre
  · simp [hp] at h
  · rw [if_neg hp] at h
    cases e : loop pre exts F 0 L with
    | none => simp [e] at h
    | some H =>
      simp only [e, Out.done.injEq] at h
      exact loop_from pre exts L F H 0 e x c (h ▸ hx)

lemma ext_dot (s : Name) : ext s = [] ∨ ∃ t, ext s = '.' :: t := by
  unfold ext
  split
  · exact Or.inl rfl
  · split
    · exact Or.inr ⟨_, rfl⟩
    · exact Or.inl rfl

lemma digit_ne_dot {n : ℕ} {c : Char} (h : c ∈ Nat.toDigits 10 n) : (c != '.') = true := by
  have := Nat.isDigit_of_mem_toDigits (b := 10) (by decide) (by decide) h
  simp only [bne_iff_ne, ne_eq]
  rintro rfl
  exact absurd this (by decide)

lemma take_digits (n : ℕ) (s : Name) : (Nat.toDigits 10 n ++ ext s).takeWhile (· != '.') = Nat.toDigits 10 n := by
  rw [List.takeWhile_append_of_pos fun c hc => digit_ne_dot hc]
  rcases ext_dot s with e | ⟨t, e⟩ <;> simp [e]

/-- C185: different numbers give different names, whatever the extensions are. -/
theorem target_inj (pre : Name) (j k : ℕ) (s t : Name) (h : target pre j s = target pre k t) : j = k := by
  have h1 : Nat.toDigits 10 (j + 1) ++ ext s = Nat.toDigits 10 (k + 1) ++ ext t := by simpa [target] using h
  have h2 : Nat.toDigits 10 (j + 1) = Nat.toDigits 10 (k + 1) := by rw [← take_digits (j + 1) s, h1, take_digits]
  have h3 := congrArg (fun l => Nat.ofDigitChars 10 l 0) h2
  simp only [Nat.ofDigitChars_ten_toDigits] at h3
  omega

/-- The new name of a file that is listed at place `i`. -/
def newName (pre : Name) (exts : Option (List Name)) (i : ℕ) (s : Name) : Name := if chosen exts s then target pre i s else s

/-- No new name is the name of another file that is there already. -/
def Free (F : Folder C) (L : List Name) (pre : Name) (exts : Option (List Name)) : Prop :=
  ∀ i s, L[i]? = some s → chosen exts s → target pre i s = s ∨ F (target pre i s) = none

lemma loop_free (pre : Name) (exts : Option (List Name)) : ∀ (L : List Name) (F : Folder C) (k : ℕ), L.Nodup → (∀ s ∈ L, F s ≠ none) →
    (∀ i s, L[i]? = some s → chosen exts s → target pre (k + i) s = s ∨ F (target pre (k + i) s) = none) →
    ∃ G, loop pre exts F k L = some G ∧ (∀ i s, L[i]? = some s → G (newName pre exts (k + i) s) = F s) ∧
      ∀ x, (∀ i s, L[i]? = some s → x ≠ newName pre exts (k + i) s) → G x = if x ∈ L then none else F x := by
  intro L
  induction L with
  | nil => intro F k _ _ _; exact ⟨F, rfl, by simp, by simp⟩
  | cons s L ih =>
    intro F k hn h hf
    rw [List.nodup_cons] at hn
    simp only [loop]
    by_cases hc : chosen exts s
    · rw [if_pos hc]
      obtain ⟨c, hs⟩ := Option.ne_none_iff_exists'.1 (h s List.mem_cons_self)
      rw [move_some hs]
      have h0 := hf 0 s rfl hc
      rw [Nat.add_zero] at h0
      set H : Folder C := fun x => if x = target pre k s then some c else if x = s then none else F x with hH
      have hnt : ∀ t ∈ L, t ≠ target pre k s := by
        intro t ht e
        rcases h0 with h0 | h0
        · exact hn.1 (by rw [← h0, ← e]; exact ht)
        · exact h t (List.mem_cons_of_mem _ ht) (e ▸ h0)
      have hHt : ∀ t ∈ L, H t = F t := by
        intro t ht
        have hts : t ≠ s := fun e => hn.1 (e ▸ ht)
        simp [hH, hnt t ht, hts]
      obtain ⟨G, hG, hin, hout⟩ := ih H (k + 1) hn.2 (fun t ht => by rw [hHt t ht]; exact h t (List.mem_cons_of_mem _ ht)) (by
        intro i t ht hct
        have := hf (i + 1) t (by simpa using ht) hct
        rw [show k + (i + 1) = k + 1 + i by omega] at this
        rcases this with e | e
        · exact Or.inl e
        · right
          have h1 : target pre (k + 1 + i) t ≠ target pre k s := fun e' => by have := target_inj _ _ _ _ _ e'; omega
          simp only [hH, h1, if_false]
          split
          · rfl
          · exact e)
      refine ⟨G, by simpa using hG, ?_, ?_⟩
      · intro i t ht
        cases i with
        | zero =>
          simp only [List.getElem?_cons_zero, Option.some.injEq] at ht
          subst ht
          simp only [Nat.add_zero, newName, hc, if_true]
          rw [hout]
          · rw [if_neg fun hm => hnt _ hm rfl]
            simp [hH, hs]
          · intro i t ht e
            unfold newName at e
            by_cases hct : chosen exts t
            · rw [if_pos hct] at e
              have := target_inj _ _ _ _ _ e
              omega
            · rw [if_neg hct] at e
              exact hnt t (List.mem_of_getElem? ht) e.symm
        | succ i =>
          simp only [List.getElem?_cons_succ] at ht
          have := hin i t ht
          rw [show k + 1 + i = k + (i + 1) by omega] at this
          rw [this, hHt t (List.mem_of_getElem? ht)]
      · intro x hx
        have hx0 := hx 0 s rfl
        simp only [Nat.add_zero, newName, hc, if_true] at hx0
        rw [hout x (fun i t ht => by
          have := hx (i + 1) t (by simpa using ht)
          rwa [show k + (i + 1) = k + 1 + i by omega] at this)]
        by_cases hm : x ∈ L
        · simp [hm]
        · rw [if_neg hm]
          simp only [hH, if_neg hx0, List.mem_cons, hm, or_false]
    · rw [if_neg hc]
      obtain ⟨G, hG, hin, hout⟩ := ih F (k + 1) hn.2 (fun t ht => h t (List.mem_cons_of_mem _ ht)) (by
        intro i t ht hct
        have := hf (i + 1) t (by simpa using ht) hct
        rwa [show k + (i + 1) = k + 1 + i by omega] at this)
      refine ⟨G, hG, ?_, ?_⟩
      · intro i t ht
        cases i with
        | zero =>
          simp only [List.getElem?_cons_zero, Option.some.injEq] at ht
          subst ht
          simp only [Nat.add_zero, newName, hc]
          rw [if_neg (by simp), hout, if_neg hn.1]
          intro i t ht e
          unfold newName at e
          by_cases hct : chosen exts t
          · rw [if_pos hct] at e
            have := hf (i + 1) t (by simpa using ht) hct
            rw [show k + (i + 1) = k + 1 + i by omega, ← e] at this
            rcases this with e' | e'
            · exact hn.1 (e' ▸ List.mem_of_getElem? ht)
            · exact h s List.mem_cons_self e'
          · rw [if_neg hct] at e
            exact hn.1 (e ▸ List.mem_of_getElem? ht)
        | succ i =>
          simp only [List.getElem?_cons_succ] at ht
          have := hin i t ht
          rwa [show k + 1 + i = k + (i + 1) by omega] at this
      · intro x hx
        have hx0 := hx 0 s rfl
        simp only [Nat.add_zero, newName, hc] at hx0
        rw [if_neg (by simp)] at hx0
        rw [hout x (fun i t ht => by
          have := hx (i + 1) t (by simpa using ht)
          rwa [show k + (i + 1) = k + 1 + i by omega] at this)]
        simp [hx0]

/-- C185: if no new name belongs to another file already, the file at place `i` of the listing is afterwards found, unchanged, under the prefix, `_`,
`i + 1` and its own extension, or under its old name if its extension is not one of those that were asked for; and nothing else is in the folder. -/
theorem rename_spec (F : Folder C) (L : List Name) (h : Lists F L) (pre : Name) (exts : Option (List Name)) (hp : ∀ c ∈ pre, c ∉ specials)
    (hf : Free F L pre exts) :
    ∃ G, rename F L pre exts = .done G ∧
      (∀ i s, L[i]? = some s → (exts = none ∨ ∃ l, exts = some l ∧ ext s ∈ l) → G (pre ++ ['_'] ++ Nat.toDigits 10 (i + 1) ++ ext s) = F s) ∧
      (∀ s ∈ L, (∃ l, exts = some l ∧ ext s ∉ l) → G s = F s) ∧
      ∀ x c, G x = some c → ∃ i s, L[i]? = some s ∧ x = newName pre exts i s := by
  obtain ⟨G, hG, hin, hout⟩ := loop_free pre exts L F 0 h.nodup (fun s hs => (h.mem s).1 hs) (fun i s hi hc => by rw [Nat.zero_add]; exact hf i s hi hc)
  simp only [Nat.zero_add] at hin hout
  have hs : special pre = false := by
    rw [Bool.eq_false_iff]; intro e
    obtain ⟨c, hc, hs⟩ := List.any_eq_true.1 e
    exact hp c hc (List.contains_iff_mem.1 hs)
  refine ⟨G, by simp [rename, hs, hG], ?_, ?_, ?_⟩
  · intro i s hi hc
    have hc : chosen exts s = true := by
      rcases hc with rfl | ⟨l, rfl, hl⟩
      · rfl
      · simpa [chosen] using hl
    have := hin i s hi
    simp only [newName, hc, if_true] at this
    rw [← this]; congr 1; simp [target]
  · rintro s hs ⟨l, rfl, hl⟩
    obtain ⟨i, hi⟩ := List.mem_iff_getElem?.1 hs
    have hc : chosen (some l) s = false := by simpa [chosen] using hl
    simpa [newName, hc] using hin i s hi
  · intro x c hx
    by_contra hno
    push Not at hno
    rw [hout x hno] at hx
    by_cases hm : x ∈ L
    · simp [hm] at hx
    · rw [if_neg hm] at hx
      exact hm ((h.mem x).2 (by simp [hx]))

/-- C185: in particular, if no name begins with the prefix and `_`. -/
theorem free_of_fresh (F : Folder C) (L : List Name) (h : Lists F L) (pre : Name) (exts : Option (List Name)) (hn : ∀ s ∈ L, ¬ (pre ++ ['_']) <+: s) :
    Free F L pre exts := by
  intro i s _ _
  right
  by_contra e
  exact hn _ ((h.mem _).2 e) ⟨Nat.toDigits 10 (i + 1) ++ ext s, by simp [target]⟩

/-- C185: what `ext` is: for a stem with something else than dots, a dot and a text without a dot, it is the dot and this text; a name without a dot,
or with nothing but dots before the last one, has none. -/
theorem ext_spec (stem t : Name) (ht : '.' ∉ t) :
    ((∃ c ∈ stem, c ≠ '.') → ext (stem ++ '.' :: t) = '.' :: t) ∧ ((∀ c ∈ stem, c = '.') → ext (stem ++ '.' :: t) = []) ∧ ext t = [] := by
  have h1 : ∀ c ∈ t.reverse, (c != '.') = true := fun c hc => by
    simp only [bne_iff_ne, ne_eq]; rintro rfl; exact ht (List.mem_reverse.1 hc)
  have hd : (stem ++ '.' :: t).reverse.dropWhile (· != '.') = '.' :: stem.reverse := by
    rw [show (stem ++ '.' :: t).reverse = t.reverse ++ '.' :: stem.reverse by simp, List.dropWhile_append_of_pos h1]; simp
  have hk : (stem ++ '.' :: t).reverse.takeWhile (· != '.') = t.reverse := by
    rw [show (stem ++ '.' :: t).reverse = t.reverse ++ '.' :: stem.reverse by simp, List.takeWhile_append_of_pos h1]; simp
  refine ⟨?_, ?_, ?_⟩
  · rintro ⟨c, hc, hne⟩
    unfold ext
    rw [hd]
    have : stem.reverse.any (· != '.') = true := List.any_eq_true.2 ⟨c, List.mem_reverse.2 hc, by simpa using hne⟩
    simp only [this, if_true, hk, List.reverse_reverse]
  · intro hs
    unfold ext
    rw [hd]
    have : stem.reverse.any (· != '.') = false := by
      rw [Bool.eq_false_iff]; intro e
      obtain ⟨c, hc, hne⟩ := List.any_eq_true.1 e
      simp [hs c (List.mem_reverse.1 hc)] at hne
    simp [this]
  · unfold ext
    have : t.reverse.dropWhile (· != '.') = [] := List.dropWhile_eq_nil_iff.2 h1
    rw [this]

end Phyem.Rename
