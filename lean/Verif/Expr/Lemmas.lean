import Verif.Expr.Spec

/-! Helper lemmas on the reader of equation strings. -/

namespace Phyem.Expr

open Spec

theorem split_ne_nil (c : Char) (s : Str) : split c s ≠ [] := by
  cases s with
  | nil => simp [split]
  | cons x s =>
    simp only [split]
    split_ifs
    · simp
    · cases split c s <;> simp [consHead]

theorem consHead_append (x : Char) (l m : List Str) (h : l ≠ []) :
    consHead x (l ++ m) = consHead x l ++ m := by
  cases l with
  | nil => exact absurd rfl h
  | cons p l => rfl

theorem split_append (c : Char) (x y : Str) : split c (x ++ c :: y) = split c x ++ split c y := by
  induction x with
  | nil => simp [split]
  | cons a x ih =>
    simp only [List.cons_append, split]
    split_ifs with h
    · simp [ih]
    · rw [ih, consHead_append _ _ _ (split_ne_nil c x)]

theorem split_notMem (c : Char) (x : Str) (h : c ∉ x) : split c x = [x] := by
  induction x with
  | nil => rfl
  | cons a x ih =>
    simp only [List.mem_cons, not_or] at h
    simp only [split]
    rw [if_neg (fun e => h.1 e.symm), ih h.2]; rfl

variable {T : Type} (interp : Dict Str T)

/-- Sequential composition of two parsing results. -/
def comb (a b : Option (List (Sign × Str × T))) : Option (List (Sign × Str × T)) :=
  a.bind fun x => b.map fun y => x ++ y

theorem comb_nil_left (b : Option (List (Sign × Str × T))) : comb (some []) b = b := by
  cases b <;> simp [comb]

theorem comb_nil_right (b : Option (List (Sign × Str × T))) : comb b (some []) = b := by
  cases b <;> simp [comb]

theorem comb_assoc (a b c : Option (List (Sign × Str × T))) :
    comb (comb a b) c = comb a (comb b c) := by
  cases a <;> cases b <;> cases c <;> simp [comb]

theorem parsePieces_append (p q : List Str) :
    parsePieces interp (p ++ q) = comb (parsePieces interp p) (parsePieces interp q) := by
  induction p with
  | nil => simp [parsePieces, comb_nil_left]
  | cons a p ih =>
    simp only [List.cons_append, parsePieces]
    rw [ih]
    exact (comb_assoc _ _ _).symm

theorem parsePieces_cons (p : Str) (q : List Str) :
    parsePieces interp (p :: q) = comb (parsePiece interp p) (parsePieces interp q) := rfl

theorem parsePiece_nil : parsePiece interp [] = some [] := by simp [parsePiece]

/-- Parse a raw side (with spaces, minus signs not spread). -/
def rawSide (s : Str) : Option (List (Sign × Str × T)) :=
  parseSide interp (spread (removeSpaces s))

theorem spread_append (s t : Str) : spread (s ++ t) = spread s ++ spread t := by
  simp [spread]

theorem removeSpaces_append (s t : Str) : removeSpaces (s ++ t) = removeSpaces s ++ removeSpaces t := by
  simp [removeSpaces]

/-- `t` is blank or its first character that is not a blank is a sign. -/
def Cut (t : Str) : Prop := removeSpaces t = [] ∨ ∃ y, spread (removeSpaces t) = '+' :: y

theorem rawSide_append (s t : Str) (h : Cut t) :
    rawSide interp (s ++ t) = comb (rawSide interp s) (rawSide interp t) := by
  unfold rawSide parseSide
  rw [removeSpaces_append, spread_append]
  rcases h with h | ⟨y, h⟩
  · rw [h]
    simp [spread, split, parsePieces, parsePiece_nil, comb_nil_right]
  · rw [h, split_append, parsePieces_append]
    congr 1
    simp [split, parsePieces_cons, parsePiece_nil, comb_nil_left]

theorem cut_of_pre (p t : Str) (hp : ∀ c ∈ p, isSignOrBlank c = true)
    (h : (∃ c ∈ p, isSign c = true) ∨ Cut t) : Cut (p ++ t) := by
  induction p with
  | nil => rcases h with ⟨c, hc, _⟩ | h
           · simp at hc
           · exact h
  | cons a p ih =>
    have ha := hp a (by simp)
    by_cases hb : a = ' '
    · subst hb
      have : removeSpaces (' ' :: p ++ t) = removeSpaces (p ++ t) := by simp [removeSpaces]
      have ih' := ih (fun c hc => hp c (by simp [hc])) (by
        rcases h with ⟨c, hc, hs⟩ | h
        · rcases List.mem_cons.1 hc with rfl | hc
          · simp [isSign] at hs
          · exact Or.inl ⟨c, hc, hs⟩
        · exact Or.inr h)
      unfold Cut at ih' ⊢
      rw [this]; exact ih'
    · right
      have hs : a = '+' ∨ a = '-' := by
        simpa [isSignOrBlank, isSign, hb] using ha
      rcases hs with rfl | rfl
      · exact ⟨_, by simp [removeSpaces, spread]; rfl⟩
      · exact ⟨_, by simp [removeSpaces, spread]; rfl⟩

/-- The last sign in front of a term, the one the reader keeps. -/
def lastSign (p : List Char) : Sign :=
  p.foldl (fun s c => if c = '-' then .neg else if c = '+' then .pos else s) .pos

/-- What the reader makes of one term as written. -/
def expected (i : Item) : Option (List (Sign × Str × T)) :=
  if lastSign i.pre = .pos ∧ i.key = ['0'] then some []
  else (interp.get i.key).map fun t => [(lastSign i.pre, i.key, t)]

def expectedAll : List Item → Option (List (Sign × Str × T))
  | [] => some []
  | i :: is => comb (expected interp i) (expectedAll is)

theorem rawSide_nil : rawSide interp [] = some [] := by
  simp [rawSide, parseSide, removeSpaces, spread, split, parsePieces, parsePiece_nil]

theorem key_noSign {i : Item} (h : i.wf) : '+' ∉ i.key ∧ '-' ∉ i.key := by
  constructor <;>
  · intro hc
    have := h.2.1 _ (List.mem_of_mem_filter hc)
    simp [isNameChar, isSign] at this

theorem spread_noMinus (s : Str) (h : '-' ∉ s) : spread s = s := by
  induction s with
  | nil => rfl
  | cons a s ih =>
    simp only [List.mem_cons, not_or] at h
    have e : spread (a :: s) = (if a = '-' then ['+', '-'] else [a]) ++ spread s := rfl
    rw [e, if_neg (fun e => h.1 e.symm), ih h.2]; rfl

theorem rawSide_blank (s : Str) : rawSide interp (' ' :: s) = rawSide interp s := by
  simp [rawSide, removeSpaces]

theorem rawSide_plus (s : Str) : rawSide interp ('+' :: s) = rawSide interp s := by
  have : spread (removeSpaces ('+' :: s)) = '+' :: spread (removeSpaces s) := by
    simp [removeSpaces, spread]
  unfold rawSide parseSide
  rw [this]
  simp [split, parsePieces_cons, parsePiece_nil, comb_nil_left]

theorem rawSide_name (i : Item) (h : i.wf) (hp : i.pre = []) :
    rawSide interp i.name = expected interp i := by
  obtain ⟨h1, h2⟩ := key_noSign h
  have hk : removeSpaces i.name = i.key := rfl
  unfold rawSide parseSide
  rw [hk, spread_noMinus _ h2, split_notMem _ _ h1, parsePieces_cons]
  simp only [parsePieces, comb_nil_right]
  unfold parsePiece expected
  have h0 : i.key ≠ [] := h.2.2
  have hm : i.key ≠ ['-'] := fun e => h2 (by rw [e]; simp)
  have hh : i.key.head? ≠ some '-' := fun e => h2 (List.mem_of_head? e)
  simp [h0, hm, hh, hp, lastSign]

theorem rawSide_minus_name (s : Str) (h0 : removeSpaces s ≠ []) (h1 : '+' ∉ s) (h2 : '-' ∉ s) :
    rawSide interp ('-' :: s) =
      (interp.get (removeSpaces s)).map fun t => [(Sign.neg, removeSpaces s, t)] := by
  have k1 : '+' ∉ removeSpaces s := fun h => h1 (List.mem_of_mem_filter h)
  have k2 : '-' ∉ removeSpaces s := fun h => h2 (List.mem_of_mem_filter h)
  have e : removeSpaces ('-' :: s) = '-' :: removeSpaces s := by simp [removeSpaces]
  have e' : spread ('-' :: removeSpaces s) = '+' :: '-' :: removeSpaces s := by
    have : spread ('-' :: removeSpaces s) = ['+', '-'] ++ spread (removeSpaces s) := rfl
    rw [this, spread_noMinus _ k2]; rfl
  unfold rawSide parseSide
  rw [e, e']
  have : split '+' ('+' :: '-' :: removeSpaces s) = [[], '-' :: removeSpaces s] := by
    rw [split, if_pos rfl, split_notMem]
    simp [k1]
  rw [this, parsePieces_cons, parsePieces_cons, parsePiece_nil, comb_nil_left]
  simp only [parsePieces, comb_nil_right]
  unfold parsePiece
  simp [h0]

theorem rawSide_minus_cut (s : Str) (y : Str) (h : spread (removeSpaces s) = '+' :: y) :
    rawSide interp ('-' :: s) = rawSide interp s := by
  have e : spread (removeSpaces ('-' :: s)) = ['+', '-'] ++ '+' :: y := by
    have : removeSpaces ('-' :: s) = '-' :: removeSpaces s := by simp [removeSpaces]
    rw [this, ← h]; rfl
  unfold rawSide parseSide
  rw [e, h]
  have : split '+' (['+', '-'] ++ '+' :: y) = [[], ['-']] ++ split '+' y := by
    rw [split_append]; rfl
  rw [this, parsePieces_append]
  have e2 : split '+' ('+' :: y) = [[]] ++ split '+' y := by simp [split]
  rw [e2, parsePieces_append]
  have : parsePiece interp ['-'] = some [] := by simp [parsePiece]
  simp [parsePieces_cons, parsePiece_nil, this, parsePieces, comb_nil_left]

theorem lastSign_foldl (p : List Char) (s : Sign) :
    p.foldl (fun s c => if c = '-' then Sign.neg else if c = '+' then .pos else s) s =
      if p.any isSign then lastSign p else s := by
  induction p generalizing s with
  | nil => simp
  | cons a p ih =>
    unfold lastSign
    simp only [List.foldl_cons, List.any_cons]
    rw [ih, ih]
    by_cases hp : p.any isSign = true
    · simp [hp]
    · by_cases h : a = '-'
      · simp [hp, h, isSign]
      · by_cases h' : a = '+'
        · simp [hp, h', isSign]
        · simp [hp, h, h', isSign]

theorem lastSign_cons (a : Char) (p : List Char) :
    lastSign (a :: p) = if p.any isSign then lastSign p
      else if a = '-' then .neg else .pos := by
  conv_lhs => unfold lastSign
  simp only [List.foldl_cons]
  rw [lastSign_foldl]
  by_cases h : a = '-' <;> by_cases h' : a = '+' <;> simp [h, h']

theorem rawSide_blanks (p : List Char) (s : Str) (hp : ∀ c ∈ p, isSignOrBlank c = true)
    (h : p.any isSign = false) : removeSpaces (p ++ s) = removeSpaces s := by
  induction p with
  | nil => rfl
  | cons a p ih =>
    simp only [List.any_cons, Bool.or_eq_false_iff] at h
    have ha := hp a (by simp)
    have : a = ' ' := by simpa [isSignOrBlank, h.1] using ha
    subst this
    rw [← ih (fun c hc => hp c (by simp [hc])) h.2]
    simp [removeSpaces]

theorem rawSide_item (i : Item) (h : i.wf) :
    rawSide interp (i.pre ++ i.name) = expected interp i := by
  obtain ⟨p, n⟩ := i
  induction p with
  | nil => exact rawSide_name interp ⟨[], n⟩ h rfl
  | cons a p ih =>
    have hw : Item.wf ⟨p, n⟩ := ⟨fun c hc => h.1 c (by simp [hc]), h.2.1, h.2.2⟩
    have ih' := ih hw
    simp only at ih' ⊢
    have hkey : Item.key ⟨a :: p, n⟩ = Item.key ⟨p, n⟩ := rfl
    have ha : isSignOrBlank a = true := h.1 a (by simp)
    have hsame : (a = '+' ∨ a = ' ') → lastSign (a :: p) = lastSign p := by
      intro ha
      rw [lastSign_cons]
      by_cases hp : p.any isSign = true
      · simp [hp]
      · have h1 : lastSign p = .pos := by
          have := lastSign_foldl p .pos
          rw [if_neg hp] at this
          exact this
        rw [if_neg hp, h1]
        rcases ha with rfl | rfl <;> simp
    by_cases hb : a = ' '
    · subst hb
      rw [List.cons_append, rawSide_blank, ih']
      unfold expected
      rw [hkey, show (⟨' ' :: p, n⟩ : Item).pre = ' ' :: p from rfl, hsame (Or.inr rfl)]
    · have hs : a = '+' ∨ a = '-' := by simpa [isSignOrBlank, isSign, hb] using ha
      rcases hs with rfl | rfl
      · rw [List.cons_append, rawSide_plus, ih']
        unfold expected
        rw [hkey, show (⟨'+' :: p, n⟩ : Item).pre = '+' :: p from rfl, hsame (Or.inl rfl)]
      · rw [List.cons_append]
        by_cases hp : p.any isSign = true
        · have hc : Cut (p ++ n) := by
            apply cut_of_pre p n hw.1
            left
            simpa using hp
          have hne : removeSpaces (p ++ n) ≠ [] := by
            intro e
            rw [removeSpaces_append] at e
            exact h.2.2 (List.append_eq_nil_iff.1 e).2
          rcases hc with hc | ⟨y, hc⟩
          · exact absurd hc hne
          · rw [rawSide_minus_cut interp _ y hc, ih']
            unfold expected
            rw [hkey, show (⟨'-' :: p, n⟩ : Item).pre = '-' :: p from rfl, lastSign_cons, if_pos hp]
        · have hp' : p.any isSign = false := by simpa using hp
          have hr := rawSide_blanks p n hw.1 hp'
          obtain ⟨k1, k2⟩ := key_noSign hw
          have e1 : '+' ∉ p ++ n := by
            intro hm
            rcases List.mem_append.1 hm with hm | hm
            · have := List.any_eq_false.1 hp' _ hm
              simp [isSign] at this
            · have := h.2.1 _ hm
              simp [isNameChar, isSign] at this
          have e2 : '-' ∉ p ++ n := by
            intro hm
            rcases List.mem_append.1 hm with hm | hm
            · have := List.any_eq_false.1 hp' _ hm
              simp [isSign] at this
            · have := h.2.1 _ hm
              simp [isNameChar, isSign] at this
          rw [rawSide_minus_name interp _ (by rw [hr]; exact h.2.2) e1 e2, hr]
          unfold expected
          rw [show (⟨'-' :: p, n⟩ : Item).pre = '-' :: p from rfl, lastSign_cons, if_neg hp, if_pos rfl]
          simp
          rfl

theorem rawSide_post (p : Str) (hp : ∀ c ∈ p, isSignOrBlank c = true) :
    rawSide interp p = some [] := by
  induction p with
  | nil => exact rawSide_nil interp
  | cons a p ih =>
    have ih' := ih (fun c hc => hp c (by simp [hc]))
    have ha := hp a (by simp)
    by_cases hb : a = ' '
    · subst hb; rw [rawSide_blank, ih']
    · have hs : a = '+' ∨ a = '-' := by simpa [isSignOrBlank, isSign, hb] using ha
      rcases hs with rfl | rfl
      · rw [rawSide_plus, ih']
      · by_cases hq : p.any isSign = true
        · have hc : Cut (p ++ []) := cut_of_pre p [] (fun c hc => hp c (by simp [hc]))
            (Or.inl (by simpa using hq))
          rw [List.append_nil] at hc
          rcases hc with hc | ⟨y, hc⟩
          · unfold rawSide parseSide
            have : removeSpaces ('-' :: p) = ['-'] := by
              have : removeSpaces ('-' :: p) = '-' :: removeSpaces p := by simp [removeSpaces]
              rw [this, hc]
            rw [this]
            simp [spread, split, consHead, parsePieces, parsePiece]
          · rw [rawSide_minus_cut interp _ y hc, ih']
        · have hr := rawSide_blanks p [] (fun c hc => hp c (by simp [hc])) (by simpa using hq)
          rw [List.append_nil] at hr
          unfold rawSide parseSide
          have : removeSpaces ('-' :: p) = ['-'] := by
            have : removeSpaces ('-' :: p) = '-' :: removeSpaces p := by simp [removeSpaces]
            rw [this, hr]; rfl
          rw [this]
          simp [spread, split, consHead, parsePieces, parsePiece]

theorem rawSide_side (s : Side) (h : s.wf) :
    rawSide interp s.text = expectedAll interp s.items := by
  obtain ⟨is, post⟩ := s
  obtain ⟨h1, h2, h3⟩ := h
  simp only at h1 h2 h3
  unfold Side.text
  simp only
  induction is with
  | nil => simpa [expectedAll] using rawSide_post interp post h2
  | cons i is ih =>
    have hc : Cut ((is.flatMap fun i => i.pre ++ i.name) ++ post) := by
      cases is with
      | nil =>
        simp only [List.flatMap_nil, List.nil_append]
        have := cut_of_pre post [] h2 (Or.inr (Or.inl rfl))
        simpa using this
      | cons j js =>
        obtain ⟨c, hc, hs⟩ := h3 j (by simp)
        simp only [List.flatMap_cons, List.append_assoc]
        exact cut_of_pre j.pre _ (h1 j (by simp)).1 (Or.inl ⟨c, hc, hs⟩)
    have e : (((i :: is).flatMap fun i => i.pre ++ i.name) ++ post) =
        (i.pre ++ i.name) ++ ((is.flatMap fun i => i.pre ++ i.name) ++ post) := by simp
    rw [e, rawSide_append interp _ _ hc, rawSide_item interp i (h1 i (by simp)),
      ih (fun j hj => h1 j (by simp [hj])) (fun j hj => h3 j (by
        simp only [List.tail_cons]
        exact List.mem_of_mem_tail hj))]
    rfl

theorem count_removeSpaces (s : Str) : (removeSpaces s).count '=' = s.count '=' := by
  induction s with
  | nil => rfl
  | cons a s ih =>
    unfold removeSpaces at ih ⊢
    by_cases h : a = ' '
    · subst h; simp [ih]
    · simp [h, List.count_cons, ih]

theorem notMem_spread (s : Str) (h : '=' ∉ s) : '=' ∉ spread s := by
  unfold spread
  simp only [List.mem_flatMap, not_exists, not_and]
  intro a ha
  split_ifs
  · simp
  · intro e
    simp only [List.mem_singleton] at e
    exact h (e ▸ ha)

theorem parseEquation_sides (l r : Str) (hl : '=' ∉ l) (hr : '=' ∉ r) :
    parseEquation interp (l ++ '=' :: r) =
      (rawSide interp l).bind fun a => (rawSide interp r).map fun b => ⟨a, b⟩ := by
  unfold parseEquation
  have hc : (l ++ '=' :: r).count '=' = 1 := by
    simp [List.count_cons, List.count_eq_zero_of_not_mem hl, List.count_eq_zero_of_not_mem hr]
  rw [if_neg (by simp), if_neg (by simp [hc])]
  have e : spread (removeSpaces (l ++ '=' :: r)) =
      spread (removeSpaces l) ++ '=' :: spread (removeSpaces r) := by
    rw [removeSpaces_append, spread_append]
    simp [removeSpaces, spread]
  have n1 : '=' ∉ spread (removeSpaces l) :=
    notMem_spread _ (fun h => hl (List.mem_of_mem_filter h))
  have n2 : '=' ∉ spread (removeSpaces r) :=
    notMem_spread _ (fun h => hr (List.mem_of_mem_filter h))
  rw [e, split_append, split_notMem _ _ n1, split_notMem _ _ n2]
  rfl

/-- Every text without `=` can be read as a side. -/
theorem side_exists (s : Str) (h : '=' ∉ s) : ∃ d : Side, d.wf ∧ d.text = s := by
  induction s with
  | nil => exact ⟨⟨[], []⟩, by simp [Side.wf], rfl⟩
  | cons c s ih =>
    simp only [List.mem_cons, not_or] at h
    obtain ⟨⟨is, post⟩, ⟨h1, h2, h3⟩, ht⟩ := ih h.2
    simp only at h1 h2 h3
    by_cases hc : isSignOrBlank c = true
    · cases is with
      | nil =>
        refine ⟨⟨[], c :: post⟩, ⟨by simp, ?_, by simp⟩, ?_⟩
        · intro x hx
          rcases List.mem_cons.1 hx with rfl | hx
          · exact hc
          · exact h2 x hx
        · simp [Side.text] at ht ⊢; exact ht
      | cons i is =>
        refine ⟨⟨⟨c :: i.pre, i.name⟩ :: is, post⟩, ⟨?_, h2, h3⟩, ?_⟩
        · intro j hj
          rcases List.mem_cons.1 hj with rfl | hj
          · have hi := h1 i (by simp)
            refine ⟨?_, hi.2.1, hi.2.2⟩
            intro x hx
            rcases List.mem_cons.1 hx with rfl | hx
            · exact hc
            · exact hi.1 x hx
          · exact h1 j (by simp [hj])
        · simp [Side.text] at ht ⊢; exact ht
    · have hn : isNameChar c = true := by
        simp only [isSignOrBlank, Bool.or_eq_true, not_or] at hc
        simp [isNameChar, hc.1]
        exact fun e => h.1 e.symm
      have hcb : c ≠ ' ' := by
        rintro rfl; simp [isSignOrBlank] at hc
      by_cases hm : ∃ i, is.head? = some i ∧ i.pre.any isSign = false
      · obtain ⟨i, hi, hp⟩ := hm
        obtain ⟨js, rfl⟩ : ∃ js, is = i :: js := by
          cases is with
          | nil => simp at hi
          | cons a js => simp at hi; exact ⟨js, by rw [hi]⟩
        have hi := h1 i (by simp)
        have hpre : ∀ x ∈ i.pre, x = ' ' := by
          intro x hx
          have a := hi.1 x hx
          have b := List.any_eq_false.1 hp x hx
          simpa [isSignOrBlank, b] using a
        refine ⟨⟨⟨[], c :: (i.pre ++ i.name)⟩ :: js, post⟩, ⟨?_, h2, h3⟩, ?_⟩
        · intro j hj
          rcases List.mem_cons.1 hj with rfl | hj
          · refine ⟨by simp, ?_, ?_⟩
            · intro x hx
              simp only [List.mem_cons, List.mem_append] at hx
              rcases hx with rfl | hx | hx
              · exact hn
              · rw [hpre x hx]; decide
              · exact hi.2.1 x hx
            · unfold Item.key; simp [hcb]
          · exact h1 j (by simp [hj])
        · simp [Side.text] at ht ⊢; exact ht
      · refine ⟨⟨⟨[], [c]⟩ :: is, post⟩, ⟨?_, h2, ?_⟩, ?_⟩
        · intro j hj
          rcases List.mem_cons.1 hj with rfl | hj
          · refine ⟨by simp, by simpa using hn, ?_⟩
            unfold Item.key; simp [hcb]
          · exact h1 j hj
        · intro j hj
          simp only [List.tail_cons] at hj
          cases is with
          | nil => simp at hj
          | cons i is =>
            rcases List.mem_cons.1 hj with rfl | hj
            · have : ¬ j.pre.any isSign = false := fun e => hm ⟨j, rfl, e⟩
              simpa using this
            · exact h3 j (by simpa using hj)
        · simp [Side.text] at ht ⊢; exact ht

end Phyem.Expr
