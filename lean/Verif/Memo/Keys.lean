import Verif.Memo.Props
import Mathlib.Data.List.TakeWhile
import Mathlib.Data.Finset.Image

/-! Which arguments have the same key. -/

namespace Phyem.Memo

open Phyem.Dict

/-- Equal as python compares: `True` is 1 and `False` is 0. -/
inductive Like : Py → Py → Prop
  | refl (x : Py) : Like x x
  | left (b : Bool) : Like (.bool b) (.int (if b then 1 else 0))
  | right (b : Bool) : Like (.int (if b then 1 else 0)) (.bool b)

def NoArr (x : Py) : Prop := ∀ l, x ≠ .arr l

lemma norm_like {x y : Py} (hx : NoArr x) (hy : NoArr y) : norm x = norm y ↔ Like x y := by
  constructor
  · intro h
    cases x with
    | arr l => exact absurd rfl (hx l)
    | int n =>
      cases y with
      | arr l => exact absurd rfl (hy l)
      | int m => simp only [norm, Option.some.injEq, Sum.inl.injEq] at h; exact h ▸ .refl _
      | bool b => simp only [norm, Option.some.injEq, Sum.inl.injEq] at h; exact h ▸ .right b
      | text s => simp [norm] at h
    | bool b =>
      cases y with
      | arr l => exact absurd rfl (hy l)
      | int m => simp only [norm, Option.some.injEq, Sum.inl.injEq] at h; exact h ▸ .left b
      | bool c => cases b <;> cases c <;> first | exact .refl _ | simp [norm] at h
      | text s => simp [norm] at h
    | text s =>
      cases y with
      | arr l => exact absurd rfl (hy l)
      | int m => simp [norm] at h
      | bool c => simp [norm] at h
      | text t => simp only [norm, Option.some.injEq, Sum.inr.injEq] at h; exact h ▸ .refl _
  · intro h
    cases h <;> rfl

lemma norm_some {x : Py} (hx : NoArr x) : ∃ v, norm x = some v := by
  cases x with
  | arr l => exact absurd rfl (hx l)
  | _ => exact ⟨_, rfl⟩

lemma keyPos_eq : ∀ l m : List Py, (∀ x ∈ l, NoArr x) → (∀ x ∈ m, NoArr x) → (keyPos l = keyPos m ↔ List.Forall₂ Like l m)
  | [], [], _, _ => by simp [keyPos]
  | [], y :: m, _, hm => by
    obtain ⟨v, hv⟩ := norm_some (hm y List.mem_cons_self)
    simp only [keyPos, List.mapM_nil, List.mapM_cons, hv]
    cases m.mapM norm <;> simp
  | x :: l, [], hl, _ => by
    obtain ⟨v, hv⟩ := norm_some (hl x List.mem_cons_self)
    simp only [keyPos, List.mapM_nil, List.mapM_cons, hv]
    cases l.mapM norm <;> simp
  | x :: l, y :: m, hl, hm => by
    have ih := keyPos_eq l m (fun z hz => hl z (List.mem_cons_of_mem _ hz)) fun z hz => hm z (List.mem_cons_of_mem _ hz)
    have hxy := norm_like (hl x List.mem_cons_self) (hm y List.mem_cons_self)
    have some_of : ∀ r : List Py, (∀ z ∈ r, NoArr z) → ∃ k, r.mapM norm = some k := by
      intro r hr
      induction r with
      | nil => exact ⟨[], rfl⟩
      | cons z r ihr =>
        obtain ⟨k, hk⟩ := ihr fun w hw => hr w (List.mem_cons_of_mem _ hw)
        obtain ⟨v, hv⟩ := norm_some (hr z List.mem_cons_self)
        exact ⟨v :: k, by rw [List.mapM_cons, hv, hk]; rfl⟩
    obtain ⟨v, hv⟩ := norm_some (hl x List.mem_cons_self)
    obtain ⟨u, hu⟩ := norm_some (hm y List.mem_cons_self)
    obtain ⟨k, hk⟩ := some_of l fun z hz => hl z (List.mem_cons_of_mem _ hz)
    obtain ⟨k', hk'⟩ := some_of m fun z hz => hm z (List.mem_cons_of_mem _ hz)
    rw [List.forall₂_cons, ← hxy, ← ih]
    simp only [keyPos, List.mapM_cons, hv, hu, hk, hk']
    simp

/-- C186: arguments without arrays have the same key for `memoize2` iff the positional ones are equal one by one and the keyword ones are equal as sets, as
python compares. -/
theorem key2_iff (a b : Args) (ha : ∀ x ∈ a.pos, NoArr x) (ha' : ∀ p ∈ a.kw, NoArr p.2) (hb : ∀ x ∈ b.pos, NoArr x) (hb' : ∀ p ∈ b.kw, NoArr p.2) :
    key2 a = key2 b ↔ List.Forall₂ Like a.pos b.pos ∧ (∀ p ∈ a.kw, ∃ q ∈ b.kw, q.1 = p.1 ∧ Like p.2 q.2) ∧
      ∀ q ∈ b.kw, ∃ p ∈ a.kw, p.1 = q.1 ∧ Like p.2 q.2 := by
  have some_pos : ∀ r : List Py, (∀ z ∈ r, NoArr z) → ∃ k, keyPos r = some k := by
    intro r hr
    unfold keyPos
    induction r with
    | nil => exact ⟨[], rfl⟩
    | cons z r ihr =>
      obtain ⟨k, hk⟩ := ihr fun w hw => hr w (List.mem_cons_of_mem _ hw)
      obtain ⟨v, hv⟩ := norm_some (hr z List.mem_cons_self)
      exact ⟨v :: k, by rw [List.mapM_cons, hv, hk]; rfl⟩
  have some_kw : ∀ r : List (Str × Py), (∀ z ∈ r, NoArr z.2) → ∃ k, (r.mapM fun q => (norm q.2).map fun v => (q.1, v)) = some k ∧
      ∀ s v, (s, v) ∈ k ↔ ∃ z ∈ r, z.1 = s ∧ norm z.2 = some v := by
    intro r hr
    induction r with
    | nil => exact ⟨[], rfl, by simp⟩
    | cons z r ihr =>
      obtain ⟨k, hk, hm⟩ := ihr fun w hw => hr w (List.mem_cons_of_mem _ hw)
      obtain ⟨v, hv⟩ := norm_some (hr z List.mem_cons_self)
      refine ⟨(z.1, v) :: k, by rw [List.mapM_cons, hv, Option.map_some, hk]; rfl, ?_⟩
      intro s u
      simp only [List.mem_cons, Prod.mk.injEq, hm, exists_eq_or_imp, hv, Option.some.injEq]
      refine or_congr ⟨fun h => ⟨h.1.symm, h.2.symm⟩, fun h => ⟨h.1.symm, h.2.symm⟩⟩ Iff.rfl
  obtain ⟨p, hp⟩ := some_pos a.pos ha
  obtain ⟨p', hp'⟩ := some_pos b.pos hb
  obtain ⟨k, hk, hm⟩ := some_kw a.kw ha'
  obtain ⟨k', hk', hm'⟩ := some_kw b.kw hb'
  have hpos := keyPos_eq a.pos b.pos ha hb
  rw [hp, hp', Option.some.injEq] at hpos
  unfold key2
  simp only [hp, hp', hk, hk', Option.bind_some, Option.map_some, Option.some.injEq, Prod.mk.injEq]
  refine and_congr hpos ?_
  rw [Finset.ext_iff]
  simp only [List.mem_toFinset, Prod.forall, hm, hm']
  constructor
  · intro h
    refine ⟨?_, ?_⟩
    · rintro s x hx
      obtain ⟨v, hv⟩ := norm_some (ha' _ hx)
      obtain ⟨⟨t, y⟩, hy, e1, e2⟩ := (h s v).1 ⟨(s, x), hx, rfl, hv⟩
      exact ⟨(t, y), hy, e1, (norm_like (ha' _ hx) (hb' _ hy)).1 (hv.trans e2.symm)⟩
    · rintro s x hx
      obtain ⟨v, hv⟩ := norm_some (hb' _ hx)
      obtain ⟨⟨t, y⟩, hy, e1, e2⟩ := (h s v).2 ⟨(s, x), hx, rfl, hv⟩
      exact ⟨(t, y), hy, e1, (norm_like (ha' _ hy) (hb' _ hx)).1 (e2.trans hv.symm)⟩
  · rintro ⟨h1, h2⟩ s v
    constructor
    · rintro ⟨⟨t, y⟩, hy, e1, e2⟩
      obtain ⟨⟨t', y'⟩, hy', e1', hl⟩ := h1 _ _ hy
      exact ⟨(t', y'), hy', e1'.trans e1, ((norm_like (ha' _ hy) (hb' _ hy')).2 hl).symm.trans e2⟩
    · rintro ⟨⟨t, y⟩, hy, e1, e2⟩
      obtain ⟨⟨t', y'⟩, hy', e1', hl⟩ := h2 _ _ hy
      exact ⟨(t', y'), hy', e1'.trans e1, ((norm_like (ha' _ hy') (hb' _ hy)).2 hl).trans e2⟩

/-! The texts of `memoize1`. -/

lemma digit_ok {n : ℕ} {c : Char} (h : c ∈ Nat.toDigits 10 n) : c ≠ ',' ∧ c ≠ '{' ∧ c ≠ '-' := by
  have := Nat.isDigit_of_mem_toDigits (b := 10) (by decide) (by decide) h
  refine ⟨?_, ?_, ?_⟩ <;> rintro rfl <;> exact absurd this (by decide)

lemma showInt_ok {n : ℤ} {c : Char} (h : c ∈ showInt n) : c ≠ ',' ∧ c ≠ '{' := by
  unfold showInt at h
  split at h
  · rcases List.mem_cons.1 h with rfl | h
    · decide
    · exact ⟨(digit_ok h).1, (digit_ok h).2.1⟩
  · exact ⟨(digit_ok h).1, (digit_ok h).2.1⟩

lemma showInt_ne (n : ℤ) : showInt n ≠ [] := by
  unfold showInt
  split
  · simp
  · exact Nat.toDigits_ne_nil

lemma digits_inj {m n : ℕ} (h : Nat.toDigits 10 m = Nat.toDigits 10 n) : m = n := by
  have := congrArg (fun l => Nat.ofDigitChars 10 l 0) h
  simpa [Nat.ofDigitChars_ten_toDigits] using this

lemma showInt_inj {m n : ℤ} (h : showInt m = showInt n) : m = n := by
  unfold showInt at h
  by_cases hm : m < 0 <;> by_cases hn : n < 0
  · simp only [hm, hn, if_true, List.cons.injEq, true_and] at h
    have := digits_inj h
    omega
  · rw [if_pos hm, if_neg hn] at h
    exact absurd rfl (digit_ok (n := n.natAbs) (c := '-') (by rw [← h]; simp)).2.2
  · rw [if_neg hm, if_pos hn] at h
    exact absurd rfl (digit_ok (n := m.natAbs) (c := '-') (by rw [h]; simp)).2.2
  · rw [if_neg hm, if_neg hn] at h
    have := digits_inj h
    omega

lemma take_word {w : Str} (hw : ∀ c ∈ w, c ≠ ',') (r : Str) (hr : r = [] ∨ ∃ s, r = ',' :: s) : (w ++ r).takeWhile (· != ',') = w := by
  rw [List.takeWhile_append_of_pos (fun c hc => by simpa using hw c hc)]
  rcases hr with rfl | ⟨s, rfl⟩ <;> simp

lemma join_cons (x : Str) (l : List Str) : join ", ".toList (x :: l) = x ++ (if l = [] then [] else ',' :: ' ' :: join ", ".toList l) := by
  cases l with
  | nil => simp [join]
  | cons y l => simp [join, List.intercalate]

/-- Words without commas can be told apart again, even if something follows that begins with another sign. -/
lemma join_inj : ∀ l m : List Str, (∀ w ∈ l, w ≠ [] ∧ ∀ c ∈ w, c ≠ ',') → (∀ w ∈ m, w ≠ [] ∧ ∀ c ∈ w, c ≠ ',') →
    join ", ".toList l = join ", ".toList m → l = m
  | [], [], _, _, _ => rfl
  | [], y :: m, _, hm, h => by
    rw [join_cons] at h
    have : y = [] := by
      have h' : [] = y ++ _ := h
      exact (List.append_eq_nil_iff.1 h'.symm).1
    exact absurd this (hm y List.mem_cons_self).1
  | x :: l, [], hl, _, h => by
    rw [join_cons] at h
    have : x = [] := by
      have h' : x ++ _ = [] := h
      exact (List.append_eq_nil_iff.1 h').1
    exact absurd this (hl x List.mem_cons_self).1
  | x :: l, y :: m, hl, hm, h => by
    rw [join_cons, join_cons] at h
    have hr : ∀ r : List Str, (if r = [] then ([] : Str) else ',' :: ' ' :: join ", ".toList r) = [] ∨
        ∃ s, (if r = [] then ([] : Str) else ',' :: ' ' :: join ", ".toList r) = ',' :: s := by
      intro r
      by_cases e : r = []
      · left; rw [if_pos e]
      · right; exact ⟨_, if_neg e⟩
    have hxy : x = y := by
      rw [← take_word (hl x List.mem_cons_self).2 _ (hr l), h, take_word (hm y List.mem_cons_self).2 _ (hr m)]
    subst hxy
    have h := List.append_cancel_left h
    congr 1
    by_cases el : l = [] <;> by_cases em : m = []
    · rw [el, em]
    · rw [if_pos el, if_neg em] at h; cases h
    · rw [if_neg el, if_pos em] at h; cases h
    · rw [if_neg el, if_neg em, List.cons.injEq, List.cons.injEq] at h
      exact join_inj l m (fun w hw => hl w (List.mem_cons_of_mem _ hw)) (fun w hw => hm w (List.mem_cons_of_mem _ hw)) h.2.2

/-- Integers by place and by name; names have no commas and quotes. -/
structure Ints (a : Args) : Prop where
  pos : ∀ x ∈ a.pos, ∃ n, x = .int n
  kw : ∀ p ∈ a.kw, (∃ n, p.2 = .int n) ∧ ∀ c ∈ p.1, c ≠ ',' ∧ c ≠ '\''

lemma words_ints {l : List Py} (h : ∀ x ∈ l, ∃ n, x = .int n) : ∀ w ∈ l.map repr, w ≠ [] ∧ ∀ c ∈ w, c ≠ ',' := by
  intro w hw
  obtain ⟨x, hx, rfl⟩ := List.mem_map.1 hw
  obtain ⟨n, rfl⟩ := h x hx
  exact ⟨showInt_ne n, fun c hc => (showInt_ok hc).1⟩

lemma map_repr_inj : ∀ {l m : List Py}, (∀ x ∈ l, ∃ n, x = .int n) → (∀ x ∈ m, ∃ n, x = .int n) → l.map repr = m.map repr → l = m
  | [], [], _, _, _ => rfl
  | [], _ :: _, _, _, h => by simp at h
  | _ :: _, [], _, _, h => by simp at h
  | x :: l, y :: m, hl, hm, h => by
    simp only [List.map_cons, List.cons.injEq] at h
    obtain ⟨n, rfl⟩ := hl x List.mem_cons_self
    obtain ⟨k, rfl⟩ := hm y List.mem_cons_self
    rw [showInt_inj h.1, map_repr_inj (fun z hz => hl z (List.mem_cons_of_mem _ hz)) (fun z hz => hm z (List.mem_cons_of_mem _ hz)) h.2]

lemma showPos_one (x : Py) : showPos [x] = '(' :: (join ", ".toList ([x].map repr) ++ [',', ')']) := by simp [showPos, join]

lemma showPos_other {l : List Py} (h : ∀ x, l ≠ [x]) : showPos l = '(' :: (join ", ".toList (l.map repr) ++ [')']) := by
  match l, h with
  | [], _ => rfl
  | [x], h => exact absurd rfl (h x)
  | _ :: _ :: _, _ => rfl

lemma showPos_inj {l m : List Py} (hl : ∀ x ∈ l, ∃ n, x = .int n) (hm : ∀ x ∈ m, ∃ n, x = .int n) (h : showPos l = showPos m) : l = m := by
  have mixed : ∀ (x : Py) (r : List Py), (∀ z ∈ [x], ∃ n, z = .int n) → (∀ z ∈ r, ∃ n, z = .int n) → (∀ y, r ≠ [y]) →
      showPos [x] ≠ showPos r := by
    intro x r hx hr hne e
    rw [showPos_one, showPos_other hne, List.cons.injEq] at e
    have e := e.2
    rw [show [',', ')'] = [','] ++ [')'] from rfl, ← List.append_assoc] at e
    have e := List.append_cancel_right e
    obtain ⟨n, rfl⟩ := hx x List.mem_cons_self
    match r, hr, hne, e with
    | [], _, _, e => simp [join] at e
    | [y], _, hne, _ => exact hne y rfl
    | y :: z :: r, hr, _, e =>
      have hw := words_ints (l := y :: z :: r) hr
      rw [List.map_cons, List.map_cons, join_cons, List.map_cons, List.map_nil, join_cons] at e
      simp only [if_true, List.append_nil, reduceCtorEq, if_false] at e
      have h1 : repr (.int n) = repr y := by
        rw [← take_word (w := repr (.int n)) (fun c hc => (showInt_ok hc).1) [','] (Or.inr ⟨[], rfl⟩), e,
          take_word (hw (repr y) (by simp)).2 _ (Or.inr ⟨_, rfl⟩)]
      rw [h1] at e
      have e := List.append_cancel_left e
      simp at e
  by_cases h1 : ∃ x, l = [x]
  · obtain ⟨x, rfl⟩ := h1
    by_cases h2 : ∃ y, m = [y]
    · obtain ⟨y, rfl⟩ := h2
      rw [showPos_one, showPos_one, List.cons.injEq] at h
      exact map_repr_inj hl hm (join_inj _ _ (words_ints hl) (words_ints hm) (List.append_cancel_right h.2))
    · exact absurd h (mixed x m hl hm fun y e => h2 ⟨y, e⟩)
  · by_cases h2 : ∃ y, m = [y]
    · obtain ⟨y, rfl⟩ := h2
      exact absurd h.symm (mixed y l hm hl fun y e => h1 ⟨y, e⟩)
    · rw [showPos_other fun x e => h1 ⟨x, e⟩, showPos_other fun x e => h2 ⟨x, e⟩, List.cons.injEq] at h
      exact map_repr_inj hl hm (join_inj _ _ (words_ints hl) (words_ints hm) (List.append_cancel_right h.2))

/-- One keyword argument. -/
lemma word_inj {s t : Str} {m n : ℤ} (hs : ∀ c ∈ s, c ≠ '\'') (ht : ∀ c ∈ t, c ≠ '\'')
    (h : repr (.text s) ++ ": ".toList ++ repr (.int m) = repr (.text t) ++ ": ".toList ++ repr (.int n)) : s = t ∧ m = n := by
  simp only [repr] at h
  have h' : '\'' :: (s ++ '\'' :: (": ".toList ++ showInt m)) = '\'' :: (t ++ '\'' :: (": ".toList ++ showInt n)) := by simpa using h
  rw [List.cons.injEq] at h'
  have h' := h'.2
  have take : ∀ (w r : Str), (∀ c ∈ w, c ≠ '\'') → (w ++ '\'' :: r).takeWhile (· != '\'') = w := by
    intro w r hw
    rw [List.takeWhile_append_of_pos (fun c hc => by simpa using hw c hc)]
    simp
  have hst : s = t := by rw [← take s _ hs, h', take t _ ht]
  subst hst
  have h' := List.append_cancel_left h'
  rw [List.cons.injEq] at h'
  exact ⟨rfl, showInt_inj (List.append_cancel_left h'.2)⟩

lemma kw_inj : ∀ l m : List (Str × Py), (∀ p ∈ l, (∃ n, p.2 = .int n) ∧ ∀ c ∈ p.1, c ≠ ',' ∧ c ≠ '\'') →
    (∀ p ∈ m, (∃ n, p.2 = .int n) ∧ ∀ c ∈ p.1, c ≠ ',' ∧ c ≠ '\'') →
    (l.map fun p => repr (.text p.1) ++ ": ".toList ++ repr p.2) = (m.map fun p => repr (.text p.1) ++ ": ".toList ++ repr p.2) → l = m
  | [], [], _, _, _ => rfl
  | [], _ :: _, _, _, h => by simp at h
  | _ :: _, [], _, _, h => by simp at h
  | (s, x) :: l, (t, y) :: m, hl, hm, h => by
    rw [List.map_cons, List.map_cons, List.cons.injEq] at h
    obtain ⟨⟨n, hn⟩, hs⟩ := hl _ List.mem_cons_self
    obtain ⟨⟨k, hk⟩, ht⟩ := hm _ List.mem_cons_self
    simp only at hn hk hs ht h
    subst hn hk
    obtain ⟨rfl, rfl⟩ := word_inj (fun c hc => (hs c hc).2) (fun c hc => (ht c hc).2) h.1
    rw [kw_inj l m (fun p hp => hl p (List.mem_cons_of_mem _ hp)) (fun p hp => hm p (List.mem_cons_of_mem _ hp)) h.2]

/-- C186: integers that are given by place or by name are printed the same only if they are the same, given in the same way. -/
theorem key1_ints (a b : Args) (ha : Ints a) (hb : Ints b) (h : key1 a = key1 b) : a = b := by
  have hno : ∀ l : List Py, (∀ x ∈ l, ∃ n, x = .int n) → ∀ c ∈ showPos l, c ≠ '{' := by
    intro l hl c hc
    have hj : ∀ r : List Py, (∀ x ∈ r, ∃ n, x = .int n) → ∀ c ∈ join ", ".toList (r.map repr), c ≠ '{' := by
      intro r hr
      induction r with
      | nil => intro c hc; simp [join] at hc
      | cons x r ih =>
        intro c hc
        rw [List.map_cons, join_cons, List.mem_append] at hc
        rcases hc with hc | hc
        · obtain ⟨n, rfl⟩ := hr x List.mem_cons_self
          exact (showInt_ok hc).2
        · split at hc
          · simp at hc
          · rcases List.mem_cons.1 hc with rfl | hc
            · decide
            · rcases List.mem_cons.1 hc with rfl | hc
              · decide
              · exact ih (fun z hz => hr z (List.mem_cons_of_mem _ hz)) c hc
    by_cases h1 : ∃ x, l = [x]
    · obtain ⟨x, rfl⟩ := h1
      rw [showPos_one, List.mem_cons, List.mem_append] at hc
      rcases hc with rfl | hc | hc
      · decide
      · exact hj _ hl c hc
      · simp only [List.mem_cons, List.not_mem_nil, or_false] at hc
        rcases hc with rfl | rfl <;> decide
    · rw [showPos_other fun x e => h1 ⟨x, e⟩, List.mem_cons, List.mem_append] at hc
      rcases hc with rfl | hc | hc
      · decide
      · exact hj _ hl c hc
      · simp only [List.mem_cons, List.not_mem_nil, or_false] at hc
        subst hc; decide
  have take : ∀ (w r : Str), (∀ c ∈ w, c ≠ '{') → (w ++ '{' :: r).takeWhile (· != '{') = w := by
    intro w r hw
    rw [List.takeWhile_append_of_pos (fun c hc => by simpa using hw c hc)]
    simp
  have hk : ∀ l : List (Str × Py), showKw l = '{' :: (join ", ".toList (l.map fun p => repr (.text p.1) ++ ": ".toList ++ repr p.2) ++ ['}']) := by
    intro l; simp [showKw]
  unfold key1 at h
  rw [hk, hk] at h
  have hp : showPos a.pos = showPos b.pos := by rw [← take _ _ (hno _ ha.pos), h, take _ _ (hno _ hb.pos)]
  rw [hp] at h
  have h := List.append_cancel_left h
  rw [List.cons.injEq] at h
  have hw : ∀ l : List (Str × Py), (∀ p ∈ l, (∃ n, p.2 = .int n) ∧ ∀ c ∈ p.1, c ≠ ',' ∧ c ≠ '\'') →
      ∀ w ∈ l.map (fun p => repr (.text p.1) ++ ": ".toList ++ repr p.2), w ≠ [] ∧ ∀ c ∈ w, c ≠ ',' := by
    intro l hl w hw
    obtain ⟨⟨s, x⟩, hx, rfl⟩ := List.mem_map.1 hw
    obtain ⟨⟨n, hn⟩, hs⟩ := hl _ hx
    simp only at hn hs
    subst hn
    refine ⟨by simp [repr], ?_⟩
    intro c hc
    simp only [repr, List.mem_append] at hc
    rcases hc with (((hc | hc) | hc) | hc) | hc
    · revert hc; revert c; decide
    · exact (hs c hc).1
    · revert hc; revert c; decide
    · revert hc; revert c; decide
    · exact (showInt_ok hc).1
  have hkw := kw_inj a.kw b.kw ha.kw hb.kw (join_inj _ _ (hw _ ha.kw) (hw _ hb.kw) (List.append_cancel_right h.2))
  have hpp := showPos_inj ha.pos hb.pos hp
  cases a; cases b
  simp only at hpp hkw
  rw [hpp, hkw]

/-- C186: so a function of integers gives the same when it is decorated with `memoize1`, in any history of calls. -/
theorem memo1_ints {V : Type} (f : Args → V) (h : List Args) (hi : ∀ a ∈ h, Ints a) :
    (memo1 (h.map fun a => (some (f a), a))).map Res.val = h.map fun a => some (f a) :=
  memo1_faithful f h fun a ha b hb => key1_ints a b (hi a ha) (hi b hb)

end Phyem.Memo
