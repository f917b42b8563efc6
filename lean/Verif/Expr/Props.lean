import Verif.Expr.Lemmas

/-!
C01: equation strings mean what they say.
-/

namespace Phyem.Expr

open Spec

variable {T : Type}

theorem ordinarySign_blank (q : List Char) (h : '-' ∉ q) : ordinarySign q = .pos := by
  induction q with
  | nil => rfl
  | cons a q ih =>
    simp only [List.mem_cons, not_or] at h
    rw [ordinarySign, if_neg (fun e => h.1 e.symm), ih h.2]

theorem lastSign_noMinus (q : List Char) (h : '-' ∉ q) : lastSign q = .pos := by
  induction q with
  | nil => rfl
  | cons a q ih =>
    simp only [List.mem_cons, not_or] at h
    have ha : a ≠ '-' := fun e => h.1 e.symm
    rw [lastSign_cons, ih h.2]
    simp [ha]

theorem ordinary_eq_last (p q : List Char) (hp : '-' ∉ p) (hq : (q.filter isSign).length ≤ 1) :
    ordinarySign (p ++ q) = lastSign (p ++ q) := by
  induction p with
  | cons a p ih =>
    simp only [List.mem_cons, not_or] at hp
    have ha : a ≠ '-' := fun e => hp.1 e.symm
    rw [List.cons_append, ordinarySign, if_neg ha, ih hp.2, lastSign_cons]
    by_cases h : (p ++ q).any isSign = true
    · rw [if_pos h]
    · rw [if_neg h, if_neg ha]
      have hm : '-' ∉ p ++ q := fun hm => h (by
        simp only [List.any_eq_true]; exact ⟨'-', hm, rfl⟩)
      exact lastSign_noMinus _ hm
  | nil =>
    simp only [List.nil_append]
    induction q with
    | nil => rfl
    | cons a q ih =>
      by_cases ha : isSign a = true
      · have hq' : q.filter isSign = [] := by
          rw [List.filter_cons, if_pos ha] at hq
          simp only [List.length_cons] at hq
          exact List.length_eq_zero_iff.1 (by omega)
        have hn : ∀ x ∈ q, isSign x = false := by
          intro x hx
          have := List.filter_eq_nil_iff.1 hq' x hx
          simpa using this
        have hany : q.any isSign = false := by
          simp only [List.any_eq_false]
          intro x hx; simp [hn x hx]
        have hm : '-' ∉ q := fun hm => by have := hn _ hm; simp [isSign] at this
        rw [ordinarySign, lastSign_cons, hany, ordinarySign_blank q hm]
        by_cases h : a = '-' <;> simp [h, Sign.flip]
      · have ha' : a ≠ '-' := by rintro rfl; simp [isSign] at ha
        rw [List.filter_cons, if_neg ha] at hq
        rw [ordinarySign, if_neg ha', lastSign_cons, ih hq]
        by_cases h : q.any isSign = true
        · rw [if_pos h]
        · rw [if_neg h, if_neg ha']
          refine lastSign_noMinus _ fun hm => h ?_
          simp only [List.any_eq_true]; exact ⟨'-', hm, rfl⟩

/-- Every equation text with exactly one `=` is a left side, `=`, and a right side, so the
theorems below range over all texts the library accepts. -/
theorem text_decomposes (s : List Char) (h : s.count '=' = 1) :
    ∃ L R : Side, L.wf ∧ R.wf ∧ s = L.text ++ '=' :: R.text := by
  have hm : '=' ∈ s := List.count_pos_iff.1 (by omega)
  obtain ⟨l, r, rfl⟩ := List.append_of_mem hm
  have hl : '=' ∉ l := fun hl => by
    have := List.count_pos_iff.2 hl
    simp [List.count_append, List.count_cons] at h; omega
  have hr : '=' ∉ r := fun hr => by
    have := List.count_pos_iff.2 hr
    simp [List.count_append, List.count_cons] at h; omega
  obtain ⟨L, hL, rfl⟩ := side_exists l hl
  obtain ⟨R, hR, rfl⟩ := side_exists r hr
  exact ⟨L, R, hL, hR, rfl⟩

/-- A text without exactly one `=` is refused. -/
theorem wrong_count_refused (interp : Dict Str T) (s : Str) (h : s.count '=' ≠ 1) :
    parseEquation interp s = none := by
  unfold parseEquation
  by_cases h0 : s.length = 0 <;> simp [h0, h]

example : (['a', '=', 'b', '=', 'c'] : Str).count '=' ≠ 1 := by decide

theorem noEq (S : Side) (h : S.wf) : '=' ∉ S.text := by
  intro hm
  have hs : ∀ c, isSignOrBlank c = true → c ≠ '=' := by
    rintro c hc rfl; simp [isSignOrBlank, isSign] at hc
  unfold Side.text at hm
  rcases List.mem_append.1 hm with hm | hm
  · obtain ⟨i, hi, hm⟩ := List.mem_flatMap.1 hm
    rcases List.mem_append.1 hm with hm | hm
    · exact hs _ ((h.1 i hi).1 _ hm) rfl
    · have := (h.1 i hi).2.1 _ hm
      simp [isNameChar] at this
  · exact hs _ (h.2.1 _ hm) rfl

/-- The reading of every accepted text, without further hypotheses: the terms are those written,
in order, each with the LAST sign in front of it (`lastSign`), a `0` without minus is dropped, and
the text is refused exactly when one of the other names is not in the interpreter. -/
theorem reading (interp : Dict Str T) (L R : Side) (hL : L.wf) (hR : R.wf) :
    parseEquation interp (L.text ++ '=' :: R.text) =
      (expectedAll interp L.items).bind fun a => (expectedAll interp R.items).map fun b =>
        ⟨a, b⟩ := by
  rw [parseEquation_sides interp _ _ (noEq L hL) (noEq R hR), rawSide_side interp L hL,
    rawSide_side interp R hR]

theorem plain_sign {i : Item} (h : i.plain) : lastSign i.pre = ordinarySign i.pre := by
  obtain ⟨⟨p, q, e, hp, hq⟩, _⟩ := h
  rw [e, ordinary_eq_last p q hp hq]

theorem plain_zero {i : Item} (h : i.plain) (h0 : i.key = ['0']) : lastSign i.pre = .pos :=
  lastSign_noMinus _ (h.2 h0)

theorem expectedAll_plain (interp : Dict Str T) (is : List Item) (h : ∀ i ∈ is, i.plain)
    (ts : List (Sign × Str × T)) (he : expectedAll interp is = some ts) :
    ts.map (fun t => (t.1, t.2.1)) = Side.terms ⟨is, []⟩ ∧
      ∀ t ∈ ts, interp.get t.2.1 = some t.2.2 := by
  induction is generalizing ts with
  | nil => simp [expectedAll] at he; subst he; simp [Side.terms]
  | cons i is ih =>
    simp only [expectedAll, comb, Option.bind_eq_some_iff, Option.map_eq_some_iff] at he
    obtain ⟨a, ha, b, hb, rfl⟩ := he
    obtain ⟨ih1, ih2⟩ := ih (fun j hj => h j (by simp [hj])) b hb
    have hi := h i (by simp)
    unfold expected at ha
    by_cases h0 : i.key = ['0']
    · rw [if_pos ⟨plain_zero hi h0, h0⟩] at ha
      simp at ha; subst ha
      refine ⟨?_, by simpa using ih2⟩
      simpa [Side.terms, h0] using ih1
    · rw [if_neg (fun e => h0 e.2)] at ha
      obtain ⟨t, ht, rfl⟩ := Option.map_eq_some_iff.1 ha
      refine ⟨?_, ?_⟩
      · simp only [Side.terms] at ih1
        simp [Side.terms, h0, ih1, plain_sign hi]
      · intro x hx
        rcases List.mem_append.1 hx with hx | hx
        · simp at hx; subst hx; exact ht
        · exact ih2 x hx

theorem expectedAll_none (interp : Dict Str T) (is : List Item) (h : ∀ i ∈ is, i.plain) :
    expectedAll interp is = none ↔ ∃ i ∈ is, i.key ≠ ['0'] ∧ interp.get i.key = none := by
  induction is with
  | nil => simp [expectedAll]
  | cons i is ih =>
    have ih' := ih (fun j hj => h j (by simp [hj]))
    have hi := h i (by simp)
    have he : expected interp i = none ↔ i.key ≠ ['0'] ∧ interp.get i.key = none := by
      unfold expected
      by_cases h0 : i.key = ['0']
      · simp [h0, plain_zero hi h0]
      · simp [h0]
    simp only [expectedAll, List.mem_cons, exists_eq_or_imp]
    rw [← he, ← ih']
    cases hx : expected interp i <;> cases hy : expectedAll interp is <;> simp [comb]

theorem value_terms {R : Type} [CommRing R] (v : Str → R) (is : List Item) :
    signedSum v (Side.terms ⟨is, []⟩) = Side.value v ⟨is, []⟩ := by
  unfold Side.terms Side.value
  simp only
  induction is with
  | nil => rfl
  | cons i is ih =>
    by_cases h0 : i.key = ['0']
    · rw [List.filter_cons, if_neg (by simp [h0]), ih]
      simp [h0, nameVal]
    · rw [List.filter_cons, if_pos (by simp [h0]), List.map_cons, signedSum_cons, ih]
      simp [h0, nameVal]

/-- C01. When every minus is the last sign before its term (`a + b - c`, `-a = 0`, `a + + b`, but
not `a - -b` or `a - + b`) and no minus precedes a `0`: an accepted text yields exactly the
written terms (other than `0`) with their ordinary signs, in order and on their side, each bound
to the object the interpreter gives; left minus right has the value of ordinary arithmetic; and the
text is refused exactly when a name is missing from the interpreter. Missing: texts with a
minus followed by another sign, for which the claim is false (`double_minus_refuted`,
`minus_plus_refuted`). -/
theorem meaning_partial {R : Type} [CommRing R] (interp : Dict Str T) (v : T → R)
    (w : Str → R) (hw : ∀ n t, interp.get n = some t → w n = v t)
    (L S : Side) (hL : L.wf) (hS : S.wf)
    (pL : ∀ i ∈ L.items, i.plain) (pS : ∀ i ∈ S.items, i.plain) :
    (parseEquation interp (L.text ++ '=' :: S.text) = none ↔
      ∃ i ∈ L.items ++ S.items, i.key ≠ ['0'] ∧ interp.get i.key = none) ∧
    ∀ e, parseEquation interp (L.text ++ '=' :: S.text) = some e →
      e.left.map (fun t => (t.1, t.2.1)) = L.terms ∧
      e.right.map (fun t => (t.1, t.2.1)) = S.terms ∧
      (∀ t ∈ e.left ++ e.right, interp.get t.2.1 = some t.2.2) ∧
      (e.left.map fun t => t.1.act (v t.2.2)).sum - (e.right.map fun t => t.1.act (v t.2.2)).sum =
        L.value w - S.value w := by
  rw [reading interp L S hL hS]
  constructor
  · have a := expectedAll_none interp L.items pL
    have b := expectedAll_none interp S.items pS
    have : (∃ i ∈ L.items ++ S.items, i.key ≠ ['0'] ∧ interp.get i.key = none) ↔
        (∃ i ∈ L.items, i.key ≠ ['0'] ∧ interp.get i.key = none) ∨
        (∃ i ∈ S.items, i.key ≠ ['0'] ∧ interp.get i.key = none) := by
      constructor
      · rintro ⟨i, hi, h⟩
        rcases List.mem_append.1 hi with hi | hi
        · exact Or.inl ⟨i, hi, h⟩
        · exact Or.inr ⟨i, hi, h⟩
      · rintro (⟨i, hi, h⟩ | ⟨i, hi, h⟩)
        · exact ⟨i, by simp [hi], h⟩
        · exact ⟨i, by simp [hi], h⟩
    rw [this, ← a, ← b]
    cases expectedAll interp L.items <;> cases expectedAll interp S.items <;> simp
  · intro e he
    simp only [Option.bind_eq_some_iff, Option.map_eq_some_iff] at he
    obtain ⟨a, ha, b, hb, rfl⟩ := he
    obtain ⟨a1, a2⟩ := expectedAll_plain interp _ pL a ha
    obtain ⟨b1, b2⟩ := expectedAll_plain interp _ pS b hb
    have key : ∀ (ts : List (Sign × Str × T)) (is : List Item) (post : List Char),
        ts.map (fun t => (t.1, t.2.1)) = Side.terms ⟨is, []⟩ →
        (∀ t ∈ ts, interp.get t.2.1 = some t.2.2) →
        (ts.map fun t => t.1.act (v t.2.2)).sum = Side.value w ⟨is, post⟩ := by
      intro ts is post h1 h2
      have : Side.value w ⟨is, post⟩ = Side.value w ⟨is, []⟩ := rfl
      rw [this, ← value_terms, ← h1]
      unfold signedSum
      rw [List.map_map]
      congr 1
      apply List.map_congr_left
      intro t ht
      simp [hw _ _ (h2 t ht)]
    refine ⟨a1, b1, ?_, ?_⟩
    · intro t ht
      rcases List.mem_append.1 ht with ht | ht
      · exact a2 t ht
      · exact b2 t ht
    · rw [key a L.items L.post a1 a2, key b S.items S.post b1 b2]

/-- The text `a + b - c = 0` as sides; it satisfies the hypotheses of `meaning_partial` and is
accepted. -/
def exL : Side := ⟨[⟨[], ['a', ' ']⟩, ⟨['+', ' '], ['b', ' ']⟩, ⟨['-', ' '], ['c', ' ']⟩], []⟩
def exR : Side := ⟨[⟨[' '], ['0']⟩], []⟩

example : exL.text ++ '=' :: exR.text = "a + b - c = 0".toList ∧ exL.wf ∧ exR.wf ∧
    (∀ i ∈ exL.items, i.plain) ∧ (∀ i ∈ exR.items, i.plain) ∧
    (parseEquation [(['a'], 5), (['b'], 7), (['c'], 1)] (exL.text ++ '=' :: exR.text)) =
      some ⟨[(.pos, ['a'], 5), (.pos, ['b'], 7), (.neg, ['c'], 1)], []⟩ := by
  refine ⟨by decide, ?_, ?_, ?_, ?_, by decide⟩
  · unfold exL Side.wf Item.wf; decide
  · unfold exR Side.wf Item.wf; decide
  · intro i hi
    simp [exL] at hi
    rcases hi with rfl | rfl | rfl <;>
      exact ⟨⟨[], _, rfl, by decide, by decide⟩, by decide⟩
  · intro i hi
    simp [exR] at hi
    subst hi
    exact ⟨⟨[], _, rfl, by decide, by decide⟩, by decide⟩

/-- `a - -b = 0` is accepted as `a - b = 0`: the double minus is read as one, so with
`a = 0`, `b = 1` the value is `-1` instead of `1`. -/
theorem double_minus_refuted :
    ∃ (L S : Side), L.wf ∧ S.wf ∧ L.text ++ '=' :: S.text = "a - -b = 0".toList ∧
      (L.value (fun n => if n = ['b'] then (1 : ℤ) else 0) -
        S.value (fun n => if n = ['b'] then (1 : ℤ) else 0)) = 1 ∧
      parseEquation [(['a'], (0 : ℤ)), (['b'], 1)] (L.text ++ '=' :: S.text) =
        some ⟨[(.pos, ['a'], 0), (.neg, ['b'], 1)], []⟩ := by
  refine ⟨⟨[⟨[], ['a', ' ']⟩, ⟨['-', ' ', '-'], ['b', ' ']⟩], []⟩, ⟨[⟨[' '], ['0']⟩], []⟩, ?_, ?_,
    by decide, by decide, by decide⟩
  · unfold Side.wf Item.wf; decide
  · unfold Side.wf Item.wf; decide

/-- `a - +b = 0` is accepted as `a + b = 0`: the minus is lost. -/
theorem minus_plus_refuted :
    ∃ (L S : Side), L.wf ∧ S.wf ∧ L.text ++ '=' :: S.text = "a - +b = 0".toList ∧
      (L.value (fun n => if n = ['b'] then (1 : ℤ) else 0) -
        S.value (fun n => if n = ['b'] then (1 : ℤ) else 0)) = -1 ∧
      parseEquation [(['a'], (0 : ℤ)), (['b'], 1)] (L.text ++ '=' :: S.text) =
        some ⟨[(.pos, ['a'], 0), (.pos, ['b'], 1)], []⟩ := by
  refine ⟨⟨[⟨[], ['a', ' ']⟩, ⟨['-', ' ', '+'], ['b', ' ']⟩], []⟩, ⟨[⟨[' '], ['0']⟩], []⟩, ?_, ?_,
    by decide, by decide, by decide⟩
  · unfold Side.wf Item.wf; decide
  · unfold Side.wf Item.wf; decide

/-- Equations are read one by one, in order: the system is accepted exactly when every equation
is, and equation `i` of the result is the reading of text `i`. -/
theorem system_in_order (interp : Dict Str T) (ss : List Str) :
    (parseAll interp ss = none ↔ ∃ s ∈ ss, parseEquation interp s = none) ∧
    ∀ es, parseAll interp ss = some es → es.length = ss.length ∧
      ∀ (i : ℕ) (s : Str), ss[i]? = some s → parseEquation interp s = es[i]? := by
  induction ss with
  | nil => constructor
           · simp [parseAll]
           · intro es h; simp [parseAll] at h; subst h; simp
  | cons s ss ih =>
    obtain ⟨ih1, ih2⟩ := ih
    constructor
    · simp only [parseAll, List.mem_cons, exists_eq_or_imp]
      rw [← ih1]
      cases h : parseEquation interp s <;> cases h' : parseAll interp ss <;> simp
    · intro es h
      simp only [parseAll, Option.bind_eq_some_iff, Option.map_eq_some_iff] at h
      obtain ⟨e, he, es', hes, rfl⟩ := h
      obtain ⟨l, f⟩ := ih2 es' hes
      refine ⟨by simp [l], ?_⟩
      intro i s' hs'
      cases i with
      | zero => simp at hs'; subst hs'; simpa using he
      | succ i => simp at hs' ⊢; exact f i s' hs'

example : parseAll [(['a'], 1), (['b'], 2)] ["a=b".toList, "-b=0".toList] =
    some [⟨[(.pos, ['a'], 1)], [(.pos, ['b'], 2)]⟩, ⟨[(.neg, ['b'], 2)], []⟩] := by decide

/-- The index `'i-k'` counts the terms of equation `i` from the left side on: the first
`len(left)` numbers are left terms, the following ones right terms, and no term has two
numbers. -/
theorem index_of_term (es : List (Eqn T)) (i : ℕ) (e : Eqn T) (h : es[i]? = some e) :
    (∀ k, k < e.left.length → indexing es i k = e.left[k]?) ∧
    (∀ k, indexing es i (e.left.length + k) = e.right[k]?) := by
  unfold indexing
  rw [h]
  constructor
  · intro k hk
    simp only [Option.bind_some]
    exact List.getElem?_append_left hk
  · intro k
    simp only [Option.bind_some]
    rw [List.getElem?_append_right (by omega)]
    congr 1; omega

example : indexing [⟨[(.pos, ['a'], 1)], [(.neg, ['b'], 2)]⟩] 0 1 = some (.neg, ['b'], 2) := rfl

end Phyem.Expr
