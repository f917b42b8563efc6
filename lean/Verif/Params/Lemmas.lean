import Verif.Params.Spec

namespace Phyem.Params

variable {T : Type}

/-- The scalars a session can have. -/
structure Inv (s : State T) : Prop where
  unique : ∀ (i j : ℕ) p q, s[i]? = some p → s[j]? = some q → p.root = true → q.root = true →
    p.lin = q.lin ∨ p.sym = q.sym → i = j
  root : ∀ p ∈ s, p.root = true → ∃ x y, p.lin = [.root x] ∧ p.sym = [y]
  real : ∀ p ∈ s, p.real = true → p.root = true ∧ ∃ q, p.lin = [.root (.num q)] ∧ p.sym = [symOf q]
  comp : ∀ p ∈ s, p.root = false → 2 ≤ p.lin.length

/-- Numbers are real scalars. -/
def NumOK (s : State T) : Prop := ∀ p ∈ s, ∀ q, p.root = true → p.lin = [.root (.num q)] → p.real = true

/-- Nothing but values changes. -/
def Keeps (s s' : State T) : Prop :=
  ∀ (i : ℕ) p, s[i]? = some p → ∃ p', s'[i]? = some p' ∧ p'.sym = p.sym ∧ p'.lin = p.lin ∧
    p'.real = p.real ∧ p'.root = p.root

/-- Scalars are added at the end. -/
def Grows (s s' : State T) : Prop := ∃ l, s' = s ++ l

lemma Grows.refl (s : State T) : Grows s s := ⟨[], by simp⟩

lemma Grows.trans {s s' s'' : State T} (h : Grows s s') (h' : Grows s' s'') : Grows s s'' := by
  obtain ⟨l, rfl⟩ := h
  obtain ⟨l', rfl⟩ := h'
  exact ⟨l ++ l', by simp⟩

lemma Grows.get {s s' : State T} (h : Grows s s') {i : ℕ} {p : Scalar T} (hp : s[i]? = some p) :
    s'[i]? = some p := by
  obtain ⟨l, rfl⟩ := h
  rw [List.getElem?_append_left]
  · exact hp
  · exact (List.getElem?_eq_some_iff.mp hp).1

lemma Grows.keeps {s s' : State T} (h : Grows s s') : Keeps s s' :=
  fun _ p hp => ⟨p, h.get hp, rfl, rfl, rfl, rfl⟩

lemma Keeps.trans {s s' s'' : State T} (h : Keeps s s') (h' : Keeps s' s'') : Keeps s s'' := by
  intro i p hp
  obtain ⟨p1, a, b, c, d, e⟩ := h i p hp
  obtain ⟨p2, a', b', c', d', e'⟩ := h' i p1 a
  exact ⟨p2, a', b'.trans b, c'.trans c, d'.trans d, e'.trans e⟩

lemma findIdx_some {α : Type} {l : List α} {f : α → Bool} {i : ℕ} (h : l.findIdx? f = some i) :
    ∃ p, l[i]? = some p ∧ f p = true := by
  obtain ⟨hi, h1, -⟩ := List.findIdx?_eq_some_iff_getElem.mp h
  exact ⟨_, List.getElem?_eq_getElem hi, h1⟩

/-- What `make` does. -/
lemma make_cases (s : State T) (sym lin : Text) (real : Bool) :
    (∃ i p, make s sym lin real = (s, some i) ∧ s[i]? = some p ∧ p.root = true ∧ p.lin = [.root lin] ∧
      p.sym = [sym]) ∨
    make s sym lin real = (s, none) ∨
    (make s sym lin real = (s ++ [⟨[sym], [.root lin], real, true, initial lin real⟩], some s.length) ∧
      ∀ p ∈ s, p.root = true → p.lin ≠ [.root lin] ∧ p.sym ≠ [sym]) := by
  unfold make
  by_cases h1 : okSym sym = true
  · cases h2 : s.findIdx? fun p => p.root && p.lin == [.root lin] && p.sym == [sym] with
    | some i =>
      obtain ⟨p, h3, h4⟩ := findIdx_some h2
      simp only [Bool.and_eq_true, beq_iff_eq] at h4
      exact .inl ⟨i, p, by simp [h1], h3, h4.1.1, h4.1.2, h4.2⟩
    | none =>
      by_cases h3 : (s.any fun p => p.root && (p.lin == [.root lin] || p.sym == [sym])) = true
      · exact .inr (.inl (by simp only [h1, Bool.not_true, Bool.false_eq_true, if_false, h3, if_true]))
      · by_cases h4 : okLin lin = true
        · refine .inr (.inr ⟨by
            simp only [h1, Bool.not_true, Bool.false_eq_true, if_false, h4]
            rw [if_neg h3], fun p hp hr => ?_⟩)
          have h5 : ¬ ∃ x ∈ s, (x.root && (x.lin == [.root lin] || x.sym == [sym])) = true := by
            rw [← List.any_eq_true]
            exact h3
          constructor
          · intro hc
            exact h5 ⟨p, hp, by simp [hr, hc]⟩
          · intro hc
            exact h5 ⟨p, hp, by simp [hr, hc]⟩
        · exact .inr (.inl (by
            simp only [h1, Bool.not_true, Bool.false_eq_true, if_false]
            rw [if_neg h3, if_pos (by simpa using h4)]))
  · exact .inr (.inl (by simp [h1]))

lemma make_grows (s : State T) (sym lin : Text) (real : Bool) : Grows s (make s sym lin real).1 := by
  rcases make_cases s sym lin real with ⟨i, p, h, -⟩ | h | ⟨h, -⟩ <;> rw [h]
  · exact .refl s
  · exact .refl s
  · exact ⟨_, rfl⟩

lemma make_index (s : State T) (sym lin : Text) (real : Bool) (i : ℕ) (h : (make s sym lin real).2 = some i) :
    ∃ p, (make s sym lin real).1[i]? = some p ∧ p.root = true ∧ p.lin = [.root lin] ∧ p.sym = [sym] := by
  rcases make_cases s sym lin real with ⟨j, p, h1, h2, h3⟩ | h1 | ⟨h1, -⟩ <;> rw [h1] at h ⊢
  · obtain rfl := Option.some.inj h
    exact ⟨p, h2, h3⟩
  · cases h
  · obtain rfl := Option.some.inj h
    exact ⟨_, by simp; rfl, rfl, rfl, rfl⟩

lemma inv_append {s : State T} (hi : Inv s) (p : Scalar T)
    (h1 : p.root = true → ∀ q ∈ s, q.root = true → p.lin ≠ q.lin ∧ p.sym ≠ q.sym)
    (h2 : p.root = true → ∃ x y, p.lin = [.root x] ∧ p.sym = [y])
    (h3 : p.real = true → p.root = true ∧ ∃ q, p.lin = [.root (.num q)] ∧ p.sym = [symOf q])
    (h4 : p.root = false → 2 ≤ p.lin.length) : Inv (s ++ [p]) := by
  have hget : ∀ (i : ℕ) a, (s ++ [p])[i]? = some a → s[i]? = some a ∨ i = s.length ∧ a = p := by
    intro i a ha
    rcases lt_trichotomy i s.length with h | h | h
    · rw [List.getElem?_append_left h] at ha
      exact .inl ha
    · subst h
      simp at ha
      exact .inr ⟨rfl, ha.symm⟩
    · rw [List.getElem?_eq_none (by simp; omega)] at ha
      cases ha
  have hmem : ∀ a ∈ s ++ [p], a ∈ s ∨ a = p := by
    intro a ha
    simpa using ha
  refine ⟨fun i j a b ha hb ra rb hab => ?_, fun a ha => ?_, fun a ha => ?_, fun a ha => ?_⟩
  · rcases hget i a ha with ha' | ⟨ha', rfl⟩ <;> rcases hget j b hb with hb' | ⟨hb', rfl⟩
    · exact hi.unique i j a b ha' hb' ra rb hab
    · obtain ⟨n1, n2⟩ := h1 rb a (List.mem_of_getElem? ha') ra
      rcases hab with h | h
      · exact absurd h.symm n1
      · exact absurd h.symm n2
    · obtain ⟨n1, n2⟩ := h1 ra b (List.mem_of_getElem? hb') rb
      rcases hab with h | h
      · exact absurd h n1
      · exact absurd h n2
    · rw [ha', hb']
  · rcases hmem a ha with h | rfl
    · exact hi.root a h
    · exact h2
  · rcases hmem a ha with h | rfl
    · exact hi.real a h
    · exact h3
  · rcases hmem a ha with h | rfl
    · exact hi.comp a h
    · exact h4

lemma number_inv {s : State T} (hi : Inv s) (q : ℚ) : Inv (number s q).1 := by
  unfold number
  rcases make_cases s (symOf q) (.num q) true with ⟨i, p, h, -⟩ | h | ⟨h, hn⟩ <;> rw [h]
  · exact hi
  · exact hi
  · exact inv_append hi _ (fun _ a ha ra => ⟨(hn a ha ra).1.symm, (hn a ha ra).2.symm⟩)
      (fun _ => ⟨_, _, rfl, rfl⟩) (fun _ => ⟨rfl, q, rfl, rfl⟩) (fun h => by cases h)

lemma named_inv {s : State T} (hi : Inv s) (sym lin : Text) : Inv (named s sym lin).1 := by
  unfold named
  rcases make_cases s sym lin false with ⟨i, p, h, -⟩ | h | ⟨h, hn⟩ <;> rw [h]
  · exact hi
  · exact hi
  · exact inv_append hi _ (fun _ a ha ra => ⟨(hn a ha ra).1.symm, (hn a ha ra).2.symm⟩)
      (fun _ => ⟨_, _, rfl, rfl⟩) (fun h => by cases h) (fun h => by cases h)

lemma number_numOK {s : State T} (hi : NumOK s) (q : ℚ) : NumOK (number s q).1 := by
  unfold number
  rcases make_cases s (symOf q) (.num q) true with ⟨i, p, h, -⟩ | h | ⟨h, hn⟩ <;> rw [h]
  · exact hi
  · exact hi
  · intro p hp x hr hl
    rcases List.mem_append.mp hp with h | h
    · exact hi p h x hr hl
    · obtain rfl := List.mem_singleton.mp h
      rfl

lemma named_numOK {s : State T} (hi : NumOK s) (sym lin : Text) (hl : ∀ q, lin ≠ .num q) :
    NumOK (named s sym lin).1 := by
  unfold named
  rcases make_cases s sym lin false with ⟨i, p, h, -⟩ | h | ⟨h, hn⟩ <;> rw [h]
  · exact hi
  · exact hi
  · intro p hp x hr hx
    rcases List.mem_append.mp hp with h | h
    · exact hi p h x hr hx
    · obtain rfl := List.mem_singleton.mp h
      simp only [List.cons.injEq, Tok.root.injEq, and_true] at hx
      exact absurd hx (hl x)

/-- A step of arithmetic: scalars are added and the invariants hold. -/
structure Fine (s s' : State T) : Prop where
  grows : Grows s s'
  inv : Inv s → Inv s'
  num : NumOK s → NumOK s'

lemma Fine.refl (s : State T) : Fine s s := ⟨.refl s, id, id⟩

lemma Fine.trans {s s' s'' : State T} (h : Fine s s') (h' : Fine s' s'') : Fine s s'' :=
  ⟨h.grows.trans h'.grows, fun h0 => h'.inv (h.inv h0), fun h0 => h'.num (h.num h0)⟩

lemma number_fine (s : State T) (q : ℚ) : Fine s (number s q).1 :=
  ⟨make_grows s _ _ _, fun h => number_inv h q, fun h => number_numOK h q⟩

lemma compound_fine (s : State T) (lin : List Tok) (hl : 2 ≤ lin.length) : Fine s (compound s lin).1 := by
  refine ⟨⟨_, rfl⟩, fun hi => ?_, fun hi => ?_⟩
  · exact inv_append hi _ (fun h => by cases h) (fun h => by cases h) (fun h => by cases h) (fun _ => hl)
  · intro p hp x hr hx
    rcases List.mem_append.mp hp with h | h
    · exact hi p h x hr hx
    · obtain rfl := List.mem_singleton.mp h
      cases hr

lemma Inv.lin_pos {s : State T} (hi : Inv s) {p : Scalar T} (hp : p ∈ s) : 1 ≤ p.lin.length := by
  cases hr : p.root with
  | true =>
    obtain ⟨x, y, h, -⟩ := hi.root p hp hr
    rw [h]
    simp
  | false =>
    have := hi.comp p hp hr
    omega

lemma addNum_fine (s : State T) (i : ℕ) (q : ℚ) (hi : Inv s) : Fine s (addNum s i q).1 := by
  unfold addNum
  cases hp : s[i]? with
  | none => exact .refl s
  | some p =>
    dsimp only
    split_ifs
    · cases floatSym p with
      | none => exact .refl s
      | some x => exact number_fine s _
    · apply compound_fine
      have := hi.lin_pos (List.mem_of_getElem? hp)
      simp

lemma raddNum_fine (s : State T) (i : ℕ) (q : ℚ) : Fine s (raddNum s i q).1 := by
  unfold raddNum
  cases hp : s[i]? with
  | none => exact .refl s
  | some p =>
    dsimp only
    split_ifs
    · cases floatSym p with
      | none => exact .refl s
      | some x => exact number_fine s _
    · apply compound_fine
      simp

lemma add_fine (s : State T) (i j : ℕ) (hi : Inv s) : Fine s (add s i j).1 := by
  unfold add
  cases hp : s[i]? with
  | none => exact .refl s
  | some p =>
    cases hq : s[j]? with
    | none => exact .refl s
    | some q =>
      dsimp only
      split_ifs
      · cases floatSym q with
        | none => exact .refl s
        | some x => exact addNum_fine s i x hi
      · apply compound_fine
        have h1 := hi.lin_pos (List.mem_of_getElem? hp)
        have h2 := hi.lin_pos (List.mem_of_getElem? hq)
        simp
        omega

lemma div_fine (s : State T) (i j : ℕ) (hi : Inv s) : Fine s (div s i j).1 := by
  unfold div
  cases hp : s[i]? with
  | none => exact .refl s
  | some p =>
    cases hq : s[j]? with
    | none => exact .refl s
    | some q =>
      dsimp only
      split_ifs
      · exact .refl s
      · apply compound_fine
        have h1 := hi.lin_pos (List.mem_of_getElem? hp)
        have h2 := hi.lin_pos (List.mem_of_getElem? hq)
        simp
        omega

lemma divNum_fine (s : State T) (i : ℕ) (q : ℚ) (hi : Inv s) : Fine s (divNum s i q).1 := by
  have h1 := number_fine s q
  unfold divNum
  rcases hn : number s q with ⟨s', o⟩
  rw [hn] at h1
  cases o with
  | none => exact h1
  | some j => exact h1.trans (div_fine s' i j (h1.inv hi))

lemma setValue_inv {s : State T} (hi : Inv s) (i : ℕ) (v : Value T) : Inv (setValue s i v) := by
  have hget : ∀ (n : ℕ) a, (setValue s i v)[n]? = some a → ∃ b, s[n]? = some b ∧ a.sym = b.sym ∧
      a.lin = b.lin ∧ a.real = b.real ∧ a.root = b.root := by
    intro n a ha
    unfold setValue at ha
    rw [List.getElem?_modify] at ha
    cases hs : s[n]? with
    | none => simp [hs] at ha
    | some b =>
      by_cases h : i = n
      · simp [hs, h] at ha
        subst ha
        exact ⟨b, rfl, rfl, rfl, rfl, rfl⟩
      · simp [hs, h] at ha
        subst ha
        exact ⟨b, rfl, rfl, rfl, rfl, rfl⟩
  have hmem : ∀ a ∈ setValue s i v, ∃ b ∈ s, a.sym = b.sym ∧ a.lin = b.lin ∧ a.real = b.real ∧
      a.root = b.root := by
    intro a ha
    obtain ⟨n, hn⟩ := List.mem_iff_getElem?.mp ha
    obtain ⟨b, h1, h2⟩ := hget n a hn
    exact ⟨b, List.mem_of_getElem? h1, h2⟩
  refine ⟨fun m n a b ha hb ra rb hab => ?_, fun a ha hr => ?_, fun a ha hr => ?_, fun a ha hr => ?_⟩
  · obtain ⟨a', h1, h2, h3, h4, h5⟩ := hget m a ha
    obtain ⟨b', g1, g2, g3, g4, g5⟩ := hget n b hb
    exact hi.unique m n a' b' h1 g1 (by rw [← h5]; exact ra) (by rw [← g5]; exact rb)
      (by rw [← h3, ← g3, ← h2, ← g2]; exact hab)
  · obtain ⟨b, h1, h2, h3, h4, h5⟩ := hmem a ha
    rw [h2, h3]
    exact hi.root b h1 (by rw [← h5]; exact hr)
  · obtain ⟨b, h1, h2, h3, h4, h5⟩ := hmem a ha
    rw [h2, h3, h5]
    exact hi.real b h1 (by rw [← h4]; exact hr)
  · obtain ⟨b, h1, h2, h3, h4, h5⟩ := hmem a ha
    rw [h3]
    exact hi.comp b h1 (by rw [← h5]; exact hr)

lemma setValue_keeps (s : State T) (i : ℕ) (v : Value T) : Keeps s (setValue s i v) := by
  intro n p hp
  unfold setValue
  rw [List.getElem?_modify, hp]
  by_cases h : i = n
  · exact ⟨{ p with value := v }, by simp [h], rfl, rfl, rfl, rfl⟩
  · exact ⟨p, by simp [h], rfl, rfl, rfl, rfl⟩

lemma setValue_numOK {s : State T} (hi : NumOK s) (i : ℕ) (v : Value T) : NumOK (setValue s i v) := by
  intro p hp q hr hl
  obtain ⟨n, hn⟩ := List.mem_iff_getElem?.mp hp
  unfold setValue at hn
  rw [List.getElem?_modify] at hn
  cases hs : s[n]? with
  | none => simp [hs] at hn
  | some b =>
    have hb := List.mem_of_getElem? hs
    by_cases h : i = n
    · simp [hs, h] at hn
      subst hn
      exact hi b hb q hr hl
    · simp [hs, h] at hn
      subst hn
      exact hi b hb q hr hl

lemma step_inv {s : State T} (hi : Inv s) (o : UserOp T) : Inv (step s o) ∧ Keeps s (step s o) := by
  cases o with
  | number q => exact ⟨number_inv hi q, (number_fine s q).grows.keeps⟩
  | named sym lin => exact ⟨named_inv hi sym lin, (make_grows s _ _ _).keeps⟩
  | set i v => exact ⟨setValue_inv hi i v, setValue_keeps s i v⟩
  | addNum i q => exact ⟨(addNum_fine s i q hi).inv hi, (addNum_fine s i q hi).grows.keeps⟩
  | raddNum i q => exact ⟨(raddNum_fine s i q).inv hi, (raddNum_fine s i q).grows.keeps⟩
  | add i j => exact ⟨(add_fine s i j hi).inv hi, (add_fine s i j hi).grows.keeps⟩
  | divNum i q => exact ⟨(divNum_fine s i q hi).inv hi, (divNum_fine s i q hi).grows.keeps⟩
  | div i j => exact ⟨(div_fine s i j hi).inv hi, (div_fine s i j hi).grows.keeps⟩

lemma step_numOK {s : State T} (hi : Inv s) (hn : NumOK s) (o : UserOp T) (ho : ∀ sym q, o ≠ .named sym (.num q)) :
    NumOK (step s o) := by
  cases o with
  | number q => exact number_numOK hn q
  | named sym lin => exact named_numOK hn sym lin fun q hq => ho sym q (by rw [hq])
  | set i v => exact setValue_numOK hn i v
  | addNum i q => exact (addNum_fine s i q hi).num hn
  | raddNum i q => exact (raddNum_fine s i q).num hn
  | add i j => exact (add_fine s i j hi).num hn
  | divNum i q => exact (divNum_fine s i q hi).num hn
  | div i j => exact (div_fine s i j hi).num hn

lemma foldl_inv (h : List (UserOp T)) : ∀ s : State T, Inv s → Inv (h.foldl step s) ∧ Keeps s (h.foldl step s) := by
  induction h with
  | nil => exact fun s hi => ⟨hi, fun i p hp => ⟨p, hp, rfl, rfl, rfl, rfl⟩⟩
  | cons o h ih =>
    intro s hi
    obtain ⟨h1, h2⟩ := step_inv hi o
    obtain ⟨h3, h4⟩ := ih _ h1
    exact ⟨h3, h2.trans h4⟩

lemma foldl_numOK (h : List (UserOp T)) : ∀ s : State T, Inv s → NumOK s → Named h → NumOK (h.foldl step s) := by
  induction h with
  | nil => exact fun s _ hn _ => hn
  | cons o h ih =>
    intro s hi hn hh
    exact ih _ (step_inv hi o).1 (step_numOK hi hn o fun sym q hq => hh sym q (by simp [hq]))
      fun sym q hq => hh sym q (List.mem_cons_of_mem _ hq)

lemma init_inv : Inv ([] : State T) := ⟨by simp, by simp, by simp, by simp⟩

lemma session_inv (h : List (UserOp T)) : Inv (session h) := (foldl_inv h [] init_inv).1

/-! ### Expressions -/

lemma call_of {s : State T} {i : ℕ} {p : Scalar T} (hp : s[i]? = some p) (t : T) : call s i t = callOn p t := by
  unfold call
  rw [hp]
  rfl

lemma call_number {s : State T} (hi : Inv s) (hk : NumbersKept s) {i : ℕ} {p : Scalar T} {q : ℚ}
    (hp : s[i]? = some p) (hr : p.real = true) (hl : p.lin = [.root (.num q)]) (t : T) :
    call s i t = some q := by
  rw [call_of hp]
  unfold callOn
  rw [if_pos hr, hk p (List.mem_of_getElem? hp) q hr hl]

lemma symOf_num {q x : ℚ} (h : symOf q = .num x) : x = q := by
  unfold symOf at h
  split_ifs at h with h1 h2
  · cases h
    exact h1.symm
  · cases h
    rfl

lemma floatSym_real {s : State T} (hi : Inv s) {p : Scalar T} (hp : p ∈ s) (hr : p.real = true) {x : ℚ}
    (hx : floatSym p = some x) : p.root = true ∧ p.lin = [.root (.num x)] := by
  obtain ⟨h1, q, h2, h3⟩ := hi.real p hp hr
  unfold floatSym at hx
  rw [h3] at hx
  cases hs : symOf q with
  | num y =>
    rw [hs] at hx
    obtain rfl : y = x := by simpa using hx
    rw [symOf_num hs]
    exact ⟨h1, h2⟩
  | frac n => rw [hs] at hx; cases hx
  | other n => rw [hs] at hx; cases hx

lemma number_index {s : State T} (hn : NumOK s) (q : ℚ) (i : ℕ)
    (h : (number s q).2 = some i) :
    ∃ p, (number s q).1[i]? = some p ∧ p.root = true ∧ p.real = true ∧ p.lin = [.root (.num q)] := by
  obtain ⟨p, h1, h2, h3, -⟩ := make_index s (symOf q) (.num q) true i h
  exact ⟨p, h1, h2, number_numOK hn q p (List.mem_of_getElem? h1) q h2 h3, h3⟩

/-- The quotient of two results. -/
def quotient (a b : Option ℚ) : Option ℚ := a.bind fun x => b.bind fun y => if y = 0 then none else some (x / y)

/-- What a scalar made by an expression stands for. -/
def Stands (s' : State T) (t : T) (E : Exp) (i : ℕ) (p : Scalar T) : Prop :=
  ∀ s'' : State T, Grows s' s'' → Inv s'' → NumOK s'' → NumbersKept s'' →
    (p.root = true → call s'' i t = E.value fun j => call s'' j t) ∧
    (∀ x y, p.lin = [.root x, .div, .root y] → ∀ (m n : ℕ) a b, s''[m]? = some a → s''[n]? = some b →
      a.root = true → b.root = true → a.lin = [.root x] → b.lin = [.root y] →
      quotient (call s'' m t) (call s'' n t) = E.value fun j => call s'' j t)

lemma stands_compound (s : State T) (t : T) (E : Exp) (lin : List Tok)
    (h : ∀ s'', Grows (compound s lin).1 s'' → Inv s'' → NumOK s'' → NumbersKept s'' →
      ∀ x y, lin = [.root x, .div, .root y] → ∀ (m n : ℕ) a b, s''[m]? = some a → s''[n]? = some b →
      a.root = true → b.root = true → a.lin = [.root x] → b.lin = [.root y] →
      quotient (call s'' m t) (call s'' n t) = E.value fun j => call s'' j t) :
    ∃ p, (compound s lin).1[s.length]? = some p ∧ Stands (compound s lin).1 t E s.length p := by
  refine ⟨⟨[], lin, false, false, .unset⟩, by simp [compound],
    fun s'' hg hi hn hk => ⟨fun hr => Bool.noConfusion hr, ?_⟩⟩
  exact h s'' hg hi hn hk

lemma stands_number (s : State T) (t : T) (E : Exp) (q : ℚ) (i : ℕ) (hi : Inv s) (hn : NumOK s)
    (h : (number s q).2 = some i)
    (hE : ∀ s'', Grows (number s q).1 s'' → Inv s'' → NumOK s'' → NumbersKept s'' →
      (E.value fun j => call s'' j t) = some q) :
    ∃ p, (number s q).1[i]? = some p ∧ Stands (number s q).1 t E i p := by
  obtain ⟨p, h1, h2, h3, h4⟩ := number_index hn q i h
  refine ⟨p, h1, fun s'' hg hi' hn' hk' => ⟨fun _ => ?_, fun x y hxy => ?_⟩⟩
  · rw [hE s'' hg hi' hn' hk']
    exact call_number hi' hk' (hg.get h1) h3 h4 t
  · rw [h4] at hxy
    simp at hxy

lemma quot_split {l r : List Tok} {x y : Text} (hl : 1 ≤ l.length) (hr : 1 ≤ r.length)
    (h : l ++ .div :: r = [.root x, .div, .root y]) : l = [.root x] ∧ r = [.root y] := by
  cases l with
  | nil => simp at hl
  | cons a l =>
    cases l with
    | nil => simpa using h
    | cons b l =>
      cases l with
      | nil =>
        simp at h
      | cons c l =>
        have := congrArg List.length h
        simp at this

lemma root_of_single {s : State T} (hi : Inv s) {p : Scalar T} (hp : p ∈ s) {x : Tok} (h : p.lin = [x]) :
    p.root = true := by
  cases hr : p.root with
  | true => rfl
  | false =>
    have := hi.comp p hp hr
    rw [h] at this
    simp at this

lemma no_plus {l r : List Tok} {x y : Text} (h : l ++ .plus :: r = [.root x, .div, .root y]) : False := by
  have : Tok.plus ∈ [Tok.root x, .div, .root y] := by
    rw [← h]
    simp
  simp at this

lemma Roots.mono {s s' : State T} (h : Grows s s') {E : Exp} (hE : E.Roots s) : E.Roots s' := by
  induction E with
  | scalar i =>
    obtain ⟨p, h1, h2⟩ := hE
    exact ⟨p, h.get h1, h2⟩
  | addNum A q ih => exact ih hE
  | raddNum q A ih => exact ih hE
  | add A B ihA ihB => exact ⟨ihA hE.1, ihB hE.2⟩
  | divNum A q ih => exact ih hE
  | div A B ihA ihB => exact ⟨ihA hE.1, ihB hE.2⟩

/-- The result of `div`. -/
lemma stands_div (s : State T) (t : T) (A B : Exp) (i j k : ℕ) (hi : Inv s)
    (pa pb : Scalar T) (ha : s[i]? = some pa) (hb : s[j]? = some pb)
    (hA : Stands s t A i pa) (hB : Stands s t B j pb) (h : (div s i j).2 = some k) :
    ∃ p, (div s i j).1[k]? = some p ∧ Stands (div s i j).1 t (.div A B) k p := by
  unfold div at h ⊢
  rw [ha, hb] at h ⊢
  dsimp only at h ⊢
  split_ifs at h ⊢ with hr
  obtain rfl : s.length = k := Option.some.inj h
  apply stands_compound
  intro s'' hg hi' hn' hk' x y hxy m n a b hm hn ra rb la lb
  obtain ⟨h1, h2⟩ := quot_split (hi.lin_pos (List.mem_of_getElem? ha)) (hi.lin_pos (List.mem_of_getElem? hb)) hxy
  have hg' : Grows s s'' := Grows.trans ⟨_, rfl⟩ hg
  have r1 := root_of_single hi (List.mem_of_getElem? ha) h1
  have r2 := root_of_single hi (List.mem_of_getElem? hb) h2
  obtain rfl := hi'.unique m i a pa hm (hg'.get ha) ra r1 (.inl (by rw [la, h1]))
  obtain rfl := hi'.unique n j b pb hn (hg'.get hb) rb r2 (.inl (by rw [lb, h2]))
  rw [(hA s'' hg' hi' hn' hk').1 r1, (hB s'' hg' hi' hn' hk').1 r2]
  rfl

lemma Stands.mono {s s' : State T} {t : T} {E : Exp} {i : ℕ} {p : Scalar T} (h : Stands s t E i p)
    (hg : Grows s s') : Stands s' t E i p :=
  fun s'' hg' hi hn hk => h s'' (hg.trans hg') hi hn hk

/-- The result of `addNum`. -/
lemma stands_addNum (s : State T) (t : T) (A E : Exp) (i k : ℕ) (q : ℚ) (hi : Inv s) (hn : NumOK s)
    (pa : Scalar T) (ha : s[i]? = some pa) (hA : Stands s t A i pa)
    (hE : ∀ s'', Grows s s'' → Inv s'' → NumOK s'' → NumbersKept s'' →
      (E.value fun j => call s'' j t) = (A.value fun j => call s'' j t).map (· + q))
    (h : (addNum s i q).2 = some k) :
    ∃ p, (addNum s i q).1[k]? = some p ∧ Stands (addNum s i q).1 t E k p := by
  unfold addNum at h ⊢
  rw [ha] at h ⊢
  dsimp only at h ⊢
  split_ifs at h ⊢ with hr
  · cases hx : floatSym pa with
    | none => rw [hx] at h; cases h
    | some x =>
      rw [hx] at h
      obtain ⟨r1, l1⟩ := floatSym_real hi (List.mem_of_getElem? ha) hr hx
      refine stands_number s t E (x + q) k hi hn h fun s'' hg hi' hn' hk' => ?_
      have hg' := (number_fine s (x + q)).grows.trans hg
      rw [hE s'' hg' hi' hn' hk', ← (hA s'' hg' hi' hn' hk').1 r1, call_number hi' hk' (hg'.get ha) hr l1 t]
      rfl
  · obtain rfl : s.length = k := Option.some.inj h
    apply stands_compound
    intro s'' _ _ _ _ x y hxy
    exact (no_plus hxy).elim

/-- The result of `raddNum`. -/
lemma stands_raddNum (s : State T) (t : T) (A E : Exp) (i k : ℕ) (q : ℚ) (hi : Inv s) (hn : NumOK s)
    (pa : Scalar T) (ha : s[i]? = some pa) (hA : Stands s t A i pa)
    (hE : ∀ s'', Grows s s'' → Inv s'' → NumOK s'' → NumbersKept s'' →
      (E.value fun j => call s'' j t) = (A.value fun j => call s'' j t).map (· + q))
    (h : (raddNum s i q).2 = some k) :
    ∃ p, (raddNum s i q).1[k]? = some p ∧ Stands (raddNum s i q).1 t E k p := by
  unfold raddNum at h ⊢
  rw [ha] at h ⊢
  dsimp only at h ⊢
  split_ifs at h ⊢ with hr
  · cases hx : floatSym pa with
    | none => rw [hx] at h; cases h
    | some x =>
      rw [hx] at h
      obtain ⟨r1, l1⟩ := floatSym_real hi (List.mem_of_getElem? ha) hr hx
      refine stands_number s t E (x + q) k hi hn h fun s'' hg hi' hn' hk' => ?_
      have hg' := (number_fine s (x + q)).grows.trans hg
      rw [hE s'' hg' hi' hn' hk', ← (hA s'' hg' hi' hn' hk').1 r1, call_number hi' hk' (hg'.get ha) hr l1 t]
      rfl
  · obtain rfl : s.length = k := Option.some.inj h
    apply stands_compound
    intro s'' _ _ _ _ x y hxy
    exact (no_plus (l := [_]) hxy).elim

lemma build_spec (t : T) : ∀ (E : Exp) (s : State T), Inv s → NumOK s → E.Roots s →
    Fine s (E.build s).1 ∧ ∀ k, (E.build s).2 = some k →
      ∃ p, (E.build s).1[k]? = some p ∧ Stands (E.build s).1 t E k p := by
  intro E
  induction E with
  | scalar i =>
    intro s hi hn hE
    obtain ⟨p, h1, h2⟩ := hE
    refine ⟨.refl s, fun k hk => ?_⟩
    obtain rfl := Option.some.inj hk
    refine ⟨p, h1, fun s'' hg hi' _ _ => ⟨fun _ => rfl, fun x y hxy => ?_⟩⟩
    obtain ⟨u, v, h3, -⟩ := hi.root p (List.mem_of_getElem? h1) h2
    rw [h3] at hxy
    simp at hxy
  | addNum A q ih =>
    intro s hi hn hE
    obtain ⟨f1, h1⟩ := ih s hi hn hE
    unfold Exp.build
    rcases hb : A.build s with ⟨s1, o⟩
    rw [hb] at f1 h1
    cases o with
    | none => exact ⟨f1, fun k hk => by cases hk⟩
    | some i =>
      obtain ⟨p, hp, hA⟩ := h1 i rfl
      have hi1 := f1.inv hi
      have hn1 := f1.num hn
      exact ⟨f1.trans (addNum_fine s1 i q hi1), fun k hk =>
        stands_addNum s1 t A _ i k q hi1 hn1 p hp hA (fun _ _ _ _ _ => rfl) hk⟩
  | raddNum q A ih =>
    intro s hi hn hE
    obtain ⟨f1, h1⟩ := ih s hi hn hE
    unfold Exp.build
    rcases hb : A.build s with ⟨s1, o⟩
    rw [hb] at f1 h1
    cases o with
    | none => exact ⟨f1, fun k hk => by cases hk⟩
    | some i =>
      obtain ⟨p, hp, hA⟩ := h1 i rfl
      have hi1 := f1.inv hi
      have hn1 := f1.num hn
      refine ⟨f1.trans (raddNum_fine s1 i q), fun k hk =>
        stands_raddNum s1 t A _ i k q hi1 hn1 p hp hA (fun s'' _ _ _ _ => ?_) hk⟩
      change (A.value _).map _ = (A.value _).map _
      congr 1
      funext x
      exact add_comm _ _
  | add A B ihA ihB =>
    intro s hi hn hE
    obtain ⟨f1, h1⟩ := ihA s hi hn hE.1
    unfold Exp.build
    rcases hb : A.build s with ⟨s1, o⟩
    rw [hb] at f1 h1
    cases o with
    | none => exact ⟨f1, fun k hk => by cases hk⟩
    | some i =>
      obtain ⟨p, hp, hA⟩ := h1 i rfl
      have hi1 := f1.inv hi
      have hn1 := f1.num hn
      obtain ⟨f2, h2⟩ := ihB s1 hi1 hn1 (Roots.mono f1.grows hE.2)
      dsimp only
      rcases hb2 : B.build s1 with ⟨s2, o⟩
      rw [hb2] at f2 h2
      cases o with
      | none => exact ⟨f1.trans f2, fun k hk => by cases hk⟩
      | some j =>
        obtain ⟨q, hq, hB⟩ := h2 j rfl
        have hi2 := f2.inv hi1
        have hn2 := f2.num hn1
        have hp2 := f2.grows.get hp
        refine ⟨(f1.trans f2).trans (add_fine s2 i j hi2), fun k hk => ?_⟩
        dsimp only at hk ⊢
        unfold add at hk ⊢
        rw [hp2, hq] at hk ⊢
        dsimp only at hk ⊢
        split_ifs at hk ⊢ with hr
        · cases hx : floatSym q with
          | none => rw [hx] at hk; cases hk
          | some x =>
            rw [hx] at hk
            obtain ⟨r1, l1⟩ := floatSym_real hi2 (List.mem_of_getElem? hq) hr hx
            refine stands_addNum s2 t A _ i k x hi2 hn2 p hp2 (hA.mono f2.grows)
              (fun s'' hg hi' hn' hk' => ?_) hk
            have h3 := (hB s'' hg hi' hn' hk').1 r1
            rw [call_number hi' hk' (hg.get hq) hr l1 t] at h3
            change ((A.value _).bind fun a => (B.value _).map (a + ·)) = _
            rw [← h3]
            cases A.value fun j => call s'' j t <;> rfl
        · obtain rfl : s2.length = k := Option.some.inj hk
          apply stands_compound
          intro s'' _ _ _ _ x y hxy
          exact (no_plus hxy).elim
  | divNum A q ih =>
    intro s hi hn hE
    obtain ⟨f1, h1⟩ := ih s hi hn hE
    unfold Exp.build
    rcases hb : A.build s with ⟨s1, o⟩
    rw [hb] at f1 h1
    cases o with
    | none => exact ⟨f1, fun k hk => by cases hk⟩
    | some i =>
      obtain ⟨p, hp, hA⟩ := h1 i rfl
      have hi1 := f1.inv hi
      have hn1 := f1.num hn
      refine ⟨f1.trans (divNum_fine s1 i q hi1), fun k hk => ?_⟩
      have hf := number_fine s1 q
      have hind := number_index hn1 q
      dsimp only at hk ⊢
      unfold divNum at hk ⊢
      rcases hnum : number s1 q with ⟨s2, o⟩
      rw [hnum] at hk hf hind
      cases o with
      | none => cases hk
      | some j =>
        obtain ⟨b, hb1, hb2, hb3, hb4⟩ := hind j rfl
        dsimp only at hk ⊢ hb1
        have hi2 := hf.inv hi1
        obtain ⟨c, hc, hS⟩ := stands_div s2 t A (.scalar j) i j k hi2 p b (hf.grows.get hp) hb1
          (hA.mono hf.grows) (fun s'' hg hi' _ _ => ⟨fun _ => rfl, fun x y hxy => by
            rw [hb4] at hxy
            simp at hxy⟩) hk
        refine ⟨c, hc, fun s'' hg hi' hn' hk' => ?_⟩
        have h5 := hS s'' hg hi' hn' hk'
        have hv : (Exp.value (fun j => call s'' j t) (.div A (.scalar j))) =
            Exp.value (fun j => call s'' j t) (.divNum A q) := by
          change ((A.value _).bind fun x => (call s'' j t).bind fun y => if y = 0 then none else some (x / y)) = _
          rw [call_number hi' hk' (hg.get ((div_fine s2 i j hi2).grows.get hb1)) hb3 hb4 t]
          rfl
        rw [hv] at h5
        exact h5
  | div A B ihA ihB =>
    intro s hi hn hE
    obtain ⟨f1, h1⟩ := ihA s hi hn hE.1
    unfold Exp.build
    rcases hb : A.build s with ⟨s1, o⟩
    rw [hb] at f1 h1
    cases o with
    | none => exact ⟨f1, fun k hk => by cases hk⟩
    | some i =>
      obtain ⟨p, hp, hA⟩ := h1 i rfl
      have hi1 := f1.inv hi
      have hn1 := f1.num hn
      obtain ⟨f2, h2⟩ := ihB s1 hi1 hn1 (Roots.mono f1.grows hE.2)
      dsimp only
      rcases hb2 : B.build s1 with ⟨s2, o⟩
      rw [hb2] at f2 h2
      cases o with
      | none => exact ⟨f1.trans f2, fun k hk => by cases hk⟩
      | some j =>
        obtain ⟨q, hq, hB⟩ := h2 j rfl
        have hi2 := f2.inv hi1
        exact ⟨(f1.trans f2).trans (div_fine s2 i j hi2), fun k hk =>
          stands_div s2 t A B i j k hi2 p q (f2.grows.get hp) hq (hA.mono f2.grows) hB hk⟩

lemma findRoot_some {s : State T} {lin : List Tok} {i : ℕ} (h : findRoot s lin = some i) :
    ∃ p, s[i]? = some p ∧ p.root = true ∧ p.lin = lin := by
  obtain ⟨p, h1, h2⟩ := findIdx_some h
  simp only [Bool.and_eq_true, beq_iff_eq] at h2
  exact ⟨p, h1, h2⟩

lemma findRoot_root {s : State T} (hi : Inv s) {i : ℕ} {p : Scalar T} (hp : s[i]? = some p)
    (hr : p.root = true) : findRoot s p.lin = some i := by
  cases h : findRoot s p.lin with
  | some j =>
    obtain ⟨q, h1, h2, h3⟩ := findRoot_some h
    rw [hi.unique j i q p h1 hp h2 hr (.inl h3)]
  | none =>
    have := List.findIdx?_eq_none_iff.mp h p (List.mem_of_getElem? hp)
    simp [hr] at this

lemma split_div {l : List Tok} (h : l.count .div = 1) :
    l = l.takeWhile (· != .div) ++ .div :: (l.dropWhile (· != .div)).drop 1 := by
  induction l with
  | nil => simp at h
  | cons a l ih =>
    by_cases ha : a = .div
    · subst ha
      simp
    · rw [List.count_cons_of_ne ha] at h
      have ha' : (a != Tok.div) = true := by simpa using ha
      rw [List.takeWhile_cons_of_pos (by exact ha'), List.dropWhile_cons_of_pos (by exact ha')]
      exact congrArg (a :: ·) (ih h)

end Phyem.Params
