import Verif.Params.Lemmas

/-!
C108: constant scalars and factors.
-/

namespace Phyem.Params

variable {T : Type}

/-! ### The registry -/

/-- C108.  Two root scalars of a session never share a symbolic or a linguistic representation. -/
theorem roots_distinct (h : List (UserOp T)) (i j : ℕ) (p q : Scalar T) (hp : (session h)[i]? = some p)
    (hq : (session h)[j]? = some q) (rp : p.root = true) (rq : q.root = true) (hij : i ≠ j) :
    p.lin ≠ q.lin ∧ p.sym ≠ q.sym :=
  ⟨fun hc => hij ((session_inv h).unique i j p q hp hq rp rq (.inl hc)),
    fun hc => hij ((session_inv h).unique i j p q hp hq rp rq (.inr hc))⟩

lemma make_found {s : State T} (hi : Inv s) {i : ℕ} {p : Scalar T} (hp : s[i]? = some p) (hr : p.root = true)
    {sym lin : Text} (hl : p.lin = [.root lin]) (hs : p.sym = [sym]) (hok : okSym sym = true) (real : Bool) :
    make s sym lin real = (s, some i) := by
  rcases make_cases s sym lin real with ⟨j, q, h, h1, h2, h3, h4⟩ | h | ⟨h, hn⟩
  · rw [h, hi.unique j i q p h1 hp h2 hr (.inl (by rw [h3, hl]))]
  · exfalso
    unfold make at h
    rw [if_neg (by simp [hok])] at h
    cases hf : s.findIdx? fun p => p.root && p.lin == [.root lin] && p.sym == [sym] with
    | some k => rw [hf] at h; simp at h
    | none =>
      have := List.findIdx?_eq_none_iff.mp hf p (List.mem_of_getElem? hp)
      simp [hr, hl, hs] at this
  · exact absurd hl (hn p (List.mem_of_getElem? hp) hr).1

lemma okSym_symOf (q : ℚ) : okSym (symOf q) = true := by
  unfold symOf
  split_ifs <;> rfl

/-- C108.  Asking for the same number again returns the same object, whatever was done in between. -/
theorem number_again (h h' : List (UserOp T)) (q : ℚ) (i : ℕ) (hi : (number (session h) q).2 = some i) :
    number (session (h ++ .number q :: h')) q = (session (h ++ .number q :: h'), some i) := by
  obtain ⟨p, h1, h2, h3, h4⟩ := make_index (session h) (symOf q) (.num q) true i hi
  have hfold : session (h ++ .number q :: h') = h'.foldl step (number (session h) q).1 := by
    unfold session
    rw [List.foldl_append, List.foldl_cons]
    rfl
  obtain ⟨hinv, hk⟩ := foldl_inv h' _ (number_inv (session_inv h) q)
  rw [hfold]
  obtain ⟨p', g1, g2, g3, -, g5⟩ := hk i p h1
  exact make_found hinv g1 (by rw [g5, h2]) (by rw [g3, h3]) (by rw [g2, h4]) (okSym_symOf q) true

/-- C108.  Asking for the same name again returns the same object. -/
theorem named_again (h h' : List (UserOp T)) (sym lin : Text) (i : ℕ)
    (hi : (named (session h) sym lin).2 = some i) :
    named (session (h ++ .named sym lin :: h')) sym lin = (session (h ++ .named sym lin :: h'), some i) := by
  obtain ⟨p, h1, h2, h3, h4⟩ := make_index (session h) sym lin false i hi
  have hfold : session (h ++ .named sym lin :: h') = h'.foldl step (named (session h) sym lin).1 := by
    unfold session
    rw [List.foldl_append, List.foldl_cons]
    rfl
  obtain ⟨hinv, hk⟩ := foldl_inv h' _ (named_inv (session_inv h) sym lin)
  rw [hfold]
  obtain ⟨p', g1, g2, g3, -, g5⟩ := hk i p h1
  refine make_found hinv g1 (by rw [g5, h2]) (by rw [g3, h3]) (by rw [g2, h4]) ?_ false
  by_contra hc
  have : (named (session h) sym lin).2 = none := by
    unfold named make
    rw [if_pos (by simpa using hc)]
  rw [this] at hi
  cases hi

/-- C108.  Different numbers are different objects. -/
theorem numbers_differ (h h' : List (UserOp T)) (q q' : ℚ) (hq : q ≠ q') (i j : ℕ)
    (hi : (number (session h) q).2 = some i)
    (hj : (number (session (h ++ .number q :: h')) q').2 = some j) : i ≠ j := by
  rintro rfl
  obtain ⟨p, h1, h2, h3, -⟩ := make_index (session h) (symOf q) (.num q) true i hi
  obtain ⟨p', g1, g2, g3, -⟩ := make_index (session (h ++ .number q :: h')) (symOf q') (.num q') true i hj
  have hfold : session (h ++ .number q :: h') = h'.foldl step (number (session h) q).1 := by
    unfold session
    rw [List.foldl_append, List.foldl_cons]
    rfl
  obtain ⟨-, hk⟩ := foldl_inv h' _ (number_inv (session_inv h) q)
  obtain ⟨p1, e1, -, e3, -⟩ := hk i p h1
  rw [← hfold] at e1
  have e2 := (make_grows (session (h ++ .number q :: h')) (symOf q') (.num q') true).get e1
  have : p1 = p' := Option.some.inj (e2.symm.trans g1)
  subst this
  rw [h3, g3] at e3
  simp at e3
  exact hq e3.symm

lemma symOf_inj {q q' : ℚ} (h : symOf q = symOf q') : q = q' := by
  cases hs : symOf q with
  | num x => rw [← symOf_num hs, symOf_num (h.symm.trans hs)]
  | other s =>
    unfold symOf at hs
    split_ifs at hs
  | frac n =>
    have key : ∀ r, symOf r = .frac n → 1 / r = (n : ℚ) := by
      intro r hr
      unfold symOf at hr
      split_ifs at hr with h1 h2
      cases hr
      exact (Rat.coe_int_num_of_den_eq_one h2.2).symm
    have h1 := key q hs
    have h2 := key q' (h.symm.trans hs)
    rw [← h2] at h1
    rw [one_div, one_div] at h1
    exact inv_injective h1

/-- The sessions in which no named scalar looks like a number. -/
def Plain (h : List (UserOp T)) : Prop :=
  ∀ sym lin, UserOp.named sym lin ∈ h → (∀ q, lin ≠ .num q) ∧ (∀ q, sym ≠ symOf q)

/-- The root scalars with the writing of a number are numbers. -/
def PlainState (s : State T) : Prop :=
  ∀ p ∈ s, p.root = true → (∃ q, p.lin = [.root (.num q)] ∧ p.sym = [symOf q]) ∨
    ∃ x y, p.lin = [.root x] ∧ p.sym = [y] ∧ (∀ q, x ≠ .num q) ∧ ∀ q, y ≠ symOf q

lemma plain_make {s : State T} (hs : PlainState s) (sym lin : Text) (real : Bool)
    (h : (∃ q, lin = .num q ∧ sym = symOf q) ∨ (∀ q, lin ≠ .num q) ∧ ∀ q, sym ≠ symOf q) :
    PlainState (make s sym lin real).1 := by
  rcases make_cases s sym lin real with ⟨i, p, e, -⟩ | e | ⟨e, -⟩ <;> rw [e]
  · exact hs
  · exact hs
  · intro p hp hr
    rcases List.mem_append.mp hp with hp | hp
    · exact hs p hp hr
    · obtain rfl := List.mem_singleton.mp hp
      rcases h with ⟨q, rfl, rfl⟩ | ⟨h1, h2⟩
      · exact .inl ⟨q, rfl, rfl⟩
      · exact .inr ⟨lin, sym, rfl, rfl, h1, h2⟩

lemma plain_number {s : State T} (hs : PlainState s) (q : ℚ) : PlainState (number s q).1 :=
  plain_make hs _ _ _ (.inl ⟨q, rfl, rfl⟩)

lemma plain_compound {s : State T} (hs : PlainState s) (lin : List Tok) : PlainState (compound s lin).1 := by
  intro p hp hr
  rcases List.mem_append.mp hp with hp | hp
  · exact hs p hp hr
  · obtain rfl := List.mem_singleton.mp hp
    cases hr

lemma plain_div {s : State T} (hs : PlainState s) (i j : ℕ) : PlainState (div s i j).1 := by
  unfold div
  split
  · split_ifs
    · exact hs
    · exact plain_compound hs _
  · exact hs

lemma plain_addNum {s : State T} (hs : PlainState s) (i : ℕ) (q : ℚ) : PlainState (addNum s i q).1 := by
  unfold addNum
  split
  · exact hs
  · split_ifs
    · split
      · exact plain_number hs _
      · exact hs
    · exact plain_compound hs _

lemma plain_step {s : State T} (hs : PlainState s) (o : UserOp T)
    (ho : ∀ sym lin, o = .named sym lin → (∀ q, lin ≠ .num q) ∧ (∀ q, sym ≠ symOf q)) :
    PlainState (step s o) := by
  cases o with
  | number q => exact plain_number hs q
  | named sym lin => exact plain_make hs _ _ _ (.inr (ho sym lin rfl))
  | set i v =>
    intro p hp hr
    obtain ⟨n, hn⟩ := List.mem_iff_getElem?.mp hp
    change (s.modify i _)[n]? = some p at hn
    rw [List.getElem?_modify] at hn
    cases hb : s[n]? with
    | none => simp [hb] at hn
    | some b =>
      have hb' := hs b (List.mem_of_getElem? hb)
      by_cases h : i = n
      · simp [hb, h] at hn
        subst hn
        exact hb' hr
      · simp [hb, h] at hn
        subst hn
        exact hb' hr
  | addNum i q => exact plain_addNum hs i q
  | raddNum i q =>
    change PlainState (raddNum s i q).1
    unfold raddNum
    split
    · exact hs
    · split_ifs
      · split
        · exact plain_number hs _
        · exact hs
      · exact plain_compound hs _
  | add i j =>
    change PlainState (add s i j).1
    unfold add
    split
    · split_ifs
      · split
        · exact plain_addNum hs _ _
        · exact hs
      · exact plain_compound hs _
    · exact hs
  | divNum i q =>
    change PlainState (divNum s i q).1
    have := plain_number hs q
    unfold divNum
    rcases hn : number s q with ⟨s', o⟩
    rw [hn] at this
    cases o with
    | none => exact this
    | some j => exact plain_div this i j
  | div i j => exact plain_div hs i j

/-- C108.  A number can always be made, if no named scalar looks like a number. -/
theorem number_made (h : List (UserOp T)) (hh : Plain h) (q : ℚ) : ∃ i, (number (session h) q).2 = some i := by
  have hp : ∀ (h : List (UserOp T)), Plain h → ∀ s : State T, PlainState s → PlainState (h.foldl step s) := by
    intro h
    induction h with
    | nil => exact fun _ s hs => hs
    | cons o h ih =>
      intro hh s hs
      exact ih (fun a b hab => hh a b (List.mem_cons_of_mem _ hab)) _
        (plain_step hs o fun a b hab => hh a b (by simp [hab]))
  have hs := hp h hh [] (fun p hp => by simp at hp)
  change PlainState (session h) at hs
  generalize session h = s at hs
  unfold number
  rcases hc : make s (symOf q) (.num q) true with ⟨s', o⟩
  cases o with
  | some i => exact ⟨i, rfl⟩
  | none =>
    exfalso
    unfold make at hc
    rw [if_neg (by simp [okSym_symOf])] at hc
    cases hf : s.findIdx? fun p => p.root && p.lin == [.root (.num q)] && p.sym == [symOf q] with
    | some k => rw [hf] at hc; simp at hc
    | none =>
      rw [hf] at hc
      dsimp only at hc
      have hno := List.findIdx?_eq_none_iff.mp hf
      by_cases ha : (s.any fun p => p.root && (p.lin == [.root (.num q)] || p.sym == [symOf q])) = true
      · obtain ⟨p, hp, hpr⟩ := List.any_eq_true.mp ha
        simp only [Bool.and_eq_true, Bool.or_eq_true, beq_iff_eq] at hpr
        obtain ⟨hr, hpr⟩ := hpr
        have := hno p hp
        rcases hs p hp hr with ⟨x, h1, h2⟩ | ⟨x, y, h1, h2, h3, h4⟩
        · have hx : x = q := by
            rcases hpr with h5 | h5
            · rw [h1] at h5
              simpa using h5
            · rw [h2] at h5
              exact symOf_inj (by simpa using h5)
          subst hx
          simp [hr, h1, h2] at this
        · rcases hpr with h5 | h5
          · rw [h1] at h5
            exact h3 q (by simpa using h5)
          · rw [h2] at h5
            exact h4 q (by simpa using h5)
      · rw [if_neg ha, if_neg (by simp [okLin])] at hc
        simp at hc

/-! ### Values -/

/-- C108 in part.  A number whose value was not changed gives this number. -/
theorem number_value_partial (h : List (UserOp T)) (hn : Named h) (q : ℚ) (i : ℕ)
    (hi : (number (session h) q).2 = some i) (hk : NumbersKept (number (session h) q).1) (t : T) :
    call (number (session h) q).1 i t = some q := by
  have hN : NumOK (session h) := foldl_numOK h [] init_inv (by intro p hp; simp at hp) hn
  obtain ⟨p, h1, -, h3, h4⟩ := number_index hN q i hi
  exact call_number (number_inv (session_inv h) q) hk h1 h3 h4 t

/-- C108.  A scalar that is not a number gives the value that was set last, and raises without one. -/
theorem named_value (s : State T) (i : ℕ) (p : Scalar T) (hp : s[i]? = some p) (hr : p.real = false) (t : T) :
    (∀ n, call (setValue s i (.int n)) i t = some n) ∧ (∀ q, call (setValue s i (.float q)) i t = some q) ∧
    (∀ f, call (setValue s i (.fn f)) i t = f t) ∧ (call (setValue s i .unset) i t = none) ∧
    (∀ j v, j ≠ i → call (setValue s j v) i t = call s i t) := by
  have hset : ∀ v, call (setValue s i v) i t = callOn { p with value := v } t := by
    intro v
    apply call_of
    unfold setValue
    rw [List.getElem?_modify, hp]
    simp
  refine ⟨fun n => ?_, fun n => ?_, fun n => ?_, ?_, fun j v hj => ?_⟩
  · rw [hset]
    simp [callOn, hr]
  · rw [hset]
    simp [callOn, hr]
  · rw [hset]
    simp [callOn, hr]
  · rw [hset]
    simp [callOn, hr]
  · unfold call setValue
    rw [List.getElem?_modify]
    simp [hj]

/-! ### Factors -/

/-- C108 in part.  Whatever expression of root scalars and numbers is used as a factor: if the factor has a
value, it is the value of the expression.  (Sums and nested quotients are refused: `sum_refuted`.) -/
theorem factor_value_partial (h : List (UserOp T)) (hn : Named h) (E : Exp) (hE : E.Roots (session h))
    (s' : State T) (k : ℕ) (hb : E.build (session h) = (s', some k)) (hk : NumbersKept s') (p : Scalar T)
    (hp : s'[k]? = some p) (F : Factor) (hF : factorParser s' p.lin = some F) (t : T) (v : ℚ)
    (hv : evalFactor s' t F = some v) : (E.value fun j => call s' j t) = some v := by
  have hN : NumOK (session h) := foldl_numOK h [] init_inv (by intro p hp; simp at hp) hn
  have hI := session_inv h
  obtain ⟨f1, h1⟩ := build_spec t E (session h) hI hN hE
  rw [hb] at f1 h1
  obtain ⟨p', hp', hS⟩ := h1 k rfl
  obtain rfl : p' = p := Option.some.inj (hp'.symm.trans hp)
  have hI' := f1.inv hI
  obtain ⟨s1, s2⟩ := hS s' (.refl s') hI' (f1.num hN) hk
  unfold factorParser at hF
  cases hf : findRoot s' p'.lin with
  | some i =>
    rw [hf] at hF
    obtain rfl := Option.some.inj hF
    obtain ⟨q, g1, g2, g3⟩ := findRoot_some hf
    obtain ⟨x, -, g4, -⟩ := hI'.root q (List.mem_of_getElem? g1) g2
    have hr := root_of_single hI' (List.mem_of_getElem? hp) (g3.symm.trans g4)
    obtain rfl := hI'.unique i k q p' g1 hp g2 hr (.inl g3)
    rw [← s1 hr]
    exact hv
  | none =>
    rw [hf] at hF
    dsimp only at hF
    split_ifs at hF with hc
    obtain rfl := Option.some.inj hF
    have hsp := split_div hc
    cases ha : findRoot s' (p'.lin.takeWhile (· != .div)) with
    | none => rw [ha] at hv; cases hv
    | some m =>
      cases hb : findRoot s' ((p'.lin.dropWhile (· != .div)).drop 1) with
      | none => rw [ha, hb] at hv; cases hv
      | some n =>
        rw [ha, hb] at hv
        obtain ⟨a, a1, a2, a3⟩ := findRoot_some ha
        obtain ⟨b, b1, b2, b3⟩ := findRoot_some hb
        obtain ⟨x, -, a4, -⟩ := hI'.root a (List.mem_of_getElem? a1) a2
        obtain ⟨y, -, b4, -⟩ := hI'.root b (List.mem_of_getElem? b1) b2
        rw [← a3, ← b3, a4, b4] at hsp
        rw [← s2 x y hsp m n a b a1 b1 a2 b2 a4 b4]
        exact hv

/-- C108.  Root scalars, and quotients of two root scalars, can be factors and have the right value. -/
theorem factor_accepted (h : List (UserOp T)) (i j : ℕ) (p q : Scalar T) (hp : (session h)[i]? = some p)
    (hq : (session h)[j]? = some q) (rp : p.root = true) (rq : q.root = true) (t : T) :
    (∃ F, factorParser (session h) p.lin = some F ∧ evalFactor (session h) t F = call (session h) i t) ∧
    ∃ F, factorParser (session h) (p.lin ++ .div :: q.lin) = some F ∧
      evalFactor (session h) t F = (call (session h) i t).bind fun a => (call (session h) j t).bind fun b =>
        if b = 0 then none else some (a / b) := by
  have hI := session_inv h
  refine ⟨⟨.root i, ?_, rfl⟩, ⟨.quot (some i) (some j), ?_, rfl⟩⟩
  · unfold factorParser
    rw [findRoot_root hI hp rp]
  · obtain ⟨x, -, hx, -⟩ := hI.root p (List.mem_of_getElem? hp) rp
    obtain ⟨y, -, hy, -⟩ := hI.root q (List.mem_of_getElem? hq) rq
    have h1 : findRoot (session h) (p.lin ++ .div :: q.lin) = none := by
      cases hf : findRoot (session h) (p.lin ++ .div :: q.lin) with
      | none => rfl
      | some k =>
        obtain ⟨a, g1, g2, g3⟩ := findRoot_some hf
        obtain ⟨z, -, g4, -⟩ := hI.root a (List.mem_of_getElem? g1) g2
        rw [g4, hx] at g3
        simp at g3
    have hp' := findRoot_root hI hp rp
    have hq' := findRoot_root hI hq rq
    unfold factorParser
    rw [h1]
    rw [hx] at hp' ⊢
    rw [hy] at hq' ⊢
    have hc : ([Tok.root x] ++ .div :: [Tok.root y]).count Tok.div = 1 := by simp [List.count_cons]
    dsimp only
    rw [if_pos hc]
    have e1 : ([Tok.root x] ++ .div :: [Tok.root y]).takeWhile (· != .div) = [.root x] := by
      simp [List.takeWhile]
    have e2 : (([Tok.root x] ++ .div :: [Tok.root y]).dropWhile (· != .div)).drop 1 = [.root y] := by
      simp [List.dropWhile]
    rw [e1, e2, hp', hq']

/-! ### A concrete case -/

namespace Ex

/-- `1`, `2`, `Re` with the value 4 and `c` with a value that depends on time. -/
def hist : List (UserOp ℚ) :=
  [.number 1, .number 2, .named (.other "R_e") (.other "Re"), .named (.other "c") (.other "c"),
    .set 2 (.int 4), .set 3 (.fn fun t => some (t + 1))]

example : (number (session hist) 2).2 = some 1 ∧ (number (session hist) (1/2)).2 = some 4 := by decide +kernel

lemma plain : Plain hist := by
  intro sym lin h
  simp only [hist, List.mem_cons, List.not_mem_nil, or_false, UserOp.named.injEq, reduceCtorEq, false_or] at h
  have hs : ∀ s q, Text.other s ≠ symOf q := by
    intro s q
    unfold symOf
    split_ifs <;> simp
  rcases h with ⟨rfl, rfl⟩ | ⟨rfl, rfl⟩ <;> exact ⟨by simp, hs _⟩

lemma named : Named hist := fun sym q h => (plain sym (.num q) h).1 q rfl

/-- `c / Re` and `(1 + 1) / Re`. -/
def quot : Exp := .div (.scalar 3) (.scalar 2)
def quot' : Exp := .div (.addNum (.scalar 0) 1) (.scalar 2)

lemma root_at (i : ℕ) (h : ((session hist)[i]?.map fun p => p.root) = some true) :
    (Exp.scalar i).Roots (session hist) := by
  obtain ⟨p, h1, h2⟩ := Option.map_eq_some_iff.mp h
  exact ⟨p, h1, h2⟩

example : quot.Roots (session hist) ∧ quot'.Roots (session hist) :=
  ⟨⟨root_at 3 (by decide +kernel), root_at 2 (by decide +kernel)⟩,
    ⟨root_at 0 (by decide +kernel), root_at 2 (by decide +kernel)⟩⟩

/-- The value of an expression as a factor at a time. -/
def factor (h : List (UserOp ℚ)) (E : Exp) (t : ℚ) : Option ℚ :=
  match E.build (session h) with
  | (s, some k) => (s[k]?).bind fun p => (factorParser s p.lin).bind fun F => evalFactor s t F
  | _ => none

example : factor hist quot 6 = some (7 / 4) ∧ factor hist quot' 0 = some (1 / 2) := by decide +kernel

/-- `NumbersKept` as a check. -/
def kept (s : State ℚ) : Bool :=
  s.all fun p => !p.real || match p.lin, p.value with
    | [.root (.num q)], .float x => q == x
    | _, _ => false

lemma kept_sound {s : State ℚ} (h : kept s = true) : NumbersKept s := by
  intro p hp q hr hl
  have h1 := List.all_eq_true.mp h p hp
  rw [hl, hr] at h1
  cases hv : p.value with
  | float x =>
    rw [hv] at h1
    obtain rfl : q = x := by simpa using h1
    rfl
  | unset => rw [hv] at h1; simp at h1
  | int n => rw [hv] at h1; simp at h1
  | fn f => rw [hv] at h1; simp at h1

example : NumbersKept (quot.build (session hist)).1 := kept_sound (by decide +kernel)

/-! ### Where the code disagrees -/

/-- A sum of scalars that have values cannot be a factor, nor can a quotient of quotients: they raise. -/
theorem sum_refuted :
    Exp.value (fun j => call (session hist) j 6) (.add (.scalar 2) (.scalar 3)) = some 11 ∧
    factor hist (.add (.scalar 2) (.scalar 3)) 6 = none ∧
    factor hist (.div (.add (.scalar 2) (.scalar 3)) (.scalar 2)) 6 = none ∧
    factor hist (.div quot (.scalar 2)) 6 = none := by
  decide +kernel

/-- `constant_scalar(0.5) + 1` raises. -/
theorem half_plus_one_refuted :
    (addNum (session [.number (1/2)] : State ℚ) 0 1).2 = none ∧
    call (session [.number (1/2)] : State ℚ) 0 0 = some (1/2) := by
  decide +kernel

/-- Setting the value of the number 1 changes every use of this number; setting it to the `int` 1 makes every
use raise. -/
theorem number_changed_refuted :
    (number (session [.number 1, .set 0 (.float 5)] : State ℚ) 1).2 = some 0 ∧
    call (session [.number 1, .set 0 (.float 5)] : State ℚ) 0 0 = some 5 ∧
    call (session [.number 1, .set 0 (.int 1)] : State ℚ) 0 0 = none := by
  decide +kernel

end Ex

end Phyem.Params
