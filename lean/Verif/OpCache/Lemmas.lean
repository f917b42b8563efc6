import Verif.OpCache.Spec

namespace Phyem.OpCache

open Phyem

variable {α : Type}

/-- Operands come before the objects using them, and have the right number. -/
def WF (p : List (Op α)) : Prop :=
  ∀ (i : ℕ) (kind : Kind) (args : List ℕ) (f : List α → Option α), p[i]? = some (.derived kind args f) →
    (∀ j ∈ args, j < i) ∧ (kind = .un → args.length = 1) ∧ (kind = .add → args.length = 2) ∧
      (kind = .mul → args.length = 2)

theorem WF.prefix {p q : List (Op α)} (h : WF q) (hp : p <+: q) : WF p := by
  intro i kind args f hi
  apply h i kind args f
  obtain ⟨t, rfl⟩ := hp
  have := (List.getElem?_eq_some_iff.mp hi).1
  rw [List.getElem?_append_left this]; exact hi

theorem raw_fuel (p : List (Op α)) (hw : WF p) : ∀ n m i e, i < n → i < m →
    raw p n i e = raw p m i e := by
  intro n
  induction n with
  | zero => intro m i e h; omega
  | succ n ih =>
    intro m i e hn hm
    cases m with
    | zero => omega
    | succ m =>
      simp only [raw]
      cases hi : p[i]? with
      | none => rfl
      | some op =>
        cases op with
        | leaf d key => rfl
        | derived kind args f =>
          have := (hw i kind args f hi).1
          simp only
          congr 2
          apply List.map_congr_left
          intro j hj
          have := this j hj
          exact ih m j e (by omega) (by omega)

theorem rawKey_fuel (impl : Impl) (p : List (Op α)) (hw : WF p) : ∀ n m i e, i < n → i < m →
    rawKey impl p n i e = rawKey impl p m i e := by
  intro n
  induction n with
  | zero => intro m i e h; omega
  | succ n ih =>
    intro m i e hn hm
    cases m with
    | zero => omega
    | succ m =>
      simp only [rawKey]
      cases hi : p[i]? with
      | none => rfl
      | some op =>
        cases op with
        | leaf d key => rfl
        | derived kind args f =>
          have := (hw i kind args f hi).1
          simp only
          congr 1
          apply List.map_congr_left
          intro j hj
          have := this j hj
          exact ih m j e (by omega) (by omega)

theorem getElem?_ops (s : Heap α) (i : ℕ) : (ops s)[i]? = (s[i]?).map fun o => o.op := by
  simp [ops]

theorem getElem?_stat (s : Heap α) (i : ℕ) :
    (stat s)[i]? = (s[i]?).map fun o => (o.op, o.cust) := by
  simp [stat]

theorem length_ops (s : Heap α) : (ops s).length = s.length := by simp [ops]

theorem ops_of_stat {s t : Heap α} (h : stat s = stat t) : ops s = ops t := by
  have : (stat s).map Prod.fst = (stat t).map Prod.fst := by rw [h]
  simpa [stat, ops, List.map_map, Function.comp_def] using this

theorem isUnique_of_infix {a b : Key} (h : a <:+: b) (ha : isUnique a = true) : isUnique b = true := by
  unfold isUnique at *
  simp only [decide_eq_true_eq] at *
  exact ha.trans h

theorem isUnique_unique : isUnique unique = true := by decide

theorem infix_joinDot : ∀ (l : List Key) (k : Key), k ∈ l → k <:+: joinDot l
  | [], _, h => by cases h
  | [a], k, h => by
    simp only [List.mem_singleton] at h
    subst h; exact List.infix_refl _
  | a :: b :: l, k, h => by
    have ih := infix_joinDot (b :: l) k
    simp only [joinDot]
    rcases List.mem_cons.mp h with rfl | h
    · exact (List.prefix_append _ _).isInfix
    · exact ((ih h).trans (List.suffix_cons '.' _).isInfix).trans
        (List.suffix_append a _).isInfix

theorem any_unique {keys : List Key} {k : Key} (hk : k ∈ keys) (h : keys.any (· == unique) = false) :
    k ≠ unique := by
  intro h'
  rw [List.any_eq_false] at h
  exact h k hk (by simp [h'])

/-- If the key of an operand contains `unique` then so does the key of the derived matrix. -/
theorem combine_unique (impl : Impl) (kind : Kind) (keys : List Key) (cu : Bool)
    (h1 : kind = .un → keys.length = 1) (h2 : kind = .add → keys.length = 2)
    (h3 : kind = .mul → keys.length = 2) (k : Key) (hk : k ∈ keys) (hu : isUnique k = true) :
    isUnique (combine impl kind keys cu) = true := by
  have hc : isUnique constant = false := by decide
  have hall : keys.all (· == constant) = false := by
    rw [List.all_eq_false]
    refine ⟨k, hk, ?_⟩
    intro h'
    have : k = constant := by simpa using h'
    rw [this, hc] at hu; cases hu
  have two : ∀ (mid : Key), keys.length = 2 → k <:+: keys.headD [] ++ (mid ++ keys.tail.headD []) := by
    intro mid hl
    match keys, hl with
    | [a, b], _ =>
      simp only [List.headD_cons, List.tail_cons]
      simp only [List.mem_cons, List.not_mem_nil, or_false] at hk
      rcases hk with rfl | rfl
      · exact (List.prefix_append _ _).isInfix
      · exact ((List.suffix_append mid k).trans (List.suffix_append a _)).isInfix
  cases kind with
  | un =>
    have hl := h1 rfl
    match keys, hl with
    | [a], _ =>
      simp only [List.mem_singleton] at hk
      subst hk
      cases impl <;> simpa [combine] using hu
  | add =>
    have hl := h2 rfl
    cases impl with
    | msepy =>
      simp only [combine, hall, Bool.false_eq_true, if_false]
      exact isUnique_of_infix (two ['@'] hl) hu
    | msehtt =>
      simp only [combine]
      split
      · exact isUnique_unique
      · exact isUnique_of_infix (two ['.'] hl) hu
  | mul =>
    have hl := h3 rfl
    cases impl with
    | msepy =>
      simp only [combine, hall, Bool.false_eq_true, if_false]
      split
      · exact isUnique_unique
      · exact isUnique_of_infix (two ['@'] hl) hu
    | msehtt =>
      simp only [combine]
      split
      · exact isUnique_unique
      · exact isUnique_of_infix (two [] hl) hu
  | blk =>
    cases impl with
    | msepy =>
      simp only [combine, hall, Bool.false_eq_true, if_false]
      split
      · exact isUnique_unique
      · exact isUnique_of_infix (List.infix_of_mem_flatten hk) hu
    | msehtt =>
      simp only [combine]
      split
      · exact isUnique_unique
      · exact isUnique_of_infix (infix_joinDot keys k hk) hu

theorem combine_cu (impl : Impl) (keys : List Key) : isUnique (combine impl .blk keys true) = true := by
  cases impl <;> simp [combine, isUnique_unique]

theorem combine_irrel (impl : Impl) (kind : Kind) (keys : List Key) (cu : Bool) (h : kind ≠ .blk) :
    combine impl kind keys cu = combine impl kind keys false := by
  cases kind <;> cases impl <;> first | rfl | exact absurd rfl h

/-- The customisation of an object only matters in customised elements. -/
theorem valueM_own (s : Heap α) (n i e : ℕ) (h : customised s i e = false) :
    valueM (stat s) n true i e = valueM (stat s) n false i e := by
  cases n with
  | zero => rfl
  | succ n =>
    simp only [valueM]
    unfold customised at h
    rw [getElem?_stat]
    cases hi : s[i]? with
    | none => rfl
    | some o =>
      rw [hi] at h
      simp only [Option.isSome_eq_false_iff, Option.isNone_iff_eq_none] at h
      simp [h]

theorem map_getElem?_some {s : Heap α} {p : List (Op α)} (hp : ops s <+: p) {i : ℕ} {o : Obj α}
    (hi : s[i]? = some o) : p[i]? = some o.op := by
  obtain ⟨t, rfl⟩ := hp
  have hl := (List.getElem?_eq_some_iff.mp hi).1
  rw [List.getElem?_append_left (by rw [length_ops]; exact hl), getElem?_ops, hi]; rfl

/-- An object whose key does not contain `unique` has its uncustomised key and data. -/
theorem key_raw (impl : Impl) (s : Heap α) (p : List (Op α)) (hw : WF p) (hp : ops s <+: p) :
    ∀ n i e, i < n → i < s.length → isUnique (keyOf impl s n i e) = false →
      keyOf impl s n i e = rawKey impl p n i e ∧ valueM (stat s) n false i e = raw p n i e := by
  intro n
  induction n with
  | zero => intro i e h; omega
  | succ n ih =>
    intro i e hn hl hu
    obtain ⟨o, hi⟩ : ∃ o, s[i]? = some o := ⟨s[i], List.getElem?_eq_getElem hl⟩
    have hpi := map_getElem?_some hp hi
    simp only [keyOf, hi] at hu ⊢
    simp only [rawKey, valueM, raw, getElem?_stat, hi, hpi, Option.map_some]
    cases hop : o.op with
    | leaf d key => exact ⟨by simp, by simp⟩
    | derived kind args f =>
      rw [hop] at hpi hu
      obtain ⟨hlt, h1, h2, h3⟩ := hw i kind args f hpi
      simp only at hu ⊢
      have hnu : ∀ j ∈ args, isUnique (keyOf impl s n j e) = false := by
        intro j hj
        by_contra hcon
        rw [Bool.not_eq_false] at hcon
        rw [combine_unique impl kind _ _ (by simpa using h1) (by simpa using h2) (by simpa using h3)
          (keyOf impl s n j e) (List.mem_map.mpr ⟨j, hj, rfl⟩) hcon] at hu
        cases hu
      have hargs : ∀ j ∈ args, keyOf impl s n j e = rawKey impl p n j e ∧
          valueM (stat s) n false j e = raw p n j e := by
        intro j hj
        have := hlt j hj
        exact ih j e (by omega) (by omega) (hnu j hj)
      have hk : (args.map fun j => keyOf impl s n j e) = args.map fun j => rawKey impl p n j e :=
        List.map_congr_left fun j hj => (hargs j hj).1
      by_cases hb : kind = .blk
      · subst hb
        have hcu : (args.any fun j => customised s j e) = false := by
          by_contra hcon
          rw [Bool.not_eq_false] at hcon
          rw [hcon, combine_cu] at hu
          cases hu
        refine ⟨by rw [hcu, hk], ?_⟩
        have : (args.map fun j => valueM (stat s) n (decide (Kind.blk = .blk)) j e) =
            args.map fun j => raw p n j e := by
          apply List.map_congr_left
          intro j hj
          rw [List.any_eq_false] at hcu
          have := hcu j hj
          rw [Bool.not_eq_true] at this
          rw [decide_eq_true rfl, valueM_own s n j e this]
          exact (hargs j hj).2
        rw [this]; rfl
      · refine ⟨by rw [combine_irrel _ _ _ _ hb, hk], ?_⟩
        have : (args.map fun j => valueM (stat s) n (decide (kind = .blk)) j e) =
            args.map fun j => raw p n j e := by
          apply List.map_congr_left
          intro j hj
          rw [decide_eq_false hb]
          exact (hargs j hj).2
        rw [this]; rfl

/-- The state invariant: objects are those of `p`, and cached data are the uncustomised data of every
element with that key. -/
structure Good (impl : Impl) (elems : List ℕ) (p : List (Op α)) (s : Heap α) : Prop where
  pre : ops s <+: p
  cache : ∀ (i : ℕ) (o : Obj α), s[i]? = some o → ∀ (ck : Key) (v : α), o.cache.get ck = some v → ∀ e ∈ elems,
    isUnique ck = false → rawKey impl p (i + 1) i e = ck → raw p (i + 1) i e = some v

/-- No operand of a unary operation, sum or product is customised. -/
def Free (s : Heap α) : Prop :=
  ∀ (i : ℕ) (kind : Kind) (args : List ℕ) (f : List α → Option α), (ops s)[i]? = some (.derived kind args f) → kind ≠ .blk →
    ∀ j ∈ args, untouched s j = true

theorem untouched_stat {s t : Heap α} (h : stat s = stat t) (j : ℕ) :
    untouched s j = untouched t j := by
  have h1 := getElem?_stat s j
  rw [h, getElem?_stat] at h1
  unfold untouched
  cases hs : s[j]? <;> cases ht : t[j]? <;> simp [hs, ht] at h1 ⊢
  rw [h1.2]

theorem customised_stat {s t : Heap α} (h : stat s = stat t) (j e : ℕ) :
    customised s j e = customised t j e := by
  have h1 := getElem?_stat s j
  rw [h, getElem?_stat] at h1
  unfold customised
  cases hs : s[j]? <;> cases ht : t[j]? <;> simp [hs, ht] at h1 ⊢
  rw [h1.2]

theorem Free.stat {s t : Heap α} (h : stat s = stat t) (hf : Free s) : Free t := by
  intro i kind args f hi hk j hj
  rw [← ops_of_stat h] at hi
  rw [← untouched_stat h]
  exact hf i kind args f hi hk j hj

theorem stat_store (s : Heap α) (i : ℕ) (ck : Key) (v : α) : stat (store s i ck v) = stat s := by
  apply List.ext_getElem?
  intro j
  rw [getElem?_stat, getElem?_stat]
  unfold store
  rw [List.getElem?_modify]
  cases s[j]? with
  | none => simp
  | some o => by_cases h : i = j <;> simp [h]

theorem not_customised_of_untouched {s : Heap α} {j : ℕ} (h : untouched s j = true) (e : ℕ) :
    customised s j e = false := by
  unfold untouched at h
  unfold customised
  cases hj : s[j]? with
  | none => rfl
  | some o =>
    rw [hj] at h
    simp only [List.isEmpty_iff] at h
    simp [h, Dict.get]

theorem allSome_cons (a : Option α) (l : List (Option α)) :
    allSome (a :: l) = a.bind fun x => (allSome l).map (x :: ·) := by
  cases a <;> rfl

/-- What evaluating a list of operands does, given what evaluating each one does. -/
theorem getArgs_spec (g : Heap α → ℕ → Heap α × Option α) (P : Heap α → Prop)
    (val : Heap α → ℕ → Option α) (F : Heap α → Prop)
    (hval : ∀ s t j, stat s = stat t → val s j = val t j)
    (hF : ∀ s t, stat s = stat t → F s → F t)
    (args : List ℕ) (s : Heap α)
    (hg : ∀ j ∈ args, ∀ t, stat t = stat s → P t → stat (g t j).1 = stat t ∧ P (g t j).1 ∧
      (∀ v, (g t j).2 = some v → val t j = some v) ∧ (F t → (g t j).2 = val t j))
    (hs : P s) :
    stat (getArgs g s args).1 = stat s ∧ P (getArgs g s args).1 ∧
      (∀ l, (getArgs g s args).2 = some l → allSome (args.map (val s)) = some l) ∧
      (F s → (getArgs g s args).2 = allSome (args.map (val s))) := by
  induction args generalizing s with
  | nil =>
    refine ⟨rfl, hs, ?_, fun _ => rfl⟩
    intro l hl
    simpa [getArgs, allSome] using hl
  | cons i is ih =>
    obtain ⟨h1, h2, h3, h4⟩ := hg i List.mem_cons_self s rfl hs
    simp only [getArgs]
    cases hgi : (g s i).2 with
    | none =>
      refine ⟨h1, h2, by simp, ?_⟩
      intro hf
      have := h4 hf
      rw [hgi] at this
      simp [allSome_cons, ← this]
    | some a =>
      obtain ⟨k1, k2, k3, k4⟩ := ih (g s i).1
        (fun j hj t ht => hg j (List.mem_cons_of_mem _ hj) t (ht.trans h1)) h2
      have hm : is.map (val (g s i).1) = is.map (val s) :=
        List.map_congr_left fun j _ => hval _ _ j h1
      have hv : val s i = some a := h3 a hgi
      refine ⟨k1.trans h1, k2, ?_, ?_⟩
      · intro l hl
        simp only [Option.map_eq_some_iff] at hl
        obtain ⟨l', hl', rfl⟩ := hl
        have := k3 l' hl'
        rw [hm] at this
        simp [allSome_cons, hv, this]
      · intro hf
        have := k4 (hF _ _ h1.symm hf)
        rw [hm] at this
        simp [allSome_cons, hv, this]

theorem good_store (impl : Impl) (elems : List ℕ) (p : List (Op α)) (hk : KeysOK impl elems p)
    (s : Heap α) (hs : Good impl elems p s) (i : ℕ) (hi : i < s.length) (e : ℕ) (he : e ∈ elems)
    (v : α) (hv : raw p (i + 1) i e = some v) :
    Good impl elems p (store s i (rawKey impl p (i + 1) i e) v) := by
  refine ⟨?_, ?_⟩
  · rw [ops_of_stat (stat_store s i _ v)]; exact hs.pre
  · intro j o hj ck w hw e' he' hu hr
    unfold store at hj
    rw [List.getElem?_modify] at hj
    by_cases hij : i = j
    · subst hij
      obtain ⟨o', ho', hoo⟩ := Option.map_eq_some_iff.mp hj
      simp only [if_true] at hoo
      subst hoo
      simp only [Dict.get_put] at hw
      by_cases hc : ck = rawKey impl p (i + 1) i e
      · rw [if_pos hc] at hw
        cases hw
        have hlen : i < p.length := by
          have := hs.pre.length_le
          rw [length_ops] at this
          omega
        rw [← hv]
        exact hk i hlen e' he' e he ⟨by rw [hr]; exact hu, by rw [hr, hc]⟩
      · rw [if_neg hc] at hw
        exact hs.cache i o' ho' ck w hw e' he' hu hr
    · have : s[j]? = some o := by
        cases h : s[j]? with
        | none => simp [h] at hj
        | some o' => simp [h, hij] at hj; rw [hj]
      exact hs.cache j o this ck w hw e' he' hu hr

theorem valueM_congr_arg {s : Heap α} {n : ℕ} {i e : ℕ} {o : Obj α} {own : Bool} (hi : s[i]? = some o)
    {kind : Kind} {args : List ℕ} {f : List α → Option α} (hop : o.op = .derived kind args f)
    (hc : own = true → o.cust.get e = none) :
    valueM (stat s) (n + 1) own i e =
      (allSome (args.map fun j => valueM (stat s) n (decide (kind = .blk)) j e)).bind f := by
  simp only [valueM, getElem?_stat, hi, Option.map_some, hop]
  cases own with
  | false => rfl
  | true => rw [if_pos rfl, hc rfl]

/-- Reading an object. -/
theorem get_spec (impl : Impl) (elems : List ℕ) (p : List (Op α)) (hw : WF p)
    (hk : KeysOK impl elems p) (e : ℕ) (he : e ∈ elems) :
    ∀ n i (s : Heap α), i < n → i < s.length → Good impl elems p s → (impl = .msepy ∨ Free s) →
      stat (get impl elems n s i e).1 = stat s ∧ Good impl elems p (get impl elems n s i e).1 ∧
      (∀ v, (get impl elems n s i e).2 = some v → valueM (stat s) n true i e = some v) ∧
      (Free s → (get impl elems n s i e).2 = valueM (stat s) n true i e) := by
  intro n
  induction n with
  | zero => intro i s h; omega
  | succ n ih =>
    intro i s hn hl hgood hmode
    obtain ⟨o, hi⟩ : ∃ o, s[i]? = some o := ⟨s[i], List.getElem?_eq_getElem hl⟩
    have hpi := map_getElem?_some hgood.pre hi
    simp only [get, hi, he, if_true]
    cases hcust : o.cust.get e with
    | some v =>
      have hval : valueM (stat s) (n + 1) true i e = some v := by
        simp [valueM, getElem?_stat, hi, hcust]
      refine ⟨rfl, hgood, ?_, ?_⟩
      · intro w hw'
        simp only [Option.some.injEq] at hw'
        rw [hval, hw']
      · intro _; rw [hval]
    | none =>
      simp only
      -- the data computed anew
      have hmeta : stat (metaData impl (fun t j => get impl elems n t j e) s o.op e).1 = stat s ∧
          Good impl elems p (metaData impl (fun t j => get impl elems n t j e) s o.op e).1 ∧
          (∀ v, (metaData impl (fun t j => get impl elems n t j e) s o.op e).2 = some v →
            valueM (stat s) (n + 1) true i e = some v) ∧
          (Free s → (metaData impl (fun t j => get impl elems n t j e) s o.op e).2 =
            valueM (stat s) (n + 1) true i e) := by
        cases hop : o.op with
        | leaf d key =>
          have hval : valueM (stat s) (n + 1) true i e = d e := by
            simp [valueM, getElem?_stat, hi, hcust, hop]
          refine ⟨rfl, hgood, ?_, ?_⟩
          · intro v hv; rw [hval]; exact hv
          · intro _; rw [hval]; rfl
        | derived kind args f =>
          rw [hop] at hpi
          obtain ⟨hlt, -⟩ := hw i kind args f hpi
          rw [valueM_congr_arg (n := n) hi hop (fun _ => hcust)]
          simp only [metaData]
          by_cases hal : allowed impl kind s args = true
          · rw [if_pos hal]
            have hsound : ∀ j ∈ args, ∀ t : Heap α, stat t = stat s →
                (kind ≠ .blk → untouched t j = true) →
                valueM (stat t) n (decide (kind = .blk)) j e = valueM (stat t) n true j e := by
              intro j hj t ht hun
              by_cases hb : kind = .blk
              · rw [decide_eq_true hb]
              · rw [decide_eq_false hb]
                exact (valueM_own t n j e (not_customised_of_untouched (hun hb) e)).symm
            have hunt : kind ≠ .blk → ∀ j ∈ args, untouched s j = true := by
              intro hb j hj
              rcases hmode with hm | hf
              · subst hm
                have : args.all (fun j => untouched s j) = true := by
                  cases kind <;> first | exact hal | exact absurd rfl hb
                exact List.all_eq_true.mp this j hj
              · exact hf i kind args f (by rw [getElem?_ops, hi]; simp [hop]) hb j hj
            obtain ⟨k1, k2, k3, k4⟩ := getArgs_spec (fun t j => get impl elems n t j e)
              (Good impl elems p)
              (fun t j => valueM (stat t) n (decide (kind = .blk)) j e) Free
              (fun t u j htu => by simp only [htu])
              (fun t u htu hf => hf.stat htu) args s
              (by
                intro j hj t ht hgt
                have hj' := hlt j hj
                have hlen : t.length = s.length := by
                  have := congrArg List.length ht
                  simpa [stat] using this
                obtain ⟨r1, r2, r3, r4⟩ := ih j t (by omega) (by omega) hgt
                  (by
                    rcases hmode with hm | hf
                    · exact Or.inl hm
                    · exact Or.inr (hf.stat ht.symm))
                have heq := hsound j hj t ht (fun hb => by
                  rw [untouched_stat ht]; exact hunt hb j hj)
                refine ⟨r1, r2, ?_, ?_⟩
                · intro v hv; rw [heq]; exact r3 v hv
                · intro hf; rw [heq]; exact r4 hf)
              hgood
            refine ⟨k1, k2, ?_, ?_⟩
            · intro v hv
              simp only at hv
              cases hga : (getArgs (fun t j => get impl elems n t j e) s args).2 with
              | none => rw [hga] at hv; cases hv
              | some l =>
                rw [hga] at hv
                rw [k3 l hga]; exact hv
            · intro hf
              simp only
              rw [k4 hf]
          · rw [if_neg hal]
            refine ⟨rfl, hgood, by simp, ?_⟩
            intro hf
            exfalso
            apply hal
            unfold allowed
            cases impl with
            | msehtt => rfl
            | msepy =>
              by_cases hb : kind = .blk
              · subst hb; rfl
              · have : args.all (fun j => untouched s j) = true :=
                  List.all_eq_true.mpr fun j hj => hf i kind args f
                    (by rw [getElem?_ops, hi]; simp [hop]) hb j hj
                cases kind <;> first | exact this | exact absurd rfl hb
      obtain ⟨m1, m2, m3, m4⟩ := hmeta
      unfold readCached
      by_cases hu : isUnique (keyOf impl s (n + 1) i e) = true
      · rw [if_pos hu]; exact ⟨m1, m2, m3, m4⟩
      · rw [if_neg hu]
        rw [Bool.not_eq_true] at hu
        obtain ⟨q1, q2⟩ := key_raw impl s p hw hgood.pre (n + 1) i e hn hl hu
        have hplain : valueM (stat s) (n + 1) true i e = raw p (i + 1) i e := by
          rw [valueM_own s (n + 1) i e (by unfold customised; simp [hi, hcust]), q2]
          exact raw_fuel p hw _ _ i e hn (by omega)
        have hkey : keyOf impl s (n + 1) i e = rawKey impl p (i + 1) i e := by
          rw [q1]; exact rawKey_fuel impl p hw _ _ i e hn (by omega)
        cases hc : o.cache.get (keyOf impl s (n + 1) i e) with
        | some v =>
          have hraw := hgood.cache i o hi _ v hc e he hu hkey.symm
          refine ⟨rfl, hgood, ?_, ?_⟩
          · intro w hw'
            simp only [Option.some.injEq] at hw'
            rw [hplain, hraw, hw']
          · intro _; simp only; rw [hplain, hraw]
        | none =>
          simp only
          cases hmd : (metaData impl (fun t j => get impl elems n t j e) s o.op e).2 with
          | none =>
            simp only
            refine ⟨m1, m2, ?_, ?_⟩
            · intro v hv; exact m3 v hv
            · intro hf; exact m4 hf
          | some v =>
            have hval := m3 v hmd
            have hlen : i < (metaData impl (fun t j => get impl elems n t j e) s o.op e).1.length := by
              have := congrArg List.length m1
              simp only [stat, List.length_map] at this
              omega
            refine ⟨(stat_store _ _ _ _).trans m1, ?_, ?_, ?_⟩
            · rw [hkey]
              exact good_store impl elems p hk _ m2 i hlen e he v (by rw [← hplain]; exact hval)
            · intro w hw'
              simp only [Option.some.injEq] at hw'
              rw [← hw']; exact hval
            · intro _; simp only; rw [hval]

end Phyem.OpCache
