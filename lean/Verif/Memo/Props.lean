import Verif.Memo.Model
import Mathlib.Data.List.Basic

/-! What calls of decorated functions and methods give. -/

namespace Phyem.Memo

open Phyem.Dict

variable {K O M V : Type} [DecidableEq K] [DecidableEq O] [DecidableEq M]

/-- The first value of a history under a key. -/
def first (p : List (K × Option V)) (k : K) : Option V := p.findSome? fun e => if e.1 = k then e.2 else none

/-- What a call gives after a history with the first value `f`. -/
def after (f now : Option V) : Res V := match f with
  | some v => ⟨some v, false⟩
  | none => ⟨now, true⟩

lemma call_fst (cache : Dict K V) (k : K) (now : Option V) : (call cache k now).1 = after (get cache k) now := by
  unfold call after
  cases get cache k with
  | some v => rfl
  | none => cases now <;> rfl

lemma call_snd (cache : Dict K V) (k : K) (now : Option V) (k' : K) :
    get (call cache k now).2 k' = (get cache k').or (if k = k' then now else none) := by
  unfold call
  cases hk : get cache k with
  | some v =>
    by_cases e : k = k'
    · subst e; simp [hk]
    · simp [e]
  | none =>
    cases now with
    | none => simp
    | some v =>
      simp only [get_put]
      by_cases e : k = k'
      · subst e; simp [hk]
      · simp [e, Ne.symm e]

lemma calls_get : ∀ (h : List (K × Option V)) (cache : Dict K V) (i : ℕ) (e : K × Option V), h[i]? = some e →
    (calls cache h)[i]? = some (after ((get cache e.1).or (first (h.take i) e.1)) e.2) := by
  intro h
  induction h with
  | nil => intro _ _ _ hi; simp at hi
  | cons d h ih =>
    intro cache i e hi
    cases i with
    | zero =>
      simp only [List.getElem?_cons_zero, Option.some.injEq] at hi
      subst hi
      simp [calls, call_fst, first]
    | succ i =>
      simp only [List.getElem?_cons_succ] at hi
      simp only [calls, List.getElem?_cons_succ, ih _ i e hi, call_snd, Option.or_assoc, List.take_succ_cons, first, List.findSome?_cons]
      by_cases hk : d.1 = e.1
      · simp only [hk, if_true]; cases d.2 <;> rfl
      · simp [hk]

lemma first_none {p : List (K × Option V)} {k : K} (h : ∀ e ∈ p, e.1 = k → e.2 = none) : first p k = none := by
  unfold first
  rw [List.findSome?_eq_none_iff]
  intro e he
  by_cases hk : e.1 = k
  · simp [hk, h e he hk]
  · simp [hk]

lemma first_some {p : List (K × Option V)} {k : K} {j : ℕ} {v : V} (hj : p[j]? = some (k, some v))
    (h : ∀ i < j, ∀ e, p[i]? = some e → e.1 = k → e.2 = none) : first p k = some v := by
  unfold first
  rw [List.findSome?_eq_some_iff]
  have hl : j < p.length := (List.getElem?_eq_some_iff.1 hj).1
  have hg : p[j] = (k, some v) := (List.getElem?_eq_some_iff.1 hj).2
  refine ⟨p.take j, (k, some v), p.drop (j + 1), ?_, by simp, ?_⟩
  · rw [← hg, ← List.drop_eq_getElem_cons hl, List.take_append_drop]
  · intro e he
    obtain ⟨i, hi⟩ := List.mem_iff_getElem?.1 he
    rw [List.getElem?_take] at hi
    split at hi
    · rename_i hij
      by_cases hk : e.1 = k
      · simp [hk, h i hij e hi hk]
      · simp [hk]
    · simp at hi

/-- C186: a call of a function decorated with `memoize1`, after any history of calls: if no earlier call whose arguments are printed the same has
returned, the function is run and its value given; otherwise it is not run and the first of these values is given. -/
theorem memo1_spec (h : List (Option V × Args)) (i : ℕ) (now : Option V) (a : Args) (hi : h[i]? = some (now, a)) :
    ((∀ j < i, ∀ e, h[j]? = some e → key1 e.2 = key1 a → e.1 = none) → (memo1 h)[i]? = some ⟨now, true⟩) ∧
      ∀ j < i, ∀ v b, h[j]? = some (some v, b) → key1 b = key1 a → (∀ l < j, ∀ e, h[l]? = some e → key1 e.2 = key1 a → e.1 = none) →
        (memo1 h)[i]? = some ⟨some v, false⟩ := by
  have hc := calls_get (h.map fun e => (key1 e.2, e.1)) [] i (key1 a, now) (by simp [hi])
  simp only [Dict.get, Option.none_or] at hc
  constructor
  · intro hn
    unfold memo1
    rw [hc, first_none]
    · rfl
    · intro e he hk
      obtain ⟨j, hj⟩ := List.mem_iff_getElem?.1 he
      rw [List.getElem?_take] at hj
      split at hj
      · rename_i hji
        rw [List.getElem?_map] at hj
        cases hh : h[j]? with
        | none => simp [hh] at hj
        | some d =>
          simp only [hh, Option.map_some, Option.some.injEq] at hj
          subst hj
          exact hn j hji d hh hk
      · simp at hj
  · intro j hji v b hj hk hn
    unfold memo1
    rw [hc, first_some (j := j) (v := v)]
    · rfl
    · rw [List.getElem?_take, if_pos hji, List.getElem?_map, hj, Option.map_some, hk]
    · intro l hl e he hke
      rw [List.getElem?_take, if_pos (by omega), List.getElem?_map] at he
      cases hh : h[l]? with
      | none => simp [hh] at he
      | some d =>
        simp only [hh, Option.map_some, Option.some.injEq] at he
        subst he
        exact hn l hl d hh hke

/-- C186: a function of its arguments, no two of which are printed the same, gives the same when it is decorated with `memoize1`. -/
theorem memo1_faithful (f : Args → V) (h : List Args) (hk : ∀ a ∈ h, ∀ b ∈ h, key1 a = key1 b → a = b) :
    (memo1 (h.map fun a => (some (f a), a))).map Res.val = h.map fun a => some (f a) := by
  apply List.ext_getElem?
  intro i
  rw [List.getElem?_map, List.getElem?_map]
  cases hi : h[i]? with
  | none =>
    have hl : ∀ (cache : Dict Str V) (l : List (Str × Option V)), (calls cache l).length = l.length := by
      intro cache l
      induction l generalizing cache with
      | nil => rfl
      | cons e l ih => simp [calls, ih]
    have : (memo1 (h.map fun a => (some (f a), a)))[i]? = none := by
      rw [List.getElem?_eq_none_iff] at hi ⊢
      simpa [memo1, hl] using hi
    simp [this]
  | some a =>
    have hc := calls_get ((h.map fun a => (some (f a), a)).map fun e => (key1 e.2, e.1)) [] i (key1 a, some (f a)) (by simp [hi])
    simp only [Dict.get, Option.none_or] at hc
    unfold memo1
    rw [hc]
    simp only [Option.map_some, Option.some.injEq]
    cases hf : first (((h.map fun a => (some (f a), a)).map fun e => (key1 e.2, e.1)).take i) (key1 a) with
    | none => rfl
    | some v =>
      simp only [after]
      unfold first at hf
      obtain ⟨e, he, hv⟩ := List.exists_of_findSome?_eq_some hf
      have he := List.mem_of_mem_take he
      simp only [List.map_map, List.mem_map, Function.comp] at he
      obtain ⟨b, hb, rfl⟩ := he
      by_cases hkk : key1 b = key1 a
      · simp only [hkk, if_true] at hv
        rw [← hv, hk b hb a (List.mem_of_getElem? hi) hkk]
      · simp [hkk] at hv

lemma memo4_inv (f : List Py → V) : ∀ (h : List (List Py)) (cache : Dict (List (ℤ ⊕ Str)) V),
    (∀ a b, keyPos a = keyPos b → f a = f b) → (∀ a k v, keyPos a = some k → get cache k = some v → f a = v) →
    (memo4 cache (h.map fun a => (some (f a), a))).map Res.val = h.map fun a => if keyPos a = none then none else some (f a) := by
  intro h
  induction h with
  | nil => intros; rfl
  | cons a h ih =>
    intro cache hf hc
    simp only [List.map_cons, memo4]
    cases hk : keyPos a with
    | none => simpa using ih cache hf hc
    | some k =>
      simp only [List.map_cons, call_fst]
      congr 1
      · cases hg : get cache k with
        | none => simp [after]
        | some v => simp [after, hc a k v hk hg]
      · refine ih _ hf ?_
        intro b k' v hb hv
        rw [call_snd] at hv
        cases hg : get cache k' with
        | some u =>
          rw [hg, Option.some_or, Option.some.injEq] at hv
          exact hv ▸ hc b k' u hb hg
        | none =>
          rw [hg, Option.none_or] at hv
          by_cases e : k = k'
          · subst e
            simp only [if_true, Option.some.injEq] at hv
            rw [← hv]; exact hf b a (hb.trans hk.symm)
          · simp [e] at hv

open Classical in
/-- C186: a function of its arguments that gives the same for arguments that are equal as keys gives the same when it is decorated with `memoize3` or
`memoize4`, in any history of calls; arrays raise an error. -/
theorem memo4_faithful (f : List Py → V) (hf : ∀ a b, keyPos a = keyPos b → f a = f b) (h : List (List Py)) :
    (memo4 [] (h.map fun a => (some (f a), a))).map Res.val = h.map fun a => if ∃ l, Py.arr l ∈ a then none else some (f a) := by
  rw [memo4_inv f h [] hf (by simp [Dict.get])]
  apply List.map_congr_left
  intro a ha
  clear ha
  have : keyPos a = none ↔ ∃ l, Py.arr l ∈ a := by
    unfold keyPos
    induction a with
    | nil => simp
    | cons x a ih =>
      rw [List.mapM_cons]
      cases x with
      | arr l => simp [norm]
      | int n => simp only [norm]; cases hm : a.mapM norm <;> simp_all
      | bool n => simp only [norm]; cases hm : a.mapM norm <;> simp_all
      | text n => simp only [norm]; cases hm : a.mapM norm <;> simp_all
  by_cases hk : keyPos a = none
  · rw [if_pos hk, if_pos (this.1 hk)]
  · rw [if_neg hk, if_neg (fun h => hk (this.2 h))]

/-- The calls of a history that have to do with one object, as calls of one function. -/
def ofObj (o : O) (h : List (Ev O M V)) : List ((M × Key2) × Option V) :=
  h.filterMap fun e => if e.obj = o then (key2 e.args).map fun k => ((e.meth, k), e.now) else none

lemma callM_get (w : Dict O (Dict (M × Key2) V)) (e : Ev O M V) (o : O) (k : M × Key2) :
    get ((get (callM w e).2 o).getD []) k = (get ((get w o).getD []) k).or (first (ofObj o [e]) k) := by
  unfold callM
  cases hk : key2 e.args with
  | none =>
    simp only [get_put]
    by_cases ho : o = e.obj
    · subst ho; simp [ofObj, hk, first]
    · simp [ho, ofObj, Ne.symm ho, first]
  | some k' =>
    simp only [get_put]
    by_cases ho : o = e.obj
    · subst ho
      simp only [if_true, Option.getD_some, call_snd]
      congr 1
      simp only [ofObj, List.filterMap_cons, if_true, hk, Option.map_some, List.filterMap_nil, first, List.findSome?_cons, List.findSome?_nil]
      by_cases e' : (e.meth, k') = k
      · simp only [e', if_true]; cases e.now <;> rfl
      · simp [e']
    · simp [ho, ofObj, Ne.symm ho, first]

lemma memo2_get : ∀ (h : List (Ev O M V)) (w : Dict O (Dict (M × Key2) V)) (i : ℕ) (e : Ev O M V), h[i]? = some e →
    (memo2 w h)[i]? = some (match key2 e.args with
      | none => ⟨none, false⟩
      | some k => after ((get ((get w e.obj).getD []) (e.meth, k)).or (first (ofObj e.obj (h.take i)) (e.meth, k))) e.now) := by
  intro h
  induction h with
  | nil => intro _ _ _ hi; simp at hi
  | cons d h ih =>
    intro w i e hi
    cases i with
    | zero =>
      simp only [List.getElem?_cons_zero, Option.some.injEq] at hi
      subst hi
      simp only [memo2, List.getElem?_cons_zero, callM]
      cases hk : key2 d.args with
      | none => rfl
      | some k => simp [call_fst, ofObj, first]
    | succ i =>
      simp only [List.getElem?_cons_succ] at hi
      simp only [memo2, List.getElem?_cons_succ, ih _ i e hi]
      cases hk : key2 e.args with
      | none => rfl
      | some k =>
        simp only [callM_get, Option.or_assoc, List.take_succ_cons]
        congr 3
        rw [show d :: h.take i = [d] ++ h.take i from rfl]
        unfold ofObj first
        rw [List.filterMap_append, List.findSome?_append]

/-- Two calls are calls of the same method of the same object with arguments that are equal as keys of dicts. -/
def Same (e d : Ev O M V) : Prop := e.obj = d.obj ∧ e.meth = d.meth ∧ key2 e.args = key2 d.args

/-- C186: a call of a method decorated with `memoize2` or `memoize5`, after any history of calls of any methods of any objects. With an array among the
arguments an error is raised. Otherwise, if no earlier call of the same method of the same object with equal arguments has returned, the method is run and
its value given; and if one has, the method is not run and the first of these values is given. -/
theorem memo2_spec (h : List (Ev O M V)) (i : ℕ) (e : Ev O M V) (hi : h[i]? = some e) :
    (key2 e.args = none → (memo2 [] h)[i]? = some ⟨none, false⟩) ∧
      (key2 e.args ≠ none → (∀ j < i, ∀ d, h[j]? = some d → Same d e → d.now = none) → (memo2 [] h)[i]? = some ⟨e.now, true⟩) ∧
      ∀ j < i, ∀ d v, h[j]? = some d → key2 e.args ≠ none → Same d e → d.now = some v →
        (∀ l < j, ∀ c, h[l]? = some c → Same c e → c.now = none) → (memo2 [] h)[i]? = some ⟨some v, false⟩ := by
  have hm := memo2_get h [] i e hi
  simp only [Dict.get, Option.getD_none, Option.none_or] at hm
  refine ⟨fun hk => by rw [hm, hk], ?_, ?_⟩
  · intro hk hn
    obtain ⟨k, hk⟩ := Option.ne_none_iff_exists'.1 hk
    rw [hm, hk]
    simp only
    rw [first_none]
    · rfl
    · intro c hc hck
      unfold ofObj at hc
      rw [List.mem_filterMap] at hc
      obtain ⟨d, hd, hdc⟩ := hc
      by_cases ho : d.obj = e.obj
      · rw [if_pos ho] at hdc
        obtain ⟨k', hk', rfl⟩ := Option.map_eq_some_iff.1 hdc
        simp only [Prod.mk.injEq] at hck
        obtain ⟨j, hj⟩ := List.mem_iff_getElem?.1 hd
        rw [List.getElem?_take] at hj
        split at hj
        · rename_i hji
          exact hn j hji d hj ⟨ho, hck.1, by rw [hk', hk, hck.2]⟩
        · simp at hj
      · simp [ho] at hdc
  · intro j hji d v hj hk hs hv hn
    obtain ⟨k, hk⟩ := Option.ne_none_iff_exists'.1 hk
    rw [hm, hk]
    simp only
    have hl : j < (h.take i).length := by
      have := (List.getElem?_eq_some_iff.1 hj).1
      rw [List.length_take]; omega
    have hg : (h.take i)[j] = d := by
      rw [List.getElem_take]; exact (List.getElem?_eq_some_iff.1 hj).2
    have hsplit : h.take i = (h.take i).take j ++ d :: (h.take i).drop (j + 1) := by
      rw [← hg, ← List.drop_eq_getElem_cons hl, List.take_append_drop]
    have hf : first (ofObj e.obj (h.take i)) (e.meth, k) = some v := by
      rw [hsplit]
      unfold ofObj
      rw [List.filterMap_append, List.filterMap_cons]
      simp only [hs.1, if_true, hs.2.2, hk, Option.map_some, hs.2.1, hv]
      unfold first
      rw [List.findSome?_append]
      have h0 : first (ofObj e.obj ((h.take i).take j)) (e.meth, k) = none := by
        apply first_none
        intro c hc hck
        unfold ofObj at hc
        rw [List.mem_filterMap] at hc
        obtain ⟨c', hc', hdc⟩ := hc
        by_cases ho : c'.obj = e.obj
        · rw [if_pos ho] at hdc
          obtain ⟨k', hk', rfl⟩ := Option.map_eq_some_iff.1 hdc
          simp only [Prod.mk.injEq] at hck
          obtain ⟨l, hl'⟩ := List.mem_iff_getElem?.1 hc'
          rw [List.getElem?_take] at hl'
          split at hl'
          · rename_i hlj
            rw [List.getElem?_take, if_pos (by omega)] at hl'
            exact hn l hlj c' hl' ⟨ho, hck.1, by rw [hk', hk, hck.2]⟩
          · simp at hl'
        · simp [ho] at hdc
      unfold first ofObj at h0
      rw [h0]
      simp
    rw [hf]
    rfl

/-- C186: a method that returns always, and the same for arguments that are equal as keys, gives the same when it is decorated, however calls of methods
and objects follow each other. -/
theorem memo2_faithful (f : O → M → Args → V) (hf : ∀ o m a b, key2 a = key2 b → f o m a = f o m b) (h : List (Ev O M V))
    (hnow : ∀ e ∈ h, e.now = some (f e.obj e.meth e.args)) (i : ℕ) (e : Ev O M V) (hi : h[i]? = some e) (hk : key2 e.args ≠ none) :
    ((memo2 [] h)[i]?).map Res.val = some (some (f e.obj e.meth e.args)) := by
  have hm := memo2_get h [] i e hi
  simp only [Dict.get, Option.getD_none, Option.none_or] at hm
  obtain ⟨k, hk⟩ := Option.ne_none_iff_exists'.1 hk
  rw [hm, hk]
  simp only [Option.map_some]
  cases hfi : first (ofObj e.obj (h.take i)) (e.meth, k) with
  | none => simp [after, hnow e (List.mem_of_getElem? hi)]
  | some v =>
    simp only [after]
    unfold first at hfi
    obtain ⟨c, hc, hv⟩ := List.exists_of_findSome?_eq_some hfi
    unfold ofObj at hc
    rw [List.mem_filterMap] at hc
    obtain ⟨d, hd, hdc⟩ := hc
    by_cases ho : d.obj = e.obj
    · rw [if_pos ho] at hdc
      obtain ⟨k', hk', rfl⟩ := Option.map_eq_some_iff.1 hdc
      by_cases hck : (d.meth, k') = (e.meth, k)
      · simp only [hck, if_true] at hv
        simp only [Prod.mk.injEq] at hck
        rw [← hv, hnow d (List.mem_of_mem_take hd), ho, hck.1, hf _ _ d.args e.args (by rw [hk', hk, hck.2])]
      · simp [hck] at hv
    · simp [ho] at hdc

end Phyem.Memo
