import Verif.OpCache.Lemmas
import Mathlib.Data.List.Induction

namespace Phyem.OpCache

open Phyem

variable {α : Type}

theorem run_append (impl : Impl) (elems : List ℕ) (h : List (Act α)) (a : Act α) :
    run impl elems (h ++ [a]) = step impl elems (run impl elems h) a := by
  simp [run]

theorem ops_modify (s : Heap α) (i : ℕ) (f : Obj α → Obj α) (hf : ∀ o, (f o).op = o.op) :
    ops (s.modify i f) = ops s := by
  apply List.ext_getElem?
  intro j
  rw [getElem?_ops, getElem?_ops, List.getElem?_modify]
  cases s[j]? with
  | none => rfl
  | some o => by_cases h : i = j <;> simp [h, hf]

theorem ops_getArgs (g : Heap α → ℕ → Heap α × Option α) (hg : ∀ s j, ops (g s j).1 = ops s) :
    ∀ (args : List ℕ) (s : Heap α), ops (getArgs g s args).1 = ops s
  | [], s => rfl
  | i :: is, s => by
    simp only [getArgs]
    cases (g s i).2 with
    | none => exact hg s i
    | some a =>
      simp only
      rw [ops_getArgs g hg is, hg]

theorem ops_get (impl : Impl) (elems : List ℕ) : ∀ n (s : Heap α) i e,
    ops (get impl elems n s i e).1 = ops s := by
  intro n
  induction n with
  | zero => intro s i e; rfl
  | succ n ih =>
    intro s i e
    simp only [get]
    cases s[i]? with
    | none => rfl
    | some o =>
      simp only
      by_cases he : e ∈ elems
      · rw [if_pos he]
        cases o.cust.get e with
        | some v => rfl
        | none =>
          simp only
          have hm : ops (metaData impl (fun t j => get impl elems n t j e) s o.op e).1 = ops s := by
            unfold metaData
            cases o.op with
            | leaf d key => rfl
            | derived kind args f =>
              simp only
              split
              · exact ops_getArgs _ (fun s j => ih s j e) args s
              · rfl
          unfold readCached
          split
          · exact hm
          · cases o.cache.get (keyOf impl s (n + 1) i e) with
            | some v => rfl
            | none =>
              simp only
              cases (metaData impl (fun t j => get impl elems n t j e) s o.op e).2 with
              | none => exact hm
              | some v =>
                simp only
                rw [ops_of_stat (stat_store _ _ _ _)]; exact hm
      · rw [if_neg he]

theorem ops_step (impl : Impl) (elems : List ℕ) (s : Heap α) (a : Act α) :
    ops s <+: ops (step impl elems s a) := by
  cases a with
  | new op =>
    simp only [step]
    split
    · simp [ops]
    · exact List.prefix_refl _
  | read i e => simp only [step, read]; rw [ops_get]
  | customise i e v => simp only [step]; rw [ops_modify _ _ _ (by intro o; rfl)]
  | clear i => simp only [step]; rw [ops_modify _ _ _ (by intro o; rfl)]

theorem wf_step (impl : Impl) (elems : List ℕ) (s : Heap α) (a : Act α) (hw : WF (ops s)) :
    WF (ops (step impl elems s a)) := by
  cases a with
  | new op =>
    simp only [step]
    split
    · rename_i hv
      have heq : ops (s ++ [⟨op, [], []⟩]) = ops s ++ [op] := by simp [ops]
      rw [heq]
      intro i kind args f hi
      by_cases hlt : i < (ops s).length
      · rw [List.getElem?_append_left hlt] at hi
        exact hw i kind args f hi
      · have hlen : i < (ops s ++ [op]).length := (List.getElem?_eq_some_iff.mp hi).1
        have : i = (ops s).length := by simp at hlen; omega
        subst this
        rw [List.getElem?_append_right (le_refl _)] at hi
        simp only [Nat.sub_self, List.getElem?_cons_zero, Option.some.injEq] at hi
        subst hi
        simp only [validOp, Bool.and_eq_true, List.all_eq_true, decide_eq_true_eq] at hv
        rw [length_ops]
        refine ⟨hv.1, ?_, ?_, ?_⟩ <;> rintro rfl <;> simpa using hv.2
    · exact hw
  | read i e => simp only [step, read]; rw [ops_get]; exact hw
  | customise i e v => simp only [step]; rw [ops_modify _ _ _ (by intro o; rfl)]; exact hw
  | clear i => simp only [step]; rw [ops_modify _ _ _ (by intro o; rfl)]; exact hw

theorem run_wf (impl : Impl) (elems : List ℕ) (h : List (Act α)) : WF (ops (run impl elems h)) := by
  induction h using List.reverseRecOn with
  | nil => intro i kind args f hi; simp [run, ops] at hi
  | append_singleton h a ih => rw [run_append]; exact wf_step impl elems _ a ih

theorem untouched_modify_of_ne {s : Heap α} {i j : ℕ} {f : Obj α → Obj α} (h : i ≠ j) :
    untouched (s.modify i f) j = untouched s j := by
  unfold untouched
  rw [List.getElem?_modify]
  cases s[j]? <;> simp [h]

theorem good_modify (impl : Impl) (elems : List ℕ) (p : List (Op α)) (s : Heap α)
    (hg : Good impl elems p s) (i : ℕ) (f : Obj α → Obj α) (hf : ∀ o, (f o).op = o.op)
    (hc : ∀ o, (f o).cache = o.cache) : Good impl elems p (s.modify i f) := by
  refine ⟨by rw [ops_modify _ _ _ hf]; exact hg.pre, ?_⟩
  intro j o hj ck v hv e he hu hr
  rw [List.getElem?_modify] at hj
  cases hsj : s[j]? with
  | none => rw [hsj] at hj; simp at hj
  | some o' =>
    rw [hsj] at hj
    have : o.cache = o'.cache := by
      by_cases hij : i = j
      · simp [hij] at hj; rw [← hj]; exact hc o'
      · simp [hij] at hj; rw [← hj]
    rw [this] at hv
    exact hg.cache j o' hsj ck v hv e he hu hr

theorem run_good (impl : Impl) (elems : List ℕ) (p : List (Op α)) (hw : WF p)
    (hk : KeysOK impl elems p) (h : List (Act α)) (hp : ops (run impl elems h) <+: p)
    (hm : impl = .msepy ∨ NeverCustomised h p) :
    Good impl elems p (run impl elems h) ∧ (NeverCustomised h p → Free (run impl elems h)) := by
  induction h using List.reverseRecOn with
  | nil =>
    refine ⟨⟨hp, ?_⟩, ?_⟩
    · intro i o hi; simp [run] at hi
    · intro _ i kind args f hi; simp [run, ops] at hi
  | append_singleton h a ih =>
    rw [run_append] at hp ⊢
    have hp' : ops (run impl elems h) <+: p := (ops_step impl elems _ a).trans hp
    have hnc : NeverCustomised (h ++ [a]) p → NeverCustomised h p := fun hn i e v hmem =>
      hn i e v (List.mem_append_left _ hmem)
    obtain ⟨hg, hf⟩ := ih hp' (hm.imp id hnc)
    -- operands
    have hoper : ∀ (q : List (Op α)), q <+: p → ∀ (i : ℕ) (kind : Kind) (args : List ℕ)
        (f : List α → Option α), q[i]? = some (.derived kind args f) → kind ≠ .blk →
        ∀ j ∈ args, Operand p j := by
      intro q hq i kind args f hi hb j hj
      refine ⟨kind, args, f, ?_, hb, hj⟩
      exact hq.subset (List.mem_of_getElem? hi)
    cases a with
    | new op =>
      simp only [step] at hp ⊢
      by_cases hv : validOp (run impl elems h) op = true
      · rw [if_pos hv] at hp ⊢
        have heq : ops (run impl elems h ++ [⟨op, [], []⟩]) = ops (run impl elems h) ++ [op] := by
          simp [ops]
        refine ⟨⟨hp, ?_⟩, ?_⟩
        · intro i o hi ck v hcv e he hu hr
          by_cases hlt : i < (run impl elems h).length
          · rw [List.getElem?_append_left hlt] at hi
            exact hg.cache i o hi ck v hcv e he hu hr
          · have hlen := (List.getElem?_eq_some_iff.mp hi).1
            have : i = (run impl elems h).length := by simp at hlen; omega
            subst this
            simp only [List.getElem?_concat_length, Option.some.injEq] at hi
            subst hi
            simp [Dict.get] at hcv
        · intro hn i kind args f hi hb j hj
          have hfree := hf (hnc hn)
          rw [heq] at hi
          have hjlt : j < (run impl elems h).length ∧
              untouched (run impl elems h) j = true := by
            by_cases hlt : i < (ops (run impl elems h)).length
            · rw [List.getElem?_append_left hlt] at hi
              have hun := hfree i kind args f hi hb j hj
              refine ⟨?_, hun⟩
              by_contra hcon
              unfold untouched at hun
              rw [List.getElem?_eq_none (by omega)] at hun
              cases hun
            · have hlen := (List.getElem?_eq_some_iff.mp hi).1
              have : i = (ops (run impl elems h)).length := by simp at hlen; omega
              subst this
              rw [List.getElem?_concat_length, Option.some.injEq] at hi
              subst hi
              simp only [validOp, Bool.and_eq_true, List.all_eq_true, decide_eq_true_eq] at hv
              have hjl := hv.1 j hj
              refine ⟨hjl, ?_⟩
              have hopj : Operand p j :=
                hoper (ops (run impl elems h) ++ [.derived kind args f]) (by rw [← heq]; exact hp) (ops (run impl elems h)).length kind args f
                  (by rw [List.getElem?_concat_length]) hb j hj
              -- never customised, so untouched
              have key : ∀ (g : List (Act α)), (∀ e v, Act.customise j e v ∉ g) →
                  ∀ o, (run impl elems g)[j]? = some o → o.cust = [] := by
                intro g
                induction g using List.reverseRecOn with
                | nil => intro _ o ho; simp [run] at ho
                | append_singleton g a ihg =>
                  intro hno o ho
                  have ihg' := ihg fun e v hmem => hno e v (List.mem_append_left _ hmem)
                  rw [run_append] at ho
                  cases a with
                  | new op' =>
                    simp only [step] at ho
                    split at ho
                    · by_cases hl : j < (run impl elems g).length
                      · rw [List.getElem?_append_left hl] at ho
                        exact ihg' o ho
                      · have hlen := (List.getElem?_eq_some_iff.mp ho).1
                        have : j = (run impl elems g).length := by simp at hlen; omega
                        rw [this, List.getElem?_concat_length, Option.some.injEq] at ho
                        subst ho; rfl
                    · exact ihg' o ho
                  | read i' e' =>
                    simp only [step, read] at ho
                    -- reading does not touch customisations
                    have hcust : ∀ n (s : Heap α) i e,
                        stat (get impl elems n s i e).1 = stat s := by
                      intro n
                      induction n with
                      | zero => intro s i e; rfl
                      | succ n ihn =>
                        intro s i e
                        simp only [get]
                        cases s[i]? with
                        | none => rfl
                        | some o =>
                          simp only
                          split
                          · cases o.cust.get e with
                            | some v => rfl
                            | none =>
                              simp only
                              have hargs : ∀ (args : List ℕ) (s : Heap α),
                                  stat (getArgs (fun t j => get impl elems n t j e) s args).1 =
                                    stat s := by
                                intro args
                                induction args with
                                | nil => intro s; rfl
                                | cons a as iha =>
                                  intro s
                                  simp only [getArgs]
                                  cases (get impl elems n s a e).2 with
                                  | none => exact ihn s a e
                                  | some w => simp only; rw [iha, ihn]
                              have hm : stat (metaData impl (fun t j => get impl elems n t j e)
                                  s o.op e).1 = stat s := by
                                unfold metaData
                                cases o.op with
                                | leaf d key => rfl
                                | derived kind args f =>
                                  simp only
                                  split
                                  · exact hargs args s
                                  · rfl
                              unfold readCached
                              split
                              · exact hm
                              · cases o.cache.get (keyOf impl s (n + 1) i e) with
                                | some v => rfl
                                | none =>
                                  simp only
                                  cases (metaData impl (fun t j => get impl elems n t j e)
                                    s o.op e).2 with
                                  | none => exact hm
                                  | some v => simp only; rw [stat_store]; exact hm
                          · rfl
                    have hs := getElem?_stat (get impl elems (i' + 1) (run impl elems g) i' e').1 j
                    rw [hcust, getElem?_stat, ho] at hs
                    cases hgj : (run impl elems g)[j]? with
                    | none => rw [hgj] at hs; simp at hs
                    | some o' =>
                      rw [hgj] at hs
                      simp only [Option.map_some, Option.some.injEq, Prod.mk.injEq] at hs
                      rw [← hs.2]; exact ihg' o' hgj
                  | customise i' e' v' =>
                    simp only [step] at ho
                    have hne : i' ≠ j := by
                      rintro rfl
                      exact hno e' v' (List.mem_append_right _ (List.mem_singleton.mpr rfl))
                    rw [List.getElem?_modify] at ho
                    cases hgj : (run impl elems g)[j]? with
                    | none => rw [hgj] at ho; simp at ho
                    | some o' =>
                      rw [hgj] at ho
                      simp [hne] at ho
                      rw [← ho]; exact ihg' o' hgj
                  | clear i' =>
                    simp only [step] at ho
                    rw [List.getElem?_modify] at ho
                    cases hgj : (run impl elems g)[j]? with
                    | none => rw [hgj] at ho; simp at ho
                    | some o' =>
                      rw [hgj] at ho
                      by_cases hij : i' = j
                      · simp [hij] at ho
                        rw [← ho]
                      · simp [hij] at ho
                        rw [← ho]; exact ihg' o' hgj
              unfold untouched
              have hget : (run impl elems h)[j]? = some (run impl elems h)[j] :=
                List.getElem?_eq_getElem hjl
              rw [hget]
              simp only [List.isEmpty_iff]
              exact key h (fun e v hmem => hn j e v (List.mem_append_left _ hmem) hopj) _ hget
          unfold untouched at hjlt ⊢
          rw [List.getElem?_append_left hjlt.1]
          exact hjlt.2
      · rw [if_neg hv] at hp ⊢
        exact ⟨hg, fun hn => hf (hnc hn)⟩
    | read i e =>
      simp only [step, read] at hp ⊢
      by_cases he : e ∈ elems
      · by_cases hl : i < (run impl elems h).length
        · obtain ⟨r1, r2, -, -⟩ := get_spec impl elems p hw hk e he (i + 1) i (run impl elems h)
            (by omega) hl hg (hm.imp id fun hn => hf (hnc hn))
          exact ⟨r2, fun hn => (hf (hnc hn)).stat r1.symm⟩
        · have : get impl elems (i + 1) (run impl elems h) i e = (run impl elems h, none) := by
            simp only [get]
            rw [List.getElem?_eq_none (by omega)]
          rw [this]
          exact ⟨hg, fun hn => hf (hnc hn)⟩
      · have : get impl elems (i + 1) (run impl elems h) i e = (run impl elems h, none) := by
          simp only [get]
          cases (run impl elems h)[i]? with
          | none => rfl
          | some o => simp [he]
        rw [this]
        exact ⟨hg, fun hn => hf (hnc hn)⟩
    | customise i e v =>
      simp only [step] at hp ⊢
      refine ⟨good_modify impl elems p _ hg i _ (fun _ => rfl) (fun _ => rfl), ?_⟩
      intro hn i' kind args f hi' hb j hj
      rw [ops_modify _ _ _ (by intro o; rfl)] at hi'
      have hopj := hoper _ hp' i' kind args f hi' hb j hj
      have hne : i ≠ j := by
        rintro rfl
        exact hn i e v (List.mem_append_right _ (List.mem_singleton.mpr rfl)) hopj
      rw [untouched_modify_of_ne hne]
      exact hf (hnc hn) i' kind args f hi' hb j hj
    | clear i =>
      simp only [step] at hp ⊢
      refine ⟨good_modify impl elems p _ hg i _ (fun _ => rfl) (fun _ => rfl), ?_⟩
      intro hn i' kind args f hi' hb j hj
      rw [ops_modify _ _ _ (by intro o; rfl)] at hi'
      have := hf (hnc hn) i' kind args f hi' hb j hj
      by_cases hij : i = j
      · subst hij
        unfold untouched at this ⊢
        rw [List.getElem?_modify]
        cases hsi : (run impl elems h)[i]? with
        | none => rw [hsi] at this; cases this
        | some o => simp
      · rw [untouched_modify_of_ne hij]; exact this

theorem valueM_fuel (s : List (Op α × Dict ℕ α)) (hw : WF (s.map Prod.fst)) : ∀ n m own i e, i < n → i < m →
    valueM s n own i e = valueM s m own i e := by
  intro n
  induction n with
  | zero => intro m own i e h; omega
  | succ n ih =>
    intro m own i e hn hm
    cases m with
    | zero => omega
    | succ m =>
      simp only [valueM]
      cases hi : s[i]? with
      | none => rfl
      | some q =>
        obtain ⟨op, cust⟩ := q
        simp only
        cases (if own = true then cust.get e else none) with
        | some v => rfl
        | none =>
          cases op with
          | leaf d key => rfl
          | derived kind args f =>
            have := (hw i kind args f (by rw [List.getElem?_map, hi]; rfl)).1
            simp only
            congr 2
            apply List.map_congr_left
            intro j hj
            have := this j hj
            exact ih m _ j e (by omega) (by omega)

theorem value_eq_valueM (s : Heap α) (hf : Free s) : ∀ n i e,
    value (stat s) n i e = valueM (stat s) n true i e := by
  intro n
  induction n with
  | zero => intro i e; rfl
  | succ n ih =>
    intro i e
    simp only [value, valueM, getElem?_stat]
    cases hi : s[i]? with
    | none => rfl
    | some o =>
      simp only [Option.map_some, if_true]
      cases o.cust.get e with
      | some v => rfl
      | none =>
        simp only
        cases hop : o.op with
        | leaf d key => rfl
        | derived kind args f =>
          simp only
          congr 2
          apply List.map_congr_left
          intro j hj
          rw [ih]
          by_cases hb : kind = .blk
          · rw [decide_eq_true hb]
          · rw [decide_eq_false hb]
            exact valueM_own s n j e (not_customised_of_untouched
              (hf i kind args f (by rw [getElem?_ops, hi]; simp [hop]) hb j hj) e)

end Phyem.OpCache
