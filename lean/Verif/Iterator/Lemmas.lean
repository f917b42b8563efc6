import Verif.Iterator.Model
import Mathlib.Data.List.Sort
import Mathlib.Tactic.Linarith

namespace Phyem.Iterator

/-! ### The record of computed inputs -/

/-- Invariant of the record: ranges are non-empty and no int is listed twice. -/
structure WF (c : Computed) : Prop where
  ranges : ∀ r ∈ c.ranges, r.1 < r.2
  nodup : c.ints.Nodup

theorem inRange_iff (i : Int) (r : Int × Int) : inRange i r = true ↔ r.1 ≤ i ∧ i < r.2 := by
  simp [inRange]

theorem check_int (c : Computed) (i : Int) :
    check c (.int i) = true ↔ i ∈ c.ints ∨ ∃ r ∈ c.ranges, r.1 ≤ i ∧ i < r.2 := by
  simp only [check]
  split
  · rename_i h; simp at h; simp [h]
  · rename_i h; simp at h; simp [h, inRange]

theorem check_str (c : Computed) (s : String) :
    check c (.str s) = true ↔ s ∈ c.strs := by simp [check]

theorem update_wf {c : Computed} (h : WF c) (k : Key) : WF (update c k) := by
  cases k with
  | int i =>
    simp only [update]
    split
    · exact h
    · split
      · exact h
      · rename_i h1 _
        refine ⟨h.ranges, ?_⟩
        simp at h1
        simp [List.nodup_append, h.nodup]
        intro a ha hai; exact h1 (hai ▸ ha)
  | str s =>
    simp only [update]; split
    · exact h
    · exact ⟨h.ranges, h.nodup⟩

theorem check_update (c : Computed) (k k' : Key) :
    check (update c k) k' = true ↔ check c k' = true ∨ k' = k := by
  cases k with
  | int i =>
    simp only [update]
    split
    · rename_i h; simp at h
      constructor
      · exact Or.inl
      · rintro (h' | rfl); exact h'; exact (check_int _ _).2 (Or.inl h)
    · split
      · rename_i h _; rename_i h2; 
        constructor
        · exact Or.inl
        · rintro (h' | rfl)
          · exact h'
          · simp [inRange] at h2
            refine (check_int _ _).2 (Or.inr ?_)
            obtain ⟨a, b, hm, h3⟩ := h2
            exact ⟨(a, b), hm, h3⟩
      · cases k' with
        | int j => 
          rw [check_int, check_int]; simp [or_right_comm]
        | str s => simp [check_str]
  | str s =>
    simp only [update]
    split
    · rename_i h; simp at h
      constructor
      · exact Or.inl
      · rintro (h' | rfl); exact h'; exact (check_str _ _).2 h
    · cases k' with
      | int j => simp [check_int]
      | str s => simp [check_str]

theorem absorb_spec (i : Int) : ∀ (rs rs' : List (Int × Int)), absorb i rs = some rs' →
    (∀ r ∈ rs, r.1 < r.2) →
    (∀ r ∈ rs', r.1 < r.2) ∧
    ∀ j, (∃ r ∈ rs', r.1 ≤ j ∧ j < r.2) ↔ (∃ r ∈ rs, r.1 ≤ j ∧ j < r.2) ∨ j = i := by
  intro rs
  induction rs with
  | nil => intro rs' h; simp [absorb] at h
  | cons r rs ih =>
    obtain ⟨a, b⟩ := r
    intro rs' h hwf
    have hab := hwf (a, b) (by simp)
    simp only at hab
    simp only [absorb] at h
    split at h
    · rename_i hib
      simp only [Option.some.injEq] at h
      subst h
      refine ⟨?_, ?_⟩
      · intro r hr
        simp at hr
        rcases hr with rfl | hr
        · simp; omega
        · exact hwf r (by simp [hr])
      · intro j
        simp only [List.mem_cons, exists_eq_or_imp]
        constructor
        · rintro (h | h)
          · by_cases hj : j = i
            · exact Or.inr hj
            · left; left; omega
          · left; right; exact h
        · rintro ((h | h) | h)
          · left; omega
          · right; exact h
          · left; omega
    · split at h
      · simp only [Option.some.injEq] at h
        subst h
        refine ⟨?_, ?_⟩
        · intro r hr
          simp at hr
          rcases hr with rfl | hr
          · simp; omega
          · exact hwf r (by simp [hr])
        · intro j
          simp only [List.mem_cons, exists_eq_or_imp]
          constructor
          · rintro (h | h)
            · by_cases hj : j = i
              · exact Or.inr hj
              · left; left; omega
            · left; right; exact h
          · rintro ((h | h) | h)
            · left; omega
            · right; exact h
            · left; omega
      · simp only [Option.map_eq_some_iff] at h
        obtain ⟨rs1, h1, rfl⟩ := h
        obtain ⟨hw, hm⟩ := ih rs1 h1 (fun r hr => hwf r (by simp [hr]))
        refine ⟨?_, ?_⟩
        · intro r hr
          simp at hr
          rcases hr with rfl | hr
          · exact hab
          · exact hw r hr
        · intro j
          simp only [List.mem_cons, exists_eq_or_imp]
          rw [hm j, or_assoc]

/-- The absorbing fold: covered numbers grow by exactly those marked for removal. -/
theorem absorb_fold (l : List Int) : ∀ (st : List (Int × Int) × List Int),
    (∀ r ∈ st.1, r.1 < r.2) →
    let st' := l.foldl absorbStep st
    (∀ r ∈ st'.1, r.1 < r.2) ∧
    ∃ rem, st'.2 = st.2 ++ rem ∧ rem.Sublist l ∧
    ∀ j, (∃ r ∈ st'.1, r.1 ≤ j ∧ j < r.2) ↔ (∃ r ∈ st.1, r.1 ≤ j ∧ j < r.2) ∨ j ∈ rem := by
  induction l with
  | nil => intro st h; exact ⟨h, [], by simp⟩
  | cons i l ih =>
    intro st h
    simp only [List.foldl_cons]
    cases hb : absorb i st.1 with
    | none =>
      have e : absorbStep st i = st := by simp [absorbStep, hb]
      rw [e]
      obtain ⟨h1, rem, h2, h3, h4⟩ := ih st h
      exact ⟨h1, rem, h2, h3.cons _, h4⟩
    | some rs =>
      have e : absorbStep st i = (rs, st.2 ++ [i]) := by simp [absorbStep, hb]
      rw [e]
      obtain ⟨hw, hm⟩ := absorb_spec i _ _ hb h
      obtain ⟨h1, rem, h2, h3, h4⟩ := ih (rs, st.2 ++ [i]) hw
      refine ⟨h1, i :: rem, ?_, h3.cons_cons _, ?_⟩
      · rw [h2]; simp
      · intro j; rw [h4 j]; simp only; rw [hm j, List.mem_cons, or_assoc]

theorem eraseAll_mem (rem : List Int) : ∀ (l : List Int), l.Nodup →
    (rem.foldl (fun l i => l.erase i) l).Nodup ∧
    ∀ j, j ∈ rem.foldl (fun l i => l.erase i) l ↔ j ∈ l ∧ j ∉ rem := by
  induction rem with
  | nil => intro l h; simpa using h
  | cons i rem ih =>
    intro l h
    simp only [List.foldl_cons]
    obtain ⟨h1, h2⟩ := ih (l.erase i) (h.erase i)
    refine ⟨h1, fun j => ?_⟩
    rw [h2 j, h.mem_erase_iff]; simp; tauto

theorem compress_spec {c : Computed} (h : WF c) :
    WF (compress c) ∧ ∀ k, check (compress c) k = true ↔ check c k = true := by
  have hperm : (c.ints.insertionSort (· ≤ ·)).Perm c.ints :=
    List.perm_insertionSort _ _
  unfold compress
  simp only
  generalize hI : c.ints.insertionSort (· ≤ ·) = I at *
  have hInd : I.Nodup := hperm.nodup_iff.2 h.nodup
  obtain ⟨h1, rem, h2, h3, h4⟩ := absorb_fold I (c.ranges, []) h.ranges
  generalize hF : I.foldl absorbStep (c.ranges, []) = F at *
  simp only [List.nil_append] at h2
  rw [h2]
  obtain ⟨h5, h6⟩ := eraseAll_mem rem I hInd
  generalize hJ : rem.foldl (fun l i => l.erase i) I = J at *
  have hrem : ∀ j ∈ rem, j ∈ I := fun j hj => h3.subset hj
  have hmem : ∀ j, j ∈ I ↔ j ∈ c.ints := fun j => hperm.mem_iff
  split
  · refine ⟨⟨h1, h5⟩, ?_⟩
    intro k
    cases k with
    | str s => simp [check_str]
    | int i =>
      rw [check_int, check_int]
      simp only
      rw [h4 i, h6 i, ← hmem i]
      have := hrem i
      simp only
      by_cases hr : i ∈ rem <;> simp [hr, this]
  · rename_i i hfind
    have hi : i ∈ J := List.mem_of_find?_eq_some hfind
    have hi1 : i + 1 ∈ J := by
      have := List.find?_some hfind
      simpa using this
    refine ⟨⟨?_, (h5.erase _).erase _⟩, ?_⟩
    · intro r hr
      simp at hr
      rcases hr with hr | rfl
      · exact h1 r hr
      · simp
    · intro k
      cases k with
      | str s => simp [check_str]
      | int j =>
        rw [check_int, check_int]
        simp only [List.mem_append, List.mem_singleton]
        rw [(h5.erase i).mem_erase_iff, h5.mem_erase_iff]
        have e : (∃ r, (r ∈ F.1 ∨ r = (i, i + 2)) ∧ r.1 ≤ j ∧ j < r.2) ↔
            (∃ r ∈ F.1, r.1 ≤ j ∧ j < r.2) ∨ (i ≤ j ∧ j < i + 2) := by
          constructor
          · rintro ⟨r, hr | rfl, h⟩
            · exact Or.inl ⟨r, hr, h⟩
            · exact Or.inr h
          · rintro (⟨r, hr, h⟩ | h)
            · exact ⟨r, Or.inl hr, h⟩
            · exact ⟨_, Or.inr rfl, h⟩
        rw [e, h4 j, h6 j, ← hmem j]
        have hiI := ((h6 i).1 hi).1
        have hiI1 := ((h6 (i+1)).1 hi1).1
        by_cases e1 : j = i
        · subst e1; simp [hiI]
        · by_cases e2 : j = i + 1
          · subst e2; simp [hiI1]
          · have e3 : ¬ (i ≤ j ∧ j < i + 2) := by omega
            have := hrem j
            by_cases hr : j ∈ rem <;> simp [hr, this, e1, e2, e3]

end Phyem.Iterator

namespace Phyem.Iterator

/-! ### Resuming -/

section Run
variable {α σ D β : Type}

/-- Results of calling the solver on the inputs one after the other. -/
def traj (P : Prog α σ D β) : σ → List α → List (σ × Nat × β)
  | _, [] => []
  | s, a :: as => P.solve a s :: traj P (P.solve a s).1 as

/-- State after calling the solver on the inputs one after the other. -/
def final (P : Prog α σ D β) : σ → List α → σ
  | s, [] => s
  | s, a :: as => final P (P.solve a s).1 as

theorem final_append (P : Prog α σ D β) (l l' : List α) : ∀ s,
    final P s (l ++ l') = final P (final P s l) l' := by
  induction l with
  | nil => intro s; rfl
  | cons a l ih => intro s; simp [final, ih]

/-- Content of `RES` after having computed `l`. -/
def resOf (P : Prog α σ D β) (s : σ) (l : List α) : List (Key × (Nat × β)) :=
  List.zipWith (fun a r => (P.key a, r.2)) l (traj P s l)

theorem traj_append (P : Prog α σ D β) (l l' : List α) : ∀ s,
    traj P s (l ++ l') = traj P s l ++ traj P (final P s l) l' := by
  induction l with
  | nil => intro s; rfl
  | cons a l ih => intro s; simp [traj, final, ih]

theorem resOf_cons (P : Prog α σ D β) (s : σ) (a : α) (l : List α) :
    resOf P s (a :: l) = (P.key a, (P.solve a s).2) :: resOf P (P.solve a s).1 l := by
  simp [resOf, traj]

theorem resOf_append (P : Prog α σ D β) (l l' : List α) : ∀ s,
    resOf P s (l ++ l') = resOf P s l ++ resOf P (final P s l) l' := by
  induction l with
  | nil => intro s; simp [resOf, traj, final]
  | cons a l ih => intro s; simp [resOf_cons, final, ih]

theorem lookup_append_none (k : Key) (l l' : List (Key × (Nat × β)))
    (h : lookupRes k l = none) : lookupRes k (l ++ l') = lookupRes k l' := by
  induction l with
  | nil => rfl
  | cons p l ih =>
    obtain ⟨k', v⟩ := p
    simp only [lookupRes, List.cons_append] at h ⊢
    split at h
    · cases h
    · rename_i hk; rw [if_neg hk]; exact ih h

theorem lookup_resOf_none (P : Prog α σ D β) (k : Key) (l : List α) : ∀ s,
    k ∉ l.map P.key → lookupRes k (resOf P s l) = none := by
  induction l with
  | nil => intro s _; simp [resOf, lookupRes]
  | cons a l ih =>
    intro s h
    simp at h
    rw [resOf_cons]
    simp only [lookupRes]
    rw [if_neg (fun e => h.1 e)]
    exact ih _ (by simpa using h.2)

/-- Record of a computed prefix. -/
structure GoodRec (P : Prog α σ D β) (s0 : σ) (pre : List α) (c : Cache D β) : Prop where
  wf : WF c.computed
  comp : ∀ k, check c.computed k = true ↔ k ∈ pre.map P.key
  res : c.res = resOf P s0 pre

/-- File of a computed prefix. -/
structure GoodDisk (P : Prog α σ D β) (sim : σ → σ → Prop) (s0 : σ) (pre : List α)
    (c : Cache D β) : Prop extends GoodRec P s0 pre c where
  data : (c.data = none ∧ pre = []) ∨ ∃ s, c.data = some (P.enc s) ∧ sim s (final P s0 pre)

/-- What the theorem assumes of the program. -/
structure Faithful (P : Prog α σ D β) (sim : σ → σ → Prop) : Prop where
  equiv : Equivalence sim
  out : ∀ a s s', sim s s' → (P.solve a s).2 = (P.solve a s').2
  next : ∀ a s s', sim s s' → sim (P.solve a s).1 (P.solve a s').1
  restore : ∀ s s', sim (P.dec (P.enc s) s') s

theorem fresh_good (P : Prog α σ D β) (sim : σ → σ → Prop) (s0 : σ) :
    GoodDisk P sim s0 [] (Cache.fresh : Cache D β) where
  wf := ⟨by simp [Cache.fresh, Computed.empty], by simp [Cache.fresh, Computed.empty]⟩
  comp := by
    intro k; cases k <;> simp [Cache.fresh, Computed.empty, check]
  res := by simp [Cache.fresh, resOf, traj]
  data := Or.inl ⟨rfl, rfl⟩

theorem iters_done (P : Prog α σ D β) (w : Nat → Bool) (l : List α) : ∀ i (st : Session σ D β),
    (st.stopped || st.failed) = true → iters P w i l st = st := by
  induction l with
  | nil => intro i st _; rfl
  | cons a l ih =>
    intro i st h
    have : iter P a (w i) st = st := by simp only [iter]; rw [if_pos h]
    simp only [iters, this]
    exact ih _ _ h

/-- What a session that follows the reference run delivers. -/
structure Outcome (P : Prog α σ D β) (sim : σ → σ → Prop) (s0 : σ) (inputs done rest : List α)
    (rows : List β) (st' : Session σ D β) : Prop where
  rows : st'.rows = rows ++ (plainRun P rest (final P s0 done)).1
  failed : st'.failed = (plainRun P rest (final P s0 done)).2
  disk : ∃ p, p <+: inputs ∧ GoodDisk P sim s0 p st'.disk
  objs : st'.keepChecking = false → sim st'.objs (plainFinal P rest (final P s0 done))

theorem plainFinal_cons (P : Prog α σ D β) (a : α) (l : List α) (s : σ) :
    plainFinal P (a :: l) s =
      if (P.solve a s).2.1 = 0 then plainFinal P l (P.solve a s).1 else (P.solve a s).1 := by
  simp only [plainFinal]

theorem plainRun_cons (P : Prog α σ D β) (a : α) (l : List α) (s : σ) :
    plainRun P (a :: l) s =
      if (P.solve a s).2.1 = 0 then
        ((P.solve a s).2.2 :: (plainRun P l (P.solve a s).1).1, (plainRun P l (P.solve a s).1).2)
      else ([(P.solve a s).2.2], !((P.solve a s).2.1 == 1)) := by
  simp only [plainRun]

theorem recordAndWrite_mem {P : Prog α σ D β} {s0 : σ} {done : List α} {a : α}
    {st : Session σ D β} (w : Bool) (h : GoodRec P s0 done st.mem)
    (hk : P.key a ∉ done.map P.key) :
    GoodRec P s0 (done ++ [a])
      (recordAndWrite P a (P.solve a (final P s0 done)).2.1 (P.solve a (final P s0 done)).2.2 w
        st).mem := by
  have hl : lookupRes (P.key a) st.mem.res = none := by
    rw [h.res]; exact lookup_resOf_none P _ _ _ hk
  have hc := compress_spec (update_wf h.wf (P.key a))
  have key : GoodRec P s0 (done ++ [a])
      ({ st.mem with computed := compress (update st.mem.computed (P.key a)),
                     res := st.mem.res ++ [(P.key a, (P.solve a (final P s0 done)).2)] }) := by
    refine ⟨hc.1, ?_, ?_⟩
    · intro k
      simp only
      rw [hc.2 k, check_update, h.comp k]; simp [eq_comm]
    · simp only
      rw [resOf_append, h.res, resOf_cons]; simp [resOf]
  unfold recordAndWrite
  simp only [hl]
  split <;> exact key

theorem recordAndWrite_disk {P : Prog α σ D β} {sim : σ → σ → Prop} {s0 : σ}
    {inputs done : List α} {a : α}
    {st : Session σ D β} (w : Bool) (h : GoodRec P s0 done st.mem)
    (hk : P.key a ∉ done.map P.key) (hpre : done ++ [a] <+: inputs)
    (hs : sim st.objs (final P s0 (done ++ [a])))
    (hd : ∃ p, p <+: inputs ∧ GoodDisk P sim s0 p st.disk) :
    ∃ p, p <+: inputs ∧ GoodDisk P sim s0 p
      (recordAndWrite P a (P.solve a (final P s0 done)).2.1 (P.solve a (final P s0 done)).2.2 w
        st).disk := by
  have hm := recordAndWrite_mem w h hk
  cases w with
  | false => simpa [recordAndWrite] using hd
  | true =>
    refine ⟨done ++ [a], hpre, ?_⟩
    have : (recordAndWrite P a (P.solve a (final P s0 done)).2.1
        (P.solve a (final P s0 done)).2.2 true st).disk =
        { (recordAndWrite P a (P.solve a (final P s0 done)).2.1
        (P.solve a (final P s0 done)).2.2 true st).mem with data := some (P.enc st.objs) } := by
      simp [recordAndWrite]
    rw [this]
    exact { wf := hm.wf, comp := hm.comp, res := hm.res, data := Or.inr ⟨st.objs, rfl, hs⟩ }

theorem recordAndWrite_same (P : Prog α σ D β) (a : α) (e : Nat) (o : β) (w : Bool)
    (st : Session σ D β) :
    (recordAndWrite P a e o w st).rows = st.rows ∧
    (recordAndWrite P a e o w st).stopped = st.stopped ∧
    (recordAndWrite P a e o w st).failed = st.failed ∧
    (recordAndWrite P a e o w st).objs = st.objs ∧
    (recordAndWrite P a e o w st).keepChecking = st.keepChecking := by
  unfold recordAndWrite
  simp only
  split <;> simp

/-- Nodup of keys along a prefix. -/
theorem key_fresh {P : Prog α σ D β} {inputs done rest : List α} {a : α}
    (hn : (inputs.map P.key).Nodup) (hpre : done ++ a :: rest <+: inputs) :
    P.key a ∉ done.map P.key := by
  obtain ⟨t, rfl⟩ := hpre
  simp only [List.map_append, List.map_cons] at hn
  have := (List.nodup_append.1 (List.nodup_append.1 hn).1)
  intro h
  exact this.2.2 _ h _ (by simp) rfl

/-- The tail of a session once an iteration has been computed with objects similar to the
reference state. -/
theorem after_compute {P : Prog α σ D β} {sim : σ → σ → Prop} (F : Faithful P sim) {s0 : σ}
    {inputs : List α} (hn : (inputs.map P.key).Nodup) (w : Nat → Bool) :
    ∀ (rest done : List α) (i : Nat) (st : Session σ D β),
      done ++ rest <+: inputs → st.keepChecking = false → st.stopped = false →
      st.failed = false → GoodRec P s0 done st.mem → sim st.objs (final P s0 done) →
      (∃ p, p <+: inputs ∧ GoodDisk P sim s0 p st.disk) →
      Outcome P sim s0 inputs done rest st.rows (iters P w i rest st) := by
  intro rest
  induction rest with
  | nil =>
    intro done i st _ _ _ hf _ hsim hd
    exact ⟨by simp [iters, plainRun], by simp [iters, plainRun, hf], hd, fun _ => hsim⟩
  | cons a rest ih =>
    intro done i st hpre hkc hstop hfail hrec hsim hd
    have hk := key_fresh hn hpre
    have hout := F.out a _ _ hsim
    have hnext := F.next a _ _ hsim
    have hfin : final P s0 (done ++ [a]) = (P.solve a (final P s0 done)).1 := by
      rw [final_append]; rfl
    have hpre' : done ++ [a] <+: inputs := by
      refine List.IsPrefix.trans ?_ hpre
      exact ⟨rest, by simp⟩
    -- the state after recording
    let st1 : Session σ D β := { st with keepChecking := false, objs := (P.solve a st.objs).1 }
    let st2 := recordAndWrite P a (P.solve a (final P s0 done)).2.1
      (P.solve a (final P s0 done)).2.2 (w i) st1
    have hiter : iter P a (w i) st = finish st2 (P.solve a (final P s0 done)).2.1
        (P.solve a (final P s0 done)).2.2 := by
      simp only [iter, hkc, hstop, hfail]
      simp only [Bool.or_self, Bool.false_eq_true, ↓reduceIte, Bool.false_and]
      rw [hout]
      simp only [st2, st1, hstop, hfail]
    have hm2 : GoodRec P s0 (done ++ [a]) st2.mem := recordAndWrite_mem (w i) (st := st1) hrec hk
    have hd2 : ∃ p, p <+: inputs ∧ GoodDisk P sim s0 p st2.disk :=
      recordAndWrite_disk (w i) (st := st1) hrec hk hpre' (by rw [hfin]; exact hnext) hd
    obtain ⟨e1, e2, e3, e4, e5⟩ := recordAndWrite_same P a (P.solve a (final P s0 done)).2.1
      (P.solve a (final P s0 done)).2.2 (w i) st1
    replace e1 : st2.rows = st.rows := e1
    replace e2 : st2.stopped = false := e2.trans hstop
    replace e3 : st2.failed = false := e3.trans hfail
    replace e4 : st2.objs = (P.solve a st.objs).1 := e4
    replace e5 : st2.keepChecking = false := e5
    clear_value st2
    simp only [iters, hiter]
    by_cases h0 : (P.solve a (final P s0 done)).2.1 = 0
    · have hst : finish st2 (P.solve a (final P s0 done)).2.1 (P.solve a (final P s0 done)).2.2
          = { st2 with rows := st2.rows ++ [(P.solve a (final P s0 done)).2.2] } := by
        simp [finish, h0]
      rw [hst]
      have := ih (done ++ [a]) (i + 1)
        { st2 with rows := st2.rows ++ [(P.solve a (final P s0 done)).2.2] }
        (by simpa using hpre) e5 e2 e3 hm2
        (by rw [hfin]; simp only [e4]; exact hnext) hd2
      obtain ⟨r1, r2, r3, r4⟩ := this
      refine ⟨?_, ?_, r3, ?_⟩
      · rw [r1, plainRun_cons, if_pos h0, hfin]
        simp [e1]
      · rw [r2, plainRun_cons, if_pos h0, hfin]
      · rw [plainFinal_cons, if_pos h0, ← hfin]; exact r4
    · have hdone : ((finish st2 (P.solve a (final P s0 done)).2.1
          (P.solve a (final P s0 done)).2.2).stopped ||
          (finish st2 (P.solve a (final P s0 done)).2.1
          (P.solve a (final P s0 done)).2.2).failed) = true := by
        simp only [finish, h0, if_false]
        split <;> simp
      rw [iters_done P w _ _ _ hdone]
      refine ⟨?_, ?_, ?_, ?_⟩
      · rw [plainRun_cons, if_neg h0]
        simp only [finish, h0, if_false]
        split <;> simp [e1]
      · rw [plainRun_cons, if_neg h0]
        simp only [finish, h0, if_false]
        by_cases h1 : (P.solve a (final P s0 done)).2.1 = 1
        · simp [h1, e3]
        · simp [h1]
      · simp only [finish, h0, if_false]
        split <;> exact hd2
      · intro _
        rw [plainFinal_cons, if_neg h0]
        simp only [finish, h0, if_false]
        split <;> · simp only [e4]; exact hnext

/-- The part of a session that reads results from the cache. -/
theorem from_cache {P : Prog α σ D β} {sim : σ → σ → Prop} (F : Faithful P sim) {s0 : σ}
    {inputs : List α} (hn : (inputs.map P.key).Nodup) (w : Nat → Bool) :
    ∀ (rest done more : List α) (i : Nat) (st : Session σ D β),
      done ++ rest <+: inputs → done ++ more <+: inputs → st.keepChecking = true →
      st.stopped = false → st.failed = false → GoodDisk P sim s0 (done ++ more) st.mem →
      st.disk = st.mem → st.objs = s0 →
      Outcome P sim s0 inputs done rest st.rows (iters P w i rest st) := by
  intro rest
  induction rest with
  | nil =>
    intro done more i st _ hmore hkc _ hf hg hdisk _
    refine ⟨by simp [iters, plainRun], by simp [iters, plainRun, hf], ⟨done ++ more, hmore, ?_⟩, ?_⟩
    · simp only [iters]; rw [hdisk]; exact hg
    · simp only [iters]; intro h; rw [h] at hkc; cases hkc
  | cons a rest ih =>
    intro done more i st hpre hmore hkc hstop hfail hg hdisk hobj
    cases more with
    | nil =>
      simp only [List.append_nil] at hmore hg
      have hk := key_fresh hn hpre
      have hmiss : check st.mem.computed (P.key a) = false := by
        rw [Bool.eq_false_iff]; intro h; exact hk ((hg.comp _).1 h)
      let o : σ := match st.mem.data with | some d => P.dec d st.objs | none => st.objs
      have ho : sim o (final P s0 done) := by
        simp only [o]
        rcases hg.data with ⟨hd, hnil⟩ | ⟨s, hd, hs⟩
        · rw [hd, hobj, hnil]; exact F.equiv.refl _
        · rw [hd]; exact F.equiv.trans (F.restore s st.objs) hs
      have he : iters P w i (a :: rest) st =
          iters P w i (a :: rest) { st with keepChecking := false, objs := o } := by
        simp only [iters]
        congr 1
        cases hdat : st.mem.data <;> simp [iter, hkc, hstop, hfail, hmiss, o, hdat]
      rw [he]
      exact after_compute F hn w (a :: rest) done i { st with keepChecking := false, objs := o }
        hpre rfl hstop hfail hg.toGoodRec ho ⟨done, hmore, by simpa [hdisk] using hg⟩
    | cons b more =>
      have hab : b = a := by
        obtain ⟨t, ht⟩ := hmore
        obtain ⟨u, hu⟩ := hpre
        rw [← hu] at ht
        simp at ht
        exact ht.1
      subst hab
      have hk := key_fresh hn hpre
      have hhit : check st.mem.computed (P.key b) = true := by
        rw [hg.comp]; simp
      have hlook : lookupRes (P.key b) st.mem.res = some (P.solve b (final P s0 done)).2 := by
        rw [hg.res, resOf_append, lookup_append_none _ _ _ (lookup_resOf_none P _ _ _ hk),
          resOf_cons]
        simp [lookupRes]
      have hiter : iter P b (w i) st = finish st (P.solve b (final P s0 done)).2.1
          (P.solve b (final P s0 done)).2.2 := by
        simp only [iter, hkc, hstop, hfail, hhit, hlook]
        simp
      have hfin : final P s0 (done ++ [b]) = (P.solve b (final P s0 done)).1 := by
        rw [final_append]; rfl
      simp only [iters, hiter]
      by_cases h0 : (P.solve b (final P s0 done)).2.1 = 0
      · have hst : finish st (P.solve b (final P s0 done)).2.1 (P.solve b (final P s0 done)).2.2
            = { st with rows := st.rows ++ [(P.solve b (final P s0 done)).2.2] } := by
          simp [finish, h0]
        rw [hst]
        obtain ⟨r1, r2, r3, r4⟩ := ih (done ++ [b]) more (i + 1)
          { st with rows := st.rows ++ [(P.solve b (final P s0 done)).2.2] }
          (by simpa using hpre) (by simpa using hmore) hkc hstop hfail (by simpa using hg) hdisk
          hobj
        refine ⟨?_, ?_, r3, ?_⟩
        · rw [r1, plainRun_cons, if_pos h0, hfin]
          simp
        · rw [r2, plainRun_cons, if_pos h0, hfin]
        · rw [plainFinal_cons, if_pos h0, ← hfin]; exact r4
      · have hdone : ((finish st (P.solve b (final P s0 done)).2.1
            (P.solve b (final P s0 done)).2.2).stopped ||
            (finish st (P.solve b (final P s0 done)).2.1
            (P.solve b (final P s0 done)).2.2).failed) = true := by
          simp only [finish, h0, if_false]
          split <;> simp
        rw [iters_done P w _ _ _ hdone]
        refine ⟨?_, ?_, ?_, ?_⟩
        · rw [plainRun_cons, if_neg h0]
          simp only [finish, h0, if_false]
          split <;> simp
        · rw [plainRun_cons, if_neg h0]
          simp only [finish, h0, if_false]
          by_cases h1 : (P.solve b (final P s0 done)).2.1 = 1
          · simp [h1, hfail]
          · simp [h1]
        · refine ⟨done ++ b :: more, hmore, ?_⟩
          simp only [finish, h0, if_false]
          split <;> · simp only; rw [hdisk]; exact hg
        · simp only [finish, h0, if_false]
          split <;> · intro h; simp only [hkc] at h; cases h

theorem session_outcome {P : Prog α σ D β} {sim : σ → σ → Prop} (F : Faithful P sim) {s0 : σ}
    {inputs : List α} (hn : (inputs.map P.key).Nodup) (w : Nat → Bool) (kill : Nat)
    {p : List α} (hp : p <+: inputs) {disk : Cache D β} (hd : GoodDisk P sim s0 p disk) :
    Outcome P sim s0 inputs [] (inputs.take kill) [] (session P s0 inputs w kill disk) :=
  from_cache F hn w (inputs.take kill) [] p 0 (startSession s0 disk)
    (by simpa using List.take_prefix _ _) (by simpa using hp) rfl rfl rfl hd rfl rfl

theorem killed_good {P : Prog α σ D β} {sim : σ → σ → Prop} (F : Faithful P sim) {s0 : σ}
    {inputs : List α} (hn : (inputs.map P.key).Nodup) (kills : List ((Nat → Bool) × Nat)) :
    ∀ (p : List α), p <+: inputs → ∀ (disk : Cache D β), GoodDisk P sim s0 p disk →
    ∃ p', p' <+: inputs ∧ GoodDisk P sim s0 p' (killedSessions P s0 inputs kills disk) := by
  induction kills with
  | nil => intro p hp disk hd; exact ⟨p, hp, hd⟩
  | cons k kills ih =>
    intro p hp disk hd
    obtain ⟨w, n⟩ := k
    obtain ⟨p', hp', hd'⟩ := (session_outcome F hn w n hp hd).disk
    exact ih p' hp' _ hd'

end Run
end Phyem.Iterator
