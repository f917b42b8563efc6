import Verif.Adaptive.Fresh

/-! Systems are made for the current generation. -/

namespace Phyem.Adaptive

lemma opsOf_append (p q : List SOp) : opsOf (p ++ q) = opsOf p ++ opsOf q := by
  induction p with
  | nil => rfl
  | cons a p ih => cases a <;> simp [opsOf, ih]

lemma condsOf_append (p q : List SOp) : condsOf (p ++ q) = condsOf p ++ condsOf q := by
  induction p with
  | nil => rfl
  | cons a p ih => cases a <;> simp [condsOf, ih]

lemma mem_condsOf {l : List SOp} {c : Cond} (h : c ∈ condsOf l) : SOp.config c ∈ l := by
  induction l with
  | nil => simp [condsOf] at h
  | cons a l ih =>
    cases a with
    | op o => exact List.mem_cons_of_mem _ (ih h)
    | apply => exact List.mem_cons_of_mem _ (ih h)
    | config d =>
      rw [condsOf, List.mem_cons] at h
      rcases h with rfl | h
      · simp
      · exact List.mem_cons_of_mem _ (ih h)

/-- What the current generation's system was made of. -/
def Made (S : Setup) (l : List SOp) (x : Adaptive) : Prop :=
  ∀ g, x.genCache = some g → ∃ p q, l = p ++ SOp.apply :: q ∧ renewals S p = some g ∧
    x.dynCache = some (systemAt S g (condsOf p)) ∧
    ∀ p' q', l = p' ++ SOp.apply :: q' → renewals S p' = some g → p.length ≤ p'.length

/-- The state after calls. -/
structure SInv (S : Setup) (l : List SOp) (x : State × Adaptive) (a : Seen) : Prop where
  run : Seen.run S (opsOf l) {} = some a
  inv : Inv S x.1 a
  conds : x.2.conds = condsOf l
  made : Made S l x.2
  older : ∀ p q, l = p ++ SOp.apply :: q → ∃ g, renewals S p = some g ∧ g ≤ a.count ∧ (x.2.genCache = some a.count ∨ g < a.count)

lemma run_append (S : Setup) (p q : List Op) (a : Seen) : Seen.run S (p ++ q) a = (Seen.run S p a).bind (Seen.run S q) := by
  unfold Seen.run
  rw [List.foldlM_append]
  rfl

lemma count_le {S : Setup} {a a' : Seen} {op : Op} (h : a.step S op = some a') : a.count ≤ a'.count := by
  cases op with
  | renew s => rw [← Option.some.inj h]; exact Nat.le_succ _
  | read k s d =>
    unfold Seen.step at h
    dsimp only at h
    split_ifs at h
    · rw [← Option.some.inj h]
    · rw [← Option.some.inj h]; exact Nat.le_succ _
  | setCf k v =>
    unfold Seen.step at h
    dsimp only at h
    split_ifs at h
    rw [← Option.some.inj h]
  | base =>
    unfold Seen.step at h
    dsimp only at h
    split_ifs at h
    rw [← Option.some.inj h]

lemma apply_eq {S : Setup} (hS : Right S) {l : List SOp} (hl : ∀ o ∈ l, SOp.Fits S o) {x : State × Adaptive} {a : Seen}
    (h : SInv S l x a) :
    (a.count = 0 → x.2.apply S x.1 = none) ∧
      (a.count ≠ 0 → ∃ st', Inv S st' a ∧ x.2.apply S x.1 =
        if x.2.genCache = some a.count then x.2.dynCache.map fun d => (st', x.2, d)
        else some (st', { x.2 with genCache := some a.count, dynCache := some (systemAt S a.count (condsOf l)) },
          systemAt S a.count (condsOf l))) := by
  constructor
  · intro hc
    unfold Adaptive.apply
    rw [(h.inv.currentBase hS).1 hc]
    rfl
  · intro hc
    obtain ⟨st', h1, h2⟩ := (h.inv.currentBase hS).2 hc
    obtain ⟨n, hn⟩ := Nat.exists_eq_succ_of_ne_zero hc
    rw [Nat.succ_eq_add_one] at hn
    refine ⟨st', h2, ?_⟩
    unfold Adaptive.apply
    rw [h1]
    simp only [Option.bind_some]
    rw [h.conds, mapM_some _ (fun c => (c, n, n + 1))]
    · rw [hn]
      rfl
    · intro c hc'
      obtain ⟨⟨m, hm, hmk⟩, f, hf, hfk⟩ := hl _ (mem_condsOf hc')
      obtain ⟨o, ho, hof⟩ := form_current h.inv hn hf
      rw [← hmk, ← hfk, h.inv.mesh m hm, hn, meshAt_current, ho]
      simp [hof.birth]

lemma snoc_split {l p q : List SOp} {o : SOp} (h : l ++ [o] = p ++ SOp.apply :: q) :
    (p = l ∧ o = SOp.apply ∧ q = []) ∨ ∃ q', q = q' ++ [o] ∧ l = p ++ SOp.apply :: q' := by
  rcases List.eq_nil_or_concat q with rfl | ⟨q', b, rfl⟩
  · obtain ⟨h1, h2⟩ := List.append_inj' h rfl
    exact .inl ⟨h1.symm, by simpa using h2, rfl⟩
  · right
    rw [List.concat_eq_append] at h ⊢
    rw [show p ++ SOp.apply :: (q' ++ [b]) = (p ++ SOp.apply :: q') ++ [b] by simp] at h
    obtain ⟨h1, h2⟩ := List.append_inj' h rfl
    exact ⟨q', by simpa using h2.symm, h1⟩

lemma SInv.step {S : Setup} (hS : Right S) {l : List SOp} (hl : ∀ o ∈ l, SOp.Fits S o) {x : State × Adaptive} {a : Seen}
    (h : SInv S l x a) {o : SOp} (ho : o.Fits S) :
    (Seen.run S (opsOf (l ++ [o])) {} = none ∧ sstep S x o = none) ∨
      ∃ a' x', sstep S x o = some x' ∧ SInv S (l ++ [o]) x' a' := by
  cases o with
  | op o =>
    have hr : Seen.run S (opsOf (l ++ [.op o])) {} = a.step S o := by
      rw [opsOf_append, run_append, h.run]
      show (a.step S o).bind _ = a.step S o
      cases a.step S o <;> rfl
    rcases h.inv.step hS ho with ⟨h1, h2⟩ | ⟨a', st', h1, h2, h3⟩
    · refine .inl ⟨by rw [hr, h1], ?_⟩
      show (Adaptive.step S x.1 o).map _ = none
      rw [h2]
      rfl
    · refine .inr ⟨a', (st', x.2), by show (Adaptive.step S x.1 o).map _ = _; rw [h2]; rfl, ⟨by rw [hr, h1], h3, ?_, ?_, ?_⟩⟩
      · rw [condsOf_append, h.conds]
        simp [condsOf]
      · intro g hg
        obtain ⟨p, q, h4, h5, h6, h7⟩ := h.made g hg
        refine ⟨p, q ++ [.op o], by rw [h4]; simp, h5, h6, ?_⟩
        intro p' q' hpq hp'
        rcases snoc_split hpq with ⟨_, hh, _⟩ | ⟨q'', _, h8⟩
        · simp at hh
        · exact h7 p' q'' h8 hp'
      · intro p q hpq
        rcases snoc_split hpq with ⟨_, hh, _⟩ | ⟨q'', _, h8⟩
        · simp at hh
        · obtain ⟨g, h9, h10, h11⟩ := h.older p q'' h8
          have hle := count_le h1
          refine ⟨g, h9, by omega, ?_⟩
          rcases h11 with h11 | h11
          · rcases Nat.lt_or_ge a.count a'.count with hlt | hge
            · right; omega
            · left
              have : a.count = a'.count := by omega
              rw [← this]
              exact h11
          · right; omega
  | config c =>
    refine .inr ⟨a, _, rfl, ⟨?_, h.inv, ?_, ?_, ?_⟩⟩
    · rw [opsOf_append, run_append, h.run]
      rfl
    · rw [condsOf_append, ← h.conds]
      rfl
    · intro g hg
      obtain ⟨p, q, h4, h5, h6, h7⟩ := h.made g hg
      refine ⟨p, q ++ [.config c], by rw [h4]; simp, h5, h6, ?_⟩
      intro p' q' hpq hp'
      rcases snoc_split hpq with ⟨_, hh, _⟩ | ⟨q'', _, h8⟩
      · simp at hh
      · exact h7 p' q'' h8 hp'
    · intro p q hpq
      rcases snoc_split hpq with ⟨_, hh, _⟩ | ⟨q'', _, h8⟩
      · simp at hh
      · exact h.older p q'' h8
  | apply =>
    have hr : Seen.run S (opsOf (l ++ [.apply])) {} = a.step S .base := by
      rw [opsOf_append, run_append, h.run]
      show (a.step S .base).bind _ = a.step S .base
      cases a.step S .base <;> rfl
    have hrl : renewals S l = some a.count := by
      unfold renewals
      rw [h.run]
      rfl
    by_cases hc : a.count = 0
    · refine .inl ⟨by rw [hr]; exact if_pos hc, ?_⟩
      show (x.2.apply S x.1).map _ = none
      rw [(apply_eq hS hl h).1 hc]
      rfl
    · obtain ⟨st', h1, h2⟩ := (apply_eq hS hl h).2 hc
      by_cases hg : x.2.genCache = some a.count
      · obtain ⟨p, q, h4, h5, h6, h7⟩ := h.made _ hg
        rw [if_pos hg, h6] at h2
        refine .inr ⟨a, (st', x.2), by show (x.2.apply S x.1).map _ = _; rw [h2]; rfl, ⟨by rw [hr]; exact if_neg hc, h1, ?_, ?_, ?_⟩⟩
        · rw [condsOf_append, h.conds]
          simp [condsOf]
        · intro g hg'
          obtain ⟨p, q, h4, h5, h6, h7⟩ := h.made g hg'
          refine ⟨p, q ++ [.apply], by rw [h4]; simp, h5, h6, ?_⟩
          intro p' q' hpq hp'
          rcases snoc_split hpq with ⟨hh, _, _⟩ | ⟨q'', _, h8⟩
          · rw [hh, h4]
            simp
          · exact h7 p' q'' h8 hp'
        · intro p q hpq
          rcases snoc_split hpq with ⟨hh, _, _⟩ | ⟨q'', _, h8⟩
          · exact ⟨a.count, by rw [hh]; exact hrl, le_refl _, .inl hg⟩
          · exact h.older p q'' h8
      · rw [if_neg hg] at h2
        refine .inr ⟨a, _, by show (x.2.apply S x.1).map _ = _; rw [h2]; rfl, ⟨by rw [hr]; exact if_neg hc, h1, ?_, ?_, ?_⟩⟩
        · rw [condsOf_append, ← h.conds]
          simp [condsOf]
        · intro g hg'
          have hga : a.count = g := by simpa using hg'
          refine ⟨l, [], rfl, by rw [← hga]; exact hrl, by rw [← hga], ?_⟩
          intro p' q' hpq hp'
          rcases snoc_split hpq with ⟨hh, _, _⟩ | ⟨q'', _, h8⟩
          · rw [hh]
          · exfalso
            obtain ⟨g', h9, h10, h11⟩ := h.older p' q'' h8
            have hgg : g' = g := by
              rw [hp'] at h9
              exact (Option.some.inj h9).symm
            rcases h11 with h11 | h11
            · exact hg h11
            · omega
        · intro p q hpq
          rcases snoc_split hpq with ⟨hh, _, _⟩ | ⟨q'', _, h8⟩
          · exact ⟨a.count, by rw [hh]; exact hrl, le_refl _, .inl rfl⟩
          · obtain ⟨g, h9, h10, _⟩ := h.older p q'' h8
            exact ⟨g, h9, h10, .inl rfl⟩

lemma SInv.srun {S : Setup} (hS : Right S) (l : List SOp) (hl : ∀ o ∈ l, SOp.Fits S o) :
    (Seen.run S (opsOf l) {} = none ∧ Adaptive.srun S l = none) ∨
      ∃ a x, Adaptive.srun S l = some x ∧ SInv S l x a := by
  induction l using List.reverseRecOn with
  | nil => exact .inr ⟨{}, ({}, {}), rfl, ⟨rfl, Inv.init S, rfl, fun g hg => by simp at hg, fun p q h => by simp at h⟩⟩
  | append_singleton l o ih =>
    have e : Adaptive.srun S (l ++ [o]) = (Adaptive.srun S l).bind fun x => sstep S x o := by
      unfold Adaptive.srun
      rw [List.foldlM_append]
      cases List.foldlM (sstep S) ({}, {}) l with
      | none => rfl
      | some x =>
        show (sstep S x o).bind _ = sstep S x o
        cases sstep S x o <;> rfl
    rcases ih fun o h => hl o (by simp [h]) with ⟨h1, h2⟩ | ⟨a, x, h1, h2⟩
    · exact .inl ⟨by rw [opsOf_append, run_append, h1]; rfl, by rw [e, h2]; rfl⟩
    · rcases h2.step hS (fun o h => hl o (by simp [h])) (hl o (by simp)) with ⟨h3, h4⟩ | ⟨a', x', h3, h4⟩
      · exact .inl ⟨h3, by rw [e, h1]; exact h4⟩
      · exact .inr ⟨a', x', by rw [e, h1]; exact h3, h4⟩

/-- C132 (partial: for setups that are right, and conditions that are configured before `apply` is called). `apply` raises
before the first renewal and nowhere else; the first time it is called since the last renewal, it returns the system of the
newest generation, with all the conditions that were configured, on the current meshes and for the current forms. Called again
before the next renewal, it returns that system, whatever was configured since. -/
theorem apply_partial {S : Setup} (hS : Right S) (l : List SOp) (hl : ∀ o ∈ l, SOp.Fits S o) :
    (∀ n, renewals S l = some n → n ≠ 0 →
      ((∀ p q, l = p ++ SOp.apply :: q → renewals S p ≠ some n) → applyAfter S l = some (systemAt S n (condsOf l))) ∧
      (∀ p q, l = p ++ SOp.apply :: q → renewals S p = some n → applyAfter S l = applyAfter S p ∧
        applyAfter S p ≠ none)) ∧
      ((renewals S l = none ∨ renewals S l = some 0) → applyAfter S l = none) := by
  have main : ∀ l : List SOp, (∀ o ∈ l, SOp.Fits S o) → ∀ n, renewals S l = some n → n ≠ 0 →
      (applyAfter S l = some (systemAt S n (condsOf l)) ∧ ∀ p q, l = p ++ SOp.apply :: q → renewals S p ≠ some n) ∨
        ∃ p q, l = p ++ SOp.apply :: q ∧ renewals S p = some n ∧ applyAfter S l = some (systemAt S n (condsOf p)) ∧
          ∀ p' q', l = p' ++ SOp.apply :: q' → renewals S p' = some n → p.length ≤ p'.length := by
    intro l hl n hn hn0
    rcases SInv.srun hS l hl with ⟨h1, _⟩ | ⟨a, x, h1, h2⟩
    · unfold renewals at hn
      rw [h1] at hn
      simp at hn
    · have hna : a.count = n := by
        unfold renewals at hn
        rw [h2.run] at hn
        simpa using hn
      obtain ⟨st', _, h4⟩ := (apply_eq hS hl h2).2 (by omega)
      by_cases hg : x.2.genCache = some a.count
      · right
        obtain ⟨p, q, h5, h6, h7, h8⟩ := h2.made _ hg
        rw [hna] at h6 h7 h8
        refine ⟨p, q, h5, h6, ?_, h8⟩
        unfold applyAfter
        rw [h1]
        simp only [Option.bind_some]
        rw [h4, if_pos hg, h7]
        rfl
      · left
        constructor
        · unfold applyAfter
          rw [h1]
          simp only [Option.bind_some]
          rw [h4, if_neg hg, hna]
          rfl
        · intro p q hpq hp
          obtain ⟨g, h5, _, h7⟩ := h2.older p q hpq
          rw [hp] at h5
          have : n = g := by simpa using h5
          rcases h7 with h7 | h7
          · exact hg h7
          · omega
  constructor
  · intro n hn hn0
    constructor
    · intro hno
      rcases main l hl n hn hn0 with ⟨h1, _⟩ | ⟨p, q, h1, h2, _⟩
      · exact h1
      · exact absurd h2 (hno p q h1)
    · intro p q hpq hp
      have hlp : ∀ o ∈ p, SOp.Fits S o := fun o ho => hl o (by rw [hpq]; simp [ho])
      rcases main l hl n hn hn0 with ⟨_, h2⟩ | ⟨p1, q1, h1, h2, h3, h4⟩
      · exact absurd hp (h2 p q hpq)
      · rcases main p hlp n hp hn0 with ⟨h5, h6⟩ | ⟨p2, q2, h5, h6, h7, h8⟩
        · -- `p` ends at the first call
          have hlen := h4 p q hpq hp
          have : p1 = p := by
            rcases List.append_eq_append_iff.1 (h1.symm.trans hpq) with ⟨r, hr1, hr2⟩ | ⟨r, hr1, hr2⟩
            · cases r with
              | nil => simpa using hr1.symm
              | cons o r =>
                exfalso
                rw [List.cons_append, List.cons.injEq] at hr2
                rw [← hr2.1] at hr1
                exact h6 p1 r hr1 h2
            · have : r = [] := by
                rw [hr1, List.length_append] at hlen
                exact List.length_eq_zero_iff.1 (by omega)
              rw [this] at hr1
              simpa using hr1
          rw [h3, h5, this]
          exact ⟨rfl, by simp⟩
        · have hp2 : l = p2 ++ SOp.apply :: (q2 ++ SOp.apply :: q) := by
            rw [hpq, h5]
            simp
          have a1 := h4 p2 _ hp2 h6
          have hp1 : p1 = p2 := by
            rcases List.append_eq_append_iff.1 (h1.symm.trans hp2) with ⟨r, hr1, hr2⟩ | ⟨r, hr1, hr2⟩
            · cases r with
              | nil => simpa using hr1.symm
              | cons o r =>
                exfalso
                rw [List.cons_append, List.cons.injEq] at hr2
                rw [← hr2.1] at hr1
                have := h8 p1 (r ++ SOp.apply :: q2) (by rw [h5, hr1]; simp) h2
                rw [hr1] at this
                simp at this
                omega
            · have : r = [] := by
                rw [hr1, List.length_append] at a1
                exact List.length_eq_zero_iff.1 (by omega)
              rw [this] at hr1
              simpa using hr1
          rw [h3, h7, hp1]
          exact ⟨rfl, by simp⟩
  · intro h0
    rcases SInv.srun hS l hl with ⟨_, h2⟩ | ⟨a, x, h1, h2⟩
    · unfold applyAfter
      rw [h2]
      rfl
    · have : a.count = 0 := by
        unfold renewals at h0
        rw [h2.run] at h0
        simpa using h0
      unfold applyAfter
      rw [h1]
      simp only [Option.bind_some]
      rw [(apply_eq hS hl h2).1 this]
      rfl

end Phyem.Adaptive
