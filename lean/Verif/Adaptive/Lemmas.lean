import Verif.Adaptive.Spec
import Mathlib.Data.List.Range
import Mathlib.Data.List.Nodup
import Mathlib.Data.List.Forall2

/-! Generations, and the loops of a renewal one after another. -/

namespace Phyem.Adaptive

/-! ### Generations -/

/-- What is kept before a new generation is added. -/
def keep {A : Type} (l : List A) : List A :=
  if maxGenerations ≤ l.length then l.drop (l.length - (maxGenerations - 1)) else l

lemma lastTwo_two (n : ℕ) : lastTwo (n + 2) = [n, n + 1] := by
  unfold lastTwo
  rw [List.range_succ, List.range_succ, List.append_assoc, List.drop_append]
  simp

lemma keep_lastTwo (n : ℕ) : keep (lastTwo n) ++ [n] = lastTwo (n + 1) := by
  match n with
  | 0 => rfl
  | 1 => rfl
  | n + 2 => rw [lastTwo_two, lastTwo_two (n + 1)]; rfl

lemma keep_map {A B : Type} (f : A → B) (l : List A) : keep (l.map f) = (keep l).map f := by
  unfold keep
  split_ifs with h1 h2 h2
  · simp [List.map_drop]
  · simp at h1; omega
  · simp at h1; omega
  · rfl

lemma renew_map {A : Type} (F : ℕ → A) (n : ℕ) :
    Top.renew ⟨(lastTwo n).map F, n⟩ (F n) = ⟨(lastTwo (n + 1)).map F, n + 1⟩ := by
  have h : Top.renew ⟨(lastTwo n).map F, n⟩ (F n) = ⟨keep ((lastTwo n).map F) ++ [F n], n + 1⟩ := rfl
  rw [h, keep_map, ← keep_lastTwo]
  simp

lemma forall₂_drop {A B : Type} {R : A → B → Prop} {l : List A} {l' : List B} (h : List.Forall₂ R l l') (n : ℕ) :
    List.Forall₂ R (l.drop n) (l'.drop n) := by
  induction h generalizing n with
  | nil => simp
  | cons a b ih =>
    cases n with
    | zero => exact .cons a b
    | succ n => exact ih n

lemma forall₂_keep {A B : Type} {R : A → B → Prop} {l : List A} {l' : List B} (h : List.Forall₂ R l l') :
    List.Forall₂ R (keep l) (keep l') := by
  unfold keep
  rw [h.length_eq]
  split_ifs
  · exact forall₂_drop h _
  · exact h

lemma forall₂_snoc {A B : Type} {R : A → B → Prop} {l : List A} {l' : List B} {a : A} {b : B} (h : List.Forall₂ R l l')
    (hab : R a b) : List.Forall₂ R (l ++ [a]) (l' ++ [b]) := by
  induction h with
  | nil => exact .cons hab .nil
  | cons x _ ih => exact .cons x ih

lemma forall₂_last {A B : Type} {R : A → B → Prop} {l : List A} {l' : List B} {a : A} {b : B}
    (h : List.Forall₂ R (l ++ [a]) (l' ++ [b])) : List.Forall₂ R l l' ∧ R a b := by
  induction l generalizing l' with
  | nil =>
    cases l' with
    | nil => cases h with | cons x _ => exact ⟨.nil, x⟩
    | cons c l' =>
      exfalso
      have := h.length_eq
      simp at this
  | cons c l ih =>
    cases l' with
    | nil =>
      exfalso
      have := h.length_eq
      simp at this
    | cons d l' =>
      cases h with
      | cons x y => exact ⟨.cons x (ih y).1, (ih y).2⟩

/-- The last of a list, if it is not empty, is kept. -/
lemma keep_last {A : Type} (l : List A) : (keep l).getLast? = l.getLast? := by
  unfold keep
  split_ifs with h
  · rw [List.getLast?_drop]
    have : maxGenerations = 2 := rfl
    rw [if_neg (by omega)]
  · rfl

/-- A top form with a new generation. -/
def newTop (t : Top PForm) (x : PForm) : Top PForm := ⟨keep t.gens ++ [x], t.total + 1⟩

/-- The new generation of a form, before it is linked. -/
def x0 (t : Top PForm) : PForm := ⟨t.total + 1, none, none, none, t.current.bind fun o => o.cf, none, [], none⟩

lemma newTop_current (t : Top PForm) (x : PForm) : (newTop t x).current = some x := by simp [newTop, Top.current]

lemma newTop_modify (t : Top PForm) (x : PForm) (f : PForm → PForm) : (newTop t x).modify f = newTop t (f x) := by
  rw [Top.modify, newTop_current]
  simp [newTop]

lemma newTop_previous (t : Top PForm) (x : PForm) : (newTop t x).previous = t.current := by
  unfold Top.previous newTop Top.current
  dsimp only
  rw [← keep_last]
  split_ifs with h
  · rw [List.length_append] at h ⊢
    rw [List.getLast?_eq_getElem?, List.getElem?_append_left (by simp at h ⊢; omega)]
    simp
  · simp at h
    rw [show keep t.gens = [] from h]
    rfl

lemma renewForm_eq (t : Top PForm) : renewForm t = newTop t (x0 t) := by
  unfold renewForm
  have h : t.renew ⟨t.total + 1, none, none, none, none, none, [], none⟩ =
    newTop t ⟨t.total + 1, none, none, none, none, none, [], none⟩ := rfl
  dsimp only
  rw [h, newTop_previous]
  cases hc : t.current with
  | none =>
    dsimp only
    rw [ite_self]
    simp [x0, hc]
  | some old =>
    dsimp only
    have hl : (newTop t ⟨t.total + 1, none, none, none, none, none, [], none⟩).gens.length > 1 := by
      have : (keep t.gens).getLast? ≠ none := by
        rw [keep_last]
        show t.current ≠ none
        simp [hc]
      have h2 : keep t.gens ≠ [] := by
        intro h
        rw [h] at this
        exact this rfl
      have := List.length_pos_iff.2 h2
      simp [newTop]
      omega
    rw [if_pos hl]
    split_ifs with h3
    · simp [x0, hc, h3]
    · rw [newTop_modify]
      simp [x0, hc]

/-! ### Meshes -/

lemma mapM_some {A B : Type} (f : A → Option B) (g : A → B) (L : List A) (h : ∀ x ∈ L, f x = some (g x)) :
    L.mapM f = some (L.map g) := by
  induction L with
  | nil => rfl
  | cons a L ih =>
    rw [List.mapM_cons, h a (by simp), ih fun x hx => h x (by simp [hx])]
    rfl

/-- A mesh after `n` renewals. -/
def meshAt (n : ℕ) (m : MeshOf) : Top PMesh := ⟨(lastTwo n).map fun g => ⟨g, m.including.map fun k => (k, g)⟩, n⟩

lemma lastTwo_last (n : ℕ) : (lastTwo (n + 1)).getLast? = some n := by
  rw [← keep_lastTwo]
  simp

lemma meshAt_current (n : ℕ) (m : MeshOf) : (meshAt (n + 1) m).current = some ⟨n, m.including.map fun k => (k, n)⟩ := by
  simp [meshAt, Top.current, lastTwo_last]

lemma meshes_loop (n : ℕ) (st : ℕ → Top PMesh) (post : List MeshOf) :
    ∀ (pre : List MeshOf) (st' : ℕ → Top PMesh), ((pre ++ post).map fun m => m.key).Nodup →
      (∀ p m q, pre ++ post = p ++ m :: q → ∀ k ∈ m.including, k ∈ p.map fun m => m.key) →
      (∀ m ∈ pre, st' m.key = meshAt (n + 1) m) → (∀ m ∈ post, st' m.key = meshAt n m) →
      ∃ st'', post.foldlM (renewMesh n) st' = some st'' ∧ ∀ m ∈ pre ++ post, st'' m.key = meshAt (n + 1) m := by
  induction post with
  | nil => intro pre st' _ _ h1 _; exact ⟨st', rfl, by simpa using h1⟩
  | cons m post ih =>
    intro pre st' hn hb h1 h2
    have hinc : (m.including.mapM fun k => (st' k).current.map fun o => (k, o.tgm)) =
        some (m.including.map fun k => (k, n)) := by
      apply mapM_some
      intro k hk
      obtain ⟨p, hp, rfl⟩ := List.mem_map.1 (hb pre m post rfl k hk)
      rw [h1 p hp, meshAt_current]
      rfl
    have hstep : renewMesh n st' m = some (Function.update st' m.key (meshAt (n + 1) m)) := by
      unfold renewMesh
      rw [hinc, h2 m (by simp)]
      have := renew_map (fun g => (⟨g, m.including.map fun k => (k, g)⟩ : PMesh)) n
      simp only [Option.map_some]
      unfold meshAt
      rw [← this]
    have hne : ∀ p ∈ pre ++ post, p.key ≠ m.key := by
      intro p hp he
      rw [List.map_append, List.map_cons] at hn
      have := (List.nodup_middle.1 hn)
      rw [List.nodup_cons] at this
      apply this.1
      rw [← List.map_append, ← he]
      exact List.mem_map_of_mem hp
    obtain ⟨st'', h3, h4⟩ := ih (pre ++ [m]) (Function.update st' m.key (meshAt (n + 1) m)) (by simpa using hn)
      (by simpa using hb) (by
        intro p hp
        rw [List.mem_append] at hp
        rcases hp with hp | hp
        · rw [Function.update_of_ne (hne p (by simp [hp]))]
          exact h1 p hp
        · rw [List.mem_singleton.1 hp, Function.update_self]) (by
        intro p hp
        rw [Function.update_of_ne (hne p (by simp [hp]))]
        exact h2 p (by simp [hp]))
    refine ⟨st'', ?_, by simpa using h4⟩
    rw [List.foldlM_cons, hstep]
    exact h3

/-! ### Spaces -/

/-- A space after `n` renewals. -/
def spaceAt (n : ℕ) (s : SpaceOf) : Top PSpace := ⟨(lastTwo n).map fun g => ⟨(s.mesh, g)⟩, n⟩

lemma spaceAt_current (n : ℕ) (s : SpaceOf) : (spaceAt (n + 1) s).current = some ⟨(s.mesh, n)⟩ := by
  simp [spaceAt, Top.current, lastTwo_last]

lemma spaces_loop (n : ℕ) (mesh : ℕ → Top PMesh) (post : List SpaceOf) :
    ∀ (st' : ℕ → Top PSpace), (post.map fun s => s.key).Nodup → (∀ s ∈ post, s.isUnknown = false) →
      (∀ s ∈ post, (mesh s.mesh).total = n + 1 ∧ ∃ o, (mesh s.mesh).current = some o ∧ o.tgm = n) →
      (∀ s ∈ post, st' s.key = spaceAt n s) →
      ∃ st'', post.foldlM (renewSpace mesh) st' = some st'' ∧ (∀ s ∈ post, st'' s.key = spaceAt (n + 1) s) ∧
        ∀ k, k ∉ post.map (fun s => s.key) → st'' k = st' k := by
  induction post with
  | nil => intro st' _ _ _ _; exact ⟨st', rfl, by simp, by simp⟩
  | cons s post ih =>
    intro st' hn hu hm h2
    rw [List.map_cons, List.nodup_cons] at hn
    obtain ⟨ht, o, ho, htg⟩ := hm s (by simp)
    have hstep : renewSpace mesh st' s = some (Function.update st' s.key (spaceAt (n + 1) s)) := by
      unfold renewSpace
      rw [if_neg (by simp [hu s (by simp)]), h2 s (by simp), ho, if_pos (by rw [ht]; rfl)]
      have := renew_map (fun g => (⟨(s.mesh, g)⟩ : PSpace)) n
      simp only [Option.map_some]
      unfold spaceAt
      rw [← this, htg]
    have hne : ∀ p ∈ post, p.key ≠ s.key := fun p hp he => hn.1 (he ▸ List.mem_map_of_mem hp)
    obtain ⟨st'', h3, h4, h5⟩ := ih (Function.update st' s.key (spaceAt (n + 1) s)) hn.2 (fun p hp => hu p (by simp [hp]))
      (fun p hp => hm p (by simp [hp])) (by
        intro p hp
        rw [Function.update_of_ne (hne p hp)]
        exact h2 p (by simp [hp]))
    refine ⟨st'', ?_, ?_, ?_⟩
    · rw [List.foldlM_cons, hstep]
      exact h3
    · intro p hp
      rw [List.mem_cons] at hp
      rcases hp with rfl | hp
      · rw [h5 _ hn.1, Function.update_self]
      · exact h4 p hp
    · intro k hk
      rw [List.map_cons, List.mem_cons, not_or] at hk
      rw [h5 k hk.2, Function.update_of_ne hk.1]

/-! ### Forms -/

lemma general_loop (L : List FormOf) : ∀ (st : ℕ → Top PForm), (L.map fun f => f.key).Nodup →
    (∀ f ∈ L, (L.foldl renewGeneral st) f.key = if f.base = none then renewForm (st f.key) else st f.key) ∧
      ∀ k, k ∉ L.map (fun f => f.key) → (L.foldl renewGeneral st) k = st k := by
  induction L with
  | nil => intro st _; simp
  | cons g L ih =>
    intro st hn
    rw [List.map_cons, List.nodup_cons] at hn
    have hk : ∀ k, k ≠ g.key → renewGeneral st g k = st k := by
      intro k hk
      unfold renewGeneral
      split_ifs
      · rw [Function.update_of_ne hk]
      · rfl
    obtain ⟨h1, h2⟩ := ih (renewGeneral st g) hn.2
    rw [List.foldl_cons]
    constructor
    · intro f hf
      rw [List.mem_cons] at hf
      rcases hf with rfl | hf
      · rw [h2 _ hn.1]
        unfold renewGeneral
        split_ifs <;> simp
      · rw [h1 f hf, hk f.key fun he => hn.1 (he ▸ List.mem_map_of_mem hf)]
    · intro k hkk
      rw [List.map_cons, List.mem_cons, not_or] at hkk
      rw [h2 k hkk.2, hk k hkk.1]

/-- The new generation of a form that is not at a time instant, when the forms of `L` have been gone through. -/
def general (L : List FormOf) (k : ℕ) (t : Top PForm) : PForm :=
  { x0 t with ats := (L.filter fun i => i.base = some k).map fun i => i.key }

/-- The new generation of a form at a time instant. -/
def instant (st : ℕ → Top PForm) (b : ℕ) (t : Top PForm) : PForm := { x0 t with base := some (b, (st b).total + 1) }

lemma key_inj {L : List FormOf} (h : (L.map fun f => f.key).Nodup) {f g : FormOf} (hf : f ∈ L) (hg : g ∈ L)
    (he : f.key = g.key) : f = g :=
  List.inj_on_of_nodup_map h hf hg he

lemma instants_loop (st : ℕ → Top PForm) (post : List FormOf) :
    ∀ (pre : List FormOf) (st' : ℕ → Top PForm), ((pre ++ post).map fun f => f.key).Nodup →
      (∀ f ∈ pre ++ post, ∀ b, f.base = some b → ∃ g ∈ pre ++ post, g.key = b ∧ g.base = none) →
      (∀ f ∈ pre ++ post, f.base = none → st' f.key = newTop (st f.key) (general pre f.key (st f.key))) →
      (∀ f ∈ pre, ∀ b, f.base = some b → st' f.key = newTop (st f.key) (instant st b (st f.key))) →
      (∀ f ∈ post, ∀ b, f.base = some b → st' f.key = st f.key) →
      ∃ st'', post.foldlM renewInstant st' = some st'' ∧
        (∀ f ∈ pre ++ post, f.base = none → st'' f.key = newTop (st f.key) (general (pre ++ post) f.key (st f.key))) ∧
        ∀ f ∈ pre ++ post, ∀ b, f.base = some b → st'' f.key = newTop (st f.key) (instant st b (st f.key)) := by
  induction post with
  | nil => intro pre st' _ _ h1 h2 _; exact ⟨st', rfl, by simpa using h1, by simpa using h2⟩
  | cons f post ih =>
    intro pre st' hn hb h1 h2 h3
    have hfm : f ∈ pre ++ f :: post := by simp
    have hassoc : pre ++ f :: post = pre ++ [f] ++ post := by simp
    cases hbase : f.base with
    | none =>
      have hstep : renewInstant st' f = some st' := by
        unfold renewInstant
        rw [hbase]
      rw [List.foldlM_cons, hstep]
      have hgen : ∀ k t, general (pre ++ [f]) k t = general pre k t := by
        intro k t
        simp [general, List.filter_append, List.filter_cons, hbase]
      obtain ⟨st'', h4, h5, h6⟩ := ih (pre ++ [f]) st' (by rw [← hassoc]; exact hn) (by rw [← hassoc]; exact hb)
        (by
          rw [← hassoc]
          intro g hg hgb
          rw [hgen]
          exact h1 g hg hgb)
        (by
          intro g hg b hgb
          rw [List.mem_append] at hg
          rcases hg with hg | hg
          · exact h2 g hg b hgb
          · rw [List.mem_singleton.1 hg, hbase] at hgb
            simp at hgb)
        (fun g hg b hgb => h3 g (by simp [hg]) b hgb)
      rw [← hassoc] at h5 h6
      exact ⟨st'', h4, h5, h6⟩
    | some b =>
      obtain ⟨g0, hg0, hk0, hb0⟩ := hb f hfm b hbase
      have hst : st' b = newTop (st b) (general pre b (st b)) := by
        rw [← hk0]
        exact h1 g0 hg0 hb0
      have hfb : f.key ≠ b := by
        intro he
        have := key_inj hn hfm hg0 (he.trans hk0.symm)
        rw [this, hb0] at hbase
        simp at hbase
      have hpre : ∀ p ∈ pre, p.key ≠ f.key := by
        intro p hp he
        rw [List.map_append, List.map_cons] at hn
        have := List.nodup_middle.1 hn
        rw [List.nodup_cons] at this
        apply this.1
        rw [← List.map_append, ← he]
        exact List.mem_map_of_mem (by simp [hp])
      have hpost : ∀ p ∈ post, p.key ≠ f.key := by
        intro p hp he
        rw [List.map_append, List.map_cons] at hn
        have := List.nodup_middle.1 hn
        rw [List.nodup_cons] at this
        apply this.1
        rw [← List.map_append, ← he]
        exact List.mem_map_of_mem (by simp [hp])
      have hmem : f.key ∉ (general pre b (st b)).ats := by
        intro hm
        obtain ⟨p, hp, he⟩ := List.mem_map.1 (show f.key ∈ (pre.filter fun i => i.base = some b).map fun i => i.key from hm)
        exact hpre p (List.mem_filter.1 hp).1 he
      set st1 := Function.update st' f.key (newTop (st f.key) (instant st b (st f.key))) with hst1
      set st2 := Function.update st1 b (newTop (st b) (general (pre ++ [f]) b (st b))) with hst2
      have hstep : renewInstant st' f = some st2 := by
        unfold renewInstant
        rw [hbase]
        dsimp only
        rw [hst, newTop_current]
        simp only [Option.bind_some]
        rw [if_neg hmem, h3 f (by simp) b hbase, renewForm_eq, newTop_modify]
        congr 1
        rw [hst2, hst1]
        have e1 : ({ x0 (st f.key) with base := some (b, (general pre b (st b)).birth) } : PForm) = instant st b (st f.key) := rfl
        rw [e1, Function.update_of_ne hfb.symm, hst, newTop_modify]
        congr 2
        simp [general, List.filter_append, List.filter_cons, hbase]
      rw [List.foldlM_cons, hstep]
      have hst2k : ∀ g ∈ pre ++ f :: post, g.key ≠ f.key → g.key ≠ b → st2 g.key = st' g.key := by
        intro g hg ha hb'
        rw [hst2, Function.update_of_ne hb', hst1, Function.update_of_ne ha]
      obtain ⟨st'', h4, h5, h6⟩ := ih (pre ++ [f]) st2 (by rw [← hassoc]; exact hn) (by rw [← hassoc]; exact hb)
        (by
          rw [← hassoc]
          intro g hg hgb
          have ha : g.key ≠ f.key := by
            intro he
            rw [key_inj hn hg hfm he, hbase] at hgb
            simp at hgb
          by_cases hgb' : g.key = b
          · rw [hgb', hst2, Function.update_self]
          · rw [hst2k g hg ha hgb', h1 g hg hgb]
            congr 1
            have : ¬ b = g.key := fun h => hgb' h.symm
            simp [general, List.filter_append, List.filter_cons, hbase, this])
        (by
          intro g hg c hgc
          rw [List.mem_append] at hg
          have hgm : g ∈ pre ++ f :: post := by
            rcases hg with hg | hg
            · simp [hg]
            · simp [List.mem_singleton.1 hg]
          have hgb' : g.key ≠ b := by
            intro he
            rw [key_inj hn hgm hg0 (he.trans hk0.symm), hb0] at hgc
            simp at hgc
          rcases hg with hg | hg
          · rw [hst2k g hgm (hpre g hg) hgb']
            exact h2 g hg c hgc
          · rw [List.mem_singleton.1 hg] at hgc ⊢
            rw [hbase] at hgc
            have hbc : b = c := by simpa using hgc
            rw [← hbc, hst2, Function.update_of_ne hfb, hst1, Function.update_self])
        (by
          intro g hg c hgc
          have hgm : g ∈ pre ++ f :: post := by simp [hg]
          have hgb' : g.key ≠ b := by
            intro he
            rw [key_inj hn hgm hg0 (he.trans hk0.symm), hb0] at hgc
            simp at hgc
          rw [hst2k g hgm (hpost g hg) hgb']
          exact h3 g (by simp [hg]) c hgc)
      rw [← hassoc] at h5 h6
      exact ⟨st'', h4, h5, h6⟩

/-- A form that is linked. -/
def linked (n : ℕ) (f : FormOf) (o : PForm) : PForm :=
  { o with tgm := some n, tpm := some (f.mesh, n), space := some (f.space, n) }

lemma link_loop (n : ℕ) (mesh : ℕ → Top PMesh) (space : ℕ → Top PSpace) (post : List FormOf) :
    ∀ (st : ℕ → Top PForm) (t : ℕ → Top PForm) (x : ℕ → PForm), (post.map fun f => f.key).Nodup →
      (∀ f ∈ post, ∃ o, (mesh f.mesh).current = some o ∧ o.tgm = n) →
      (∀ f ∈ post, ∃ o, (space f.space).current = some o ∧ o.tpm.2 = n) →
      (∀ f ∈ post, st f.key = newTop (t f.key) (x f.key)) →
      ∃ st'', post.foldlM (linkForm n mesh space) st = some st'' ∧
        (∀ f ∈ post, st'' f.key = newTop (t f.key) (linked n f (x f.key))) ∧
        ∀ k, k ∉ post.map (fun f => f.key) → st'' k = st k := by
  induction post with
  | nil => intro st _ _ _ _ _ _; exact ⟨st, rfl, by simp, by simp⟩
  | cons f post ih =>
    intro st t x hn hm hs h1
    rw [List.map_cons, List.nodup_cons] at hn
    obtain ⟨o, ho, hot⟩ := hm f (by simp)
    obtain ⟨p, hp, hpt⟩ := hs f (by simp)
    have hstep : linkForm n mesh space st f = some (Function.update st f.key (newTop (t f.key) (linked n f (x f.key)))) := by
      unfold linkForm
      rw [ho, hp, h1 f (by simp), newTop_current]
      simp only [Option.bind_some, Option.map_some]
      rw [newTop_modify]
      simp [linked, hot, hpt]
    have hne : ∀ p ∈ post, p.key ≠ f.key := fun p hp he => hn.1 (he ▸ List.mem_map_of_mem hp)
    obtain ⟨st'', h3, h4, h5⟩ := ih (Function.update st f.key (newTop (t f.key) (linked n f (x f.key)))) t x hn.2
      (fun p hp => hm p (by simp [hp])) (fun p hp => hs p (by simp [hp])) (by
        intro p hp
        rw [Function.update_of_ne (hne p hp)]
        exact h1 p (by simp [hp]))
    refine ⟨st'', ?_, ?_, ?_⟩
    · rw [List.foldlM_cons, hstep]
      exact h3
    · intro p hp
      rw [List.mem_cons] at hp
      rcases hp with rfl | hp
      · rw [h5 _ hn.1, Function.update_self]
      · exact h4 p hp
    · intro k hk
      rw [List.map_cons, List.mem_cons, not_or] at hk
      rw [h5 k hk.2, Function.update_of_ne hk.1]

end Phyem.Adaptive
