import Verif.Dds.Region
import Mathlib.Data.List.Perm.Subperm
import Mathlib.Data.List.Nodup

/-!
# When there is a stream function, and where
-/

namespace Phyem.Dds

variable {st : ℚ → ℚ} {regs : List Reg}

/-- The region has been dealt with. -/
def St.Done (s : St) (r : Reg) : Prop := (s.sf.lookup r.key).isSome

instance (s : St) (r : Reg) : Decidable (s.Done r) := by unfold St.Done; infer_instance

lemma lookup_isSome_iff {α β : Type} [BEq α] [LawfulBEq α] {l : List (α × β)} {k : α} :
    (l.lookup k).isSome ↔ k ∈ l.map Prod.fst := by
  induction l with
  | nil => simp
  | cons p l ih =>
    obtain ⟨a, b⟩ := p
    rw [List.lookup_cons]
    by_cases h : k = a
    · subst h; simp
    · have : (k == a) = false := by simpa using h
      rw [this]
      simp only [List.map_cons, List.mem_cons, h, false_or]
      exact ih

/-- What happens to a region that has points when the first region is done. -/
lemma visit_cases {s : St} (hE : s.empty = false) {r : Reg} (hp : r.HasPoints) :
    (s.Done r ∧ visit st s r = some s) ∨
    (¬ s.Done r ∧ renewStart s.pool r = none ∧ visit st s r = some { s with full := false }) ∨
    (¬ s.Done r ∧ ∃ c a, renewStart s.pool r = some (c, a) ∧
      visit st s r = some { s with
        pool := poolAfter s.pool r (compute st r c a), sf := (r.key, compute st r c a) :: s.sf }) := by
  have h0 : ¬ (r.n0 = 0 ∨ r.n1 = 0) := by have := hp.1; have := hp.2; omega
  by_cases hd : (s.sf.lookup r.key).isSome
  · left; exact ⟨hd, by unfold visit; rw [if_pos hd]⟩
  · right
    have hv : visit st s r = match renewStart s.pool r with
        | none => some { s with full := false }
        | some (c, a) => some { s with
            pool := poolAfter s.pool r (compute st r c a), sf := (r.key, compute st r c a) :: s.sf } := by
      unfold visit
      have hE' : ¬ (s.empty = true) := by simp [hE]
      rw [if_neg hd, if_neg hE', if_neg h0]
      cases renewStart s.pool r <;> rfl
    cases hr : renewStart s.pool r with
    | none => left; rw [hr] at hv; exact ⟨hd, rfl, hv⟩
    | some p =>
      obtain ⟨c, a⟩ := p
      right; rw [hr] at hv; exact ⟨hd, c, a, rfl, hv⟩

lemma visit_first {s : St} (hE : s.empty = true) (hs : s.sf = []) {r : Reg} (hp : r.HasPoints) :
    visit st s r = some { s with
      empty := false, pool := poolAfter s.pool r (compute st r .mm 0), sf := [(r.key, compute st r .mm 0)] } := by
  have h0 : ¬ (r.n0 = 0 ∨ r.n1 = 0) := by have := hp.1; have := hp.2; omega
  unfold visit
  rw [hs]
  rw [if_neg (by simp), if_pos hE, if_neg h0]

lemma renewStart_some {pool : List (Key × ℚ)} {r : Reg} {c : Corner} {a : ℚ} (h : renewStart pool r = some (c, a)) :
    pool.lookup (r.keyAt c) = some a := by
  unfold renewStart at h
  obtain ⟨c', _, h⟩ := List.exists_of_findSome?_eq_some h
  cases hl : pool.lookup (r.keyAt c') with
  | none => rw [hl] at h; cases h
  | some b =>
    rw [hl] at h
    simp only [Option.map_some, Option.some.injEq, Prod.mk.injEq] at h
    obtain ⟨rfl, rfl⟩ := h
    exact hl

lemma mem_corners (c : Corner) : c ∈ corners := by cases c <;> simp [corners]

lemma renewStart_none {pool : List (Key × ℚ)} {r : Reg} (h : renewStart pool r = none) (c : Corner) :
    r.keyAt c ∉ pool.map Prod.fst := by
  unfold renewStart at h
  rw [List.findSome?_eq_none_iff] at h
  have := h c (mem_corners c)
  rw [Option.map_eq_none_iff] at this
  rw [← lookup_isSome_iff, this]; simp

lemma poolAfter_eq (pool : List (Key × ℚ)) (r : Reg) (sf : ℕ → ℕ → ℚ) :
    poolAfter pool r sf = (corners.map fun c => (r.keyAt c, sf (r.index c).1 (r.index c).2)).reverse ++ pool := by
  simp [poolAfter, corners]

lemma mem_poolAfter {pool : List (Key × ℚ)} {r : Reg} {sf : ℕ → ℕ → ℚ} {p : Key × ℚ} :
    p ∈ poolAfter pool r sf ↔ (∃ c, p = (r.keyAt c, sf (r.index c).1 (r.index c).2)) ∨ p ∈ pool := by
  rw [poolAfter_eq, List.mem_append, List.mem_reverse, List.mem_map]
  constructor
  · rintro (⟨c, _, rfl⟩ | h)
    · exact Or.inl ⟨c, rfl⟩
    · exact Or.inr h
  · rintro (⟨c, rfl⟩ | h)
    · exact Or.inl ⟨c, mem_corners c, rfl⟩
    · exact Or.inr h

/-- What stays true: the regions that are done are reached, the pool has their corners and those where one begins. -/
structure Inv (regs : List Reg) (S : Reg → Prop) (s : St) : Prop where
  nodup : (s.sf.map Prod.fst).Nodup
  reached : ∀ k ∈ s.sf.map Prod.fst, ∃ r ∈ regs, r.key = k ∧ Reached regs S r
  pool : ∀ k ∈ s.pool.map Prod.fst, ∀ r ∈ regs, ∀ c, r.keyAt c = k → Reached regs S r
  corner : ∀ r ∈ regs, s.Done r → ∀ c, r.keyAt c ∈ s.pool.map Prod.fst
  begin_ : ∀ r ∈ regs, S r → s.Done r ∨ ∃ c, r.keyAt c ∈ s.pool.map Prod.fst

lemma eq_of_key (hn : (regs.map Reg.key).Nodup) {r r' : Reg} (h : r ∈ regs) (h' : r' ∈ regs) (e : r.key = r'.key) :
    r = r' := List.inj_on_of_nodup_map hn h h' e

lemma done_cons {s : St} {pool : List (Key × ℚ)} {r r' : Reg} {f : ℕ → ℕ → ℚ} :
    St.Done { s with pool := pool, sf := (r.key, f) :: s.sf } r' ↔ r'.key = r.key ∨ s.Done r' := by
  unfold St.Done
  rw [lookup_isSome_iff, lookup_isSome_iff]
  simp

lemma Inv.add {S : Reg → Prop} {s : St} (hn : (regs.map Reg.key).Nodup) (hI : Inv regs S s) {r : Reg} (hr : r ∈ regs)
    (hd : ¬ s.Done r) {c : Corner} (hc : r.keyAt c ∈ s.pool.map Prod.fst) (f : ℕ → ℕ → ℚ) :
    Inv regs S { s with pool := poolAfter s.pool r f, sf := (r.key, f) :: s.sf } := by
  have hR : Reached regs S r := hI.pool _ hc r hr c rfl
  refine ⟨?_, ?_, ?_, ?_, ?_⟩
  · simp only [List.map_cons, List.nodup_cons]
    refine ⟨?_, hI.nodup⟩
    unfold St.Done at hd
    rwa [lookup_isSome_iff] at hd
  · intro k hk
    simp only [List.map_cons, List.mem_cons] at hk
    rcases hk with rfl | hk
    · exact ⟨r, hr, rfl, hR⟩
    · exact hI.reached k hk
  · intro k hk r' hr' c' hc'
    rw [List.mem_map] at hk
    obtain ⟨p, hp, rfl⟩ := hk
    rw [mem_poolAfter] at hp
    rcases hp with ⟨d, rfl⟩ | hp
    · exact Reached.step hR hr' ⟨d, c', hc'.symm⟩
    · exact hI.pool _ (List.mem_map_of_mem hp) r' hr' c' hc'
  · intro r' hr' hd' c'
    rw [done_cons] at hd'
    rcases hd' with e | hd'
    · obtain rfl := eq_of_key hn hr' hr e
      exact List.mem_map.2 ⟨_, mem_poolAfter.2 (Or.inl ⟨c', rfl⟩), rfl⟩
    · obtain ⟨p, hp, e⟩ := List.mem_map.1 (hI.corner r' hr' hd' c')
      exact List.mem_map.2 ⟨p, mem_poolAfter.2 (Or.inr hp), e⟩
  · intro r' hr' hS
    rcases hI.begin_ r' hr' hS with h | ⟨c', h⟩
    · left; rw [done_cons]; exact Or.inr h
    · right
      obtain ⟨p, hp, e⟩ := List.mem_map.1 h
      exact ⟨c', List.mem_map.2 ⟨p, mem_poolAfter.2 (Or.inr hp), e⟩⟩

/-- A part of a pass. -/
lemma pass_inv {S : Reg → Prop} (hn : (regs.map Reg.key).Nodup) (hp : ∀ r ∈ regs, r.HasPoints) :
    ∀ (l : List Reg), (∀ r ∈ l, r ∈ regs) → ∀ s : St, s.empty = false → Inv regs S s →
      ∃ s', l.foldlM (visit st) s = some s' ∧ s'.empty = false ∧ Inv regs S s' ∧
        s.sf.length ≤ s'.sf.length ∧ (∀ r, s.Done r → s'.Done r) ∧
        (s'.full = true → s.full = true ∧ ∀ r ∈ l, s'.Done r) ∧
        (s'.sf.length ≤ s.sf.length → s'.sf = s.sf ∧ s'.pool = s.pool ∧
          ∀ r ∈ l, ¬ s.Done r → renewStart s.pool r = none) := by
  intro l
  induction l with
  | nil => intro _ s hE hI; exact ⟨s, rfl, hE, hI, le_rfl, fun _ h => h, fun h => ⟨h, by simp⟩,
      fun _ => ⟨rfl, rfl, by simp⟩⟩
  | cons r l ih =>
    intro hl s hE hI
    have hr := hl r (by simp)
    have hl' : ∀ r ∈ l, r ∈ regs := fun x hx => hl x (by simp [hx])
    rw [List.foldlM_cons]
    rcases visit_cases (st := st) hE (hp r hr) with ⟨hd, hv⟩ | ⟨hd, hns, hv⟩ | ⟨hd, c, a, hsome, hv⟩
    · obtain ⟨s', h1, h2, h3, h4, h5, h6, h7⟩ := ih hl' s hE hI
      refine ⟨s', by rw [hv]; exact h1, h2, h3, h4, h5, fun hf => ⟨(h6 hf).1, ?_⟩, fun hle => ⟨(h7 hle).1, (h7 hle).2.1, ?_⟩⟩
      · intro x hx
        rcases List.mem_cons.1 hx with rfl | hx
        · exact h5 _ hd
        · exact (h6 hf).2 x hx
      · intro x hx hnd
        rcases List.mem_cons.1 hx with rfl | hx
        · exact absurd hd hnd
        · exact (h7 hle).2.2 x hx hnd
    · have hI' : Inv regs S { s with full := false } := ⟨hI.1, hI.2, hI.3, hI.4, hI.5⟩
      obtain ⟨s', h1, h2, h3, h4, h5, h6, h7⟩ := ih hl' { s with full := false } hE hI'
      refine ⟨s', by rw [hv]; exact h1, h2, h3, h4, h5, fun hf => absurd (h6 hf).1 (by simp),
        fun hle => ⟨(h7 hle).1, (h7 hle).2.1, ?_⟩⟩
      intro x hx hnd
      rcases List.mem_cons.1 hx with rfl | hx
      · exact hns
      · exact (h7 hle).2.2 x hx hnd
    · have hc : r.keyAt c ∈ s.pool.map Prod.fst := by
        rw [← lookup_isSome_iff, renewStart_some hsome]; rfl
      have hI' := hI.add hn hr hd hc (compute st r c a)
      obtain ⟨s', h1, h2, h3, h4, h5, h6, h7⟩ := ih hl' _ (by exact hE) hI'
      have h4' : s.sf.length + 1 ≤ s'.sf.length := h4
      refine ⟨s', by rw [hv]; exact h1, h2, h3, by omega, fun x hx => h5 x (done_cons.2 (Or.inr hx)),
        fun hf => ⟨(h6 hf).1, ?_⟩, fun hle => absurd hle (by omega)⟩
      intro x hx
      rcases List.mem_cons.1 hx with rfl | hx
      · exact h5 _ (done_cons.2 (Or.inl rfl))
      · exact (h6 hf).2 x hx

/-- A pass that does not end it leaves a region undone. -/
lemma pass_not_full : ∀ (l : List Reg), (∀ r ∈ l, r.HasPoints) → (l.map Reg.key).Nodup → ∀ s s' : St,
    s.empty = false → l.foldlM (visit st) s = some s' →
      (∀ r, r.key ∉ l.map Reg.key → (s'.Done r ↔ s.Done r)) ∧
      (s.full = true → s'.full = false → ∃ r ∈ l, ¬ s'.Done r) := by
  intro l
  induction l with
  | nil =>
    intro _ _ s s' _ h
    rw [List.foldlM_nil] at h
    obtain rfl : s = s' := by simpa using h
    exact ⟨fun _ _ => Iff.rfl, fun h h' => by simp [h] at h'⟩
  | cons r l ih =>
    intro hp hn s s' hE h
    have hp' : ∀ r ∈ l, r.HasPoints := fun x hx => hp x (by simp [hx])
    rw [List.map_cons, List.nodup_cons] at hn
    rw [List.foldlM_cons] at h
    rcases visit_cases (st := st) hE (hp r (by simp)) with ⟨hd, hv⟩ | ⟨hd, hns, hv⟩ | ⟨hd, c, a, hsome, hv⟩
    · rw [hv] at h
      obtain ⟨h1, h2⟩ := ih hp' hn.2 s s' hE h
      refine ⟨fun x hx => h1 x fun hm => hx (by simp [hm]), fun hf hf' => ?_⟩
      obtain ⟨x, hx, hx'⟩ := h2 hf hf'
      exact ⟨x, by simp [hx], hx'⟩
    · rw [hv] at h
      obtain ⟨h1, h2⟩ := ih hp' hn.2 _ s' (by exact hE) h
      refine ⟨fun x hx => h1 x fun hm => hx (by simp [hm]), fun _ _ => ⟨r, by simp, fun hd' => hd ?_⟩⟩
      exact (h1 r hn.1).1 hd'
    · rw [hv] at h
      obtain ⟨h1, h2⟩ := ih hp' hn.2 _ s' (by exact hE) h
      refine ⟨fun x hx => ?_, fun hf hf' => ?_⟩
      · rw [h1 x fun hm => hx (by simp [hm]), done_cons]
        simp only [List.map_cons, List.mem_cons, not_or] at hx
        simp [hx.1]
      · obtain ⟨x, hx, hx'⟩ := h2 hf hf'
        exact ⟨x, by simp [hx], hx'⟩

lemma Inv.length_lt {S : Reg → Prop} {s : St} (hI : Inv regs S s) {r : Reg} (hr : r ∈ regs) (hd : ¬ s.Done r) :
    s.sf.length < regs.length := by
  have h1 : (r.key :: s.sf.map Prod.fst).Nodup := by
    rw [List.nodup_cons]
    refine ⟨?_, hI.nodup⟩
    unfold St.Done at hd
    rwa [lookup_isSome_iff] at hd
  have h2 : r.key :: s.sf.map Prod.fst ⊆ regs.map Reg.key := by
    intro k hk
    rcases List.mem_cons.1 hk with rfl | hk
    · exact List.mem_map_of_mem hr
    · obtain ⟨x, hx, e, _⟩ := hI.reached k hk
      exact e ▸ List.mem_map_of_mem hx
  have := (h1.subperm h2).length_le
  simpa using this

lemma passes_succ (fuel : ℕ) (s : St) :
    passes st regs (fuel + 1) s = (regs.foldlM (visit st) { s with full := true }).bind fun s' =>
      if s'.sf.length > s.sf.length then
        if s'.full then some s'.sf else passes st regs fuel s'
      else none := rfl

/-- The calls from a state where something is in the pool. -/
lemma passes_iff {S : Reg → Prop} (hn : (regs.map Reg.key).Nodup) (hp : ∀ r ∈ regs, r.HasPoints) :
    ∀ (fuel : ℕ) (s : St), s.empty = false → Inv regs S s → regs.length ≤ fuel + s.sf.length →
      (∃ r ∈ regs, ¬ s.Done r) →
      ((passes st regs fuel s).isSome ↔ ∀ r ∈ regs, Reached regs S r) ∧
      ∀ out, passes st regs fuel s = some out → (out.map Prod.fst).Nodup ∧
        ∀ k, k ∈ out.map Prod.fst ↔ k ∈ regs.map Reg.key := by
  intro fuel
  induction fuel with
  | zero =>
    intro s hE hI hf hex
    obtain ⟨r, hr, hd⟩ := hex
    have := hI.length_lt hr hd
    omega
  | succ fuel ih =>
    intro s hE hI hf hex
    have hI0 : Inv regs S { s with full := true } := ⟨hI.1, hI.2, hI.3, hI.4, hI.5⟩
    obtain ⟨s', h1, h2, h3, h4, h5, h6, h7⟩ :=
      pass_inv (st := st) hn hp regs (fun _ h => h) { s with full := true } (by exact hE) hI0
    have h8 := pass_not_full (st := st) regs hp hn { s with full := true } s' (by exact hE) h1
    have hrec : passes st regs (fuel + 1) s =
        if s'.sf.length > s.sf.length then if s'.full then some s'.sf else passes st regs fuel s' else none := by
      rw [passes_succ, h1]; rfl
    by_cases hlen : s'.sf.length > s.sf.length
    · rw [if_pos hlen] at hrec
      by_cases hfull : s'.full = true
      · rw [if_pos hfull] at hrec
        have hall := (h6 hfull).2
        rw [hrec]
        have hmem : ∀ r ∈ regs, r.key ∈ s'.sf.map Prod.fst := fun r hr => lookup_isSome_iff.1 (hall r hr)
        refine ⟨⟨fun _ r hr => ?_, fun _ => rfl⟩, fun out ho => ?_⟩
        · obtain ⟨x, hx, e, hR⟩ := h3.reached _ (hmem r hr)
          obtain rfl := eq_of_key hn hx hr e
          exact hR
        · simp only [Option.some.injEq] at ho
          subst ho
          refine ⟨h3.nodup, fun k => ⟨fun hk => ?_, fun hk => ?_⟩⟩
          · obtain ⟨x, hx, e, _⟩ := h3.reached k hk
            exact e ▸ List.mem_map_of_mem hx
          · obtain ⟨x, hx, rfl⟩ := List.mem_map.1 hk
            exact hmem x hx
      · rw [if_neg hfull] at hrec
        rw [hrec]
        exact ih s' h2 h3 (by omega) (h8.2 rfl (by simpa using hfull))
    · rw [if_neg hlen] at hrec
      rw [hrec]
      refine ⟨⟨fun h => by simp at h, fun hR => ?_⟩, fun out ho => by cases ho⟩
      obtain ⟨_, _, h9⟩ := h7 (by dsimp only; omega)
      have hclosed : ∀ r, Reached regs S r → s.Done r := by
        intro r hr
        induction hr with
        | @base r hr hS =>
          rcases hI.begin_ r hr hS with h | ⟨c, h⟩
          · exact h
          · by_contra hd
            exact renewStart_none (h9 r hr hd) c h
        | @step r r' hR hr' hm ih' =>
          obtain ⟨c, c', e⟩ := hm
          by_contra hd
          have hrr : r ∈ regs := by cases hR <;> assumption
          have := hI.corner r hrr ih' c
          rw [e] at this
          exact renewStart_none (h9 r' hr' hd) c' this
      obtain ⟨r, hr, hd⟩ := hex
      exact absurd (hclosed r (hR r hr)) hd

/-- The state after the first region, when no point is given. -/
def firstSt (st : ℚ → ℚ) (r : Reg) : St :=
  ⟨poolAfter [] r (compute st r .mm 0), [(r.key, compute st r .mm 0)], false, true⟩

lemma firstSt_inv {r : Reg} {rest : List Reg} (hn : ((r :: rest).map Reg.key).Nodup) :
    Inv (r :: rest) (fun x => (r :: rest).head? = some x) (firstSt st r) := by
  have hR : Reached (r :: rest) (fun x => (r :: rest).head? = some x) r := Reached.base (by simp) rfl
  refine ⟨by simp [firstSt], ?_, ?_, ?_, ?_⟩
  · intro k hk
    simp only [firstSt, List.map_cons, List.map_nil, List.mem_singleton] at hk
    exact ⟨r, by simp, hk.symm, hR⟩
  · intro k hk r' hr' c' hc'
    obtain ⟨p, hp, rfl⟩ := List.mem_map.1 hk
    simp only [firstSt] at hp
    rw [mem_poolAfter] at hp
    rcases hp with ⟨d, rfl⟩ | hp
    · exact Reached.step hR hr' ⟨d, c', hc'.symm⟩
    · cases hp
  · intro r' hr' hd c
    have hd' : r'.key = r.key := by
      unfold St.Done at hd
      rw [lookup_isSome_iff] at hd
      simpa [firstSt] using hd
    obtain rfl := eq_of_key hn hr' (by simp) hd'
    exact List.mem_map.2 ⟨_, mem_poolAfter.2 (Or.inl ⟨c, rfl⟩), rfl⟩
  · intro r' hr' hS
    simp only [List.head?_cons, Option.some.injEq] at hS
    subst hS
    left
    unfold St.Done
    rw [lookup_isSome_iff]; simp [firstSt]

lemma fold_first {r : Reg} {rest : List Reg} (hp : r.HasPoints) :
    (r :: rest).foldlM (visit st) ⟨[], [], true, true⟩ = (r :: rest).foldlM (visit st) (firstSt st r) := by
  rw [List.foldlM_cons, List.foldlM_cons, visit_first rfl rfl hp]
  have : visit st (firstSt st r) r = some (firstSt st r) := by
    rcases visit_cases (st := st) (s := firstSt st r) rfl hp with ⟨_, h⟩ | ⟨h, _⟩ | ⟨h, _⟩
    · exact h
    · exact absurd (by unfold St.Done; rw [lookup_isSome_iff]; simp [firstSt]) h
    · exact absurd (by unfold St.Done; rw [lookup_isSome_iff]; simp [firstSt]) h
  rw [this]
  rfl

/-- The first call when no point is given. -/
lemma passes_first {r : Reg} {rest : List Reg} (hp : ∀ x ∈ r :: rest, x.HasPoints)
    (hn : ((r :: rest).map Reg.key).Nodup) :
    ∃ s', (r :: rest).foldlM (visit st) (firstSt st r) = some s' ∧
      passes st (r :: rest) (r :: rest).length ⟨[], [], true, true⟩ =
        if s'.full then some s'.sf else passes st (r :: rest) rest.length s' := by
  obtain ⟨s', h1, h2, h3, h4, -, -, -⟩ :=
    pass_inv (st := st) hn hp (r :: rest) (fun _ h => h) (firstSt st r) rfl (firstSt_inv hn)
  refine ⟨s', h1, ?_⟩
  rw [List.length_cons]
  rw [passes_succ]
  rw [fold_first (hp r (by simp)), h1]
  have hl : s'.sf.length > ([] : List (ℕ × (ℕ → ℕ → ℚ))).length := by
    have : 1 ≤ s'.sf.length := h4
    simp only [List.length_nil]; omega
  simp only [Option.bind_some]
  rw [if_pos hl]

/-- The calls, whatever is given. -/
lemma passes_start (hn : (regs.map Reg.key).Nodup) (hp : ∀ r ∈ regs, r.HasPoints) (start : Option ((ℚ × ℚ) × ℚ))
    {s : St} (hs : s = match start with
      | none => ⟨[], [], true, true⟩
      | some (p, a) => ⟨[(keyOf p.1 p.2, a)], [], false, true⟩) :
    ((passes st regs regs.length s).isSome ↔ regs ≠ [] ∧ ∀ r ∈ regs, Reached regs (Begins regs start) r) ∧
      ∀ out, passes st regs regs.length s = some out → (out.map Prod.fst).Nodup ∧
        ∀ k, k ∈ out.map Prod.fst ↔ k ∈ regs.map Reg.key := by
  subst hs
  cases regs with
  | nil => simp [passes]
  | cons r rest =>
    cases start with
    | none =>
      obtain ⟨s', h1, h2⟩ := passes_first (st := st) hp hn
      have hI := firstSt_inv (st := st) hn
      obtain ⟨s'', h1', h3, h4, h5, h6, h7, -⟩ := pass_inv (st := st) hn hp (r :: rest) (fun _ h => h) _ rfl hI
      rw [h1] at h1'
      obtain rfl : s' = s'' := by simpa using h1'
      have h8 := pass_not_full (st := st) (r :: rest) hp hn _ s' rfl h1
      dsimp only
      rw [h2]
      have hB : (Begins (r :: rest) none) = fun x => (r :: rest).head? = some x := rfl
      rw [hB]
      have hne : r :: rest ≠ [] := by simp
      by_cases hfull : s'.full = true
      · rw [if_pos hfull]
        have hmem : ∀ x ∈ r :: rest, x.key ∈ s'.sf.map Prod.fst :=
          fun x hx => lookup_isSome_iff.1 ((h7 hfull).2 x hx)
        refine ⟨⟨fun _ => ⟨hne, fun x hx => ?_⟩, fun _ => rfl⟩, fun out ho => ?_⟩
        · obtain ⟨z, hz, e, hR⟩ := h4.reached _ (hmem x hx)
          obtain rfl := eq_of_key hn hz hx e
          exact hR
        · simp only [Option.some.injEq] at ho
          subst ho
          refine ⟨h4.nodup, fun k => ⟨fun hk => ?_, fun hk => ?_⟩⟩
          · obtain ⟨x, hx, e, _⟩ := h4.reached k hk
            exact e ▸ List.mem_map_of_mem hx
          · obtain ⟨x, hx, rfl⟩ := List.mem_map.1 hk
            exact hmem x hx
      · rw [if_neg hfull]
        have hl1 : 1 ≤ s'.sf.length := h5
        have := passes_iff (st := st) hn hp rest.length s' h3 h4 (by rw [List.length_cons]; omega)
          (h8.2 rfl (by simpa using hfull))
        refine ⟨⟨fun h => ⟨hne, this.1.1 h⟩, fun h => this.1.2 h.2⟩, this.2⟩
    | some q =>
      obtain ⟨p, a⟩ := q
      have hI : Inv (r :: rest) (Begins (r :: rest) (some (p, a))) ⟨[(keyOf p.1 p.2, a)], [], false, true⟩ := by
        refine ⟨by simp, by simp, ?_, ?_, ?_⟩
        · intro k hk x hx c hc
          simp only [List.map_cons, List.map_nil, List.mem_singleton] at hk
          exact Reached.base hx ⟨c, by rw [hc, hk]⟩
        · intro x _ hd
          unfold St.Done at hd
          simp at hd
        · rintro x _ ⟨c, hc⟩
          right
          exact ⟨c, by simp [hc]⟩
      have := passes_iff (st := st) hn hp (r :: rest).length _ rfl hI (by simp)
        ⟨r, by simp, by unfold St.Done; simp⟩
      exact ⟨⟨fun h => ⟨by simp, this.1.1 h⟩, fun h => this.1.2 h.2⟩, this.2⟩

/-- There is a stream function exactly if one comes to every region by going from corner to corner, from the first region
or from the regions that have the given point as a corner. Otherwise an exception says so. -/
theorem stream_exists (st : ℚ → ℚ) (hn : (regs.map Reg.key).Nodup) (hp : ∀ r ∈ regs, r.HasPoints)
    (start : Option ((ℚ × ℚ) × ℚ)) (shift : ℚ) :
    (streamfunction st regs start shift).isSome ↔ regs ≠ [] ∧ ∀ r ∈ regs, Reached regs (Begins regs start) r := by
  unfold streamfunction
  rw [Option.isSome_map]
  exact (passes_start (st := st) hn hp start rfl).1

/-- The stream function is given in each region, once. -/
theorem stream_regions (st : ℚ → ℚ) (hn : (regs.map Reg.key).Nodup) (hp : ∀ r ∈ regs, r.HasPoints)
    (start : Option ((ℚ × ℚ) × ℚ)) (shift : ℚ) {out : List (ℕ × (ℕ → ℕ → ℚ))}
    (h : streamfunction st regs start shift = some out) :
    (out.map Prod.fst).Nodup ∧ ∀ k, k ∈ out.map Prod.fst ↔ k ∈ regs.map Reg.key := by
  unfold streamfunction at h
  rw [Option.map_eq_some_iff] at h
  obtain ⟨l, hl, rfl⟩ := h
  have := (passes_start (st := st) hn hp start rfl).2 l hl
  have e : ((if shift ≠ 0 then l.map fun p => (p.1, fun i j => st (p.2 i j + shift)) else l).map Prod.fst)
      = l.map Prod.fst := by
    split_ifs
    · simp [List.map_map, Function.comp_def]
    · rfl
  rw [e]
  exact this

end Phyem.Dds
