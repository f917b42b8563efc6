import Verif.Gathering.Model
import Verif.Numbering.Lemmas
import Mathlib.Data.List.Nodup
import Mathlib.Data.List.Induction
import Mathlib.Tactic.Linarith

/-!
The loop over the elements numbers shared slices once.
-/

namespace Phyem.Gathering

/-- A dof of the mesh: element and dof of the element. -/
abbrev Entry := ℕ × Ix

/-- Two dofs are the two copies of one dof of a shared side. -/
def Shared (parts : List Part) (nb : ℕ → ℕ → Option ℕ) (x y : Entry) : Prop :=
  ∃ p ∈ parts, ∃ c k : ℕ, p.edge = some c ∧ nb x.1 c = some y.1 ∧ p.idx[k]? = some x.2 ∧ p.src[k]? = some y.2

/-- What is needed of the assignments. -/
structure PartsOK (parts : List Part) (opp : ℕ → ℕ) : Prop where
  nodup : ∀ p ∈ parts, p.idx.Nodup
  disj : parts.Pairwise fun p q => List.Disjoint p.idx q.idx
  lens : ∀ p ∈ parts, ∀ c, p.edge = some c → p.idx.length = p.src.length
  pair : ∀ p ∈ parts, ∀ c, p.edge = some c →
    ∃ q ∈ parts, q.edge = some (opp c) ∧ q.idx = p.src ∧ q.src = p.idx

/-- What is needed of the neighbour relation. -/
structure NbOK (nb : ℕ → ℕ → Option ℕ) (opp : ℕ → ℕ) : Prop where
  symm : ∀ e c f, nb e c = some f → nb f (opp c) = some e
  irrefl : ∀ e c, nb e c ≠ some e

variable {parts : List Part} {opp : ℕ → ℕ} {nb : ℕ → ℕ → Option ℕ}

theorem PartsOK.unique (h : PartsOK parts opp) {p q : Part} (hp : p ∈ parts) (hq : q ∈ parts) {x : Ix}
    (hx : x ∈ p.idx) (hx' : x ∈ q.idx) : p = q := by
  by_contra hne
  obtain ⟨i, hi, rfl⟩ := List.getElem_of_mem hp
  obtain ⟨j, hj, rfl⟩ := List.getElem_of_mem hq
  have hd := List.pairwise_iff_getElem.mp h.disj
  rcases Nat.lt_trichotomy i j with hij | hij | hij
  · exact hd i j hi hj hij hx hx'
  · subst hij; exact hne rfl
  · exact hd j i hj hi hij hx' hx

theorem getElem?_inj {l : List Ix} (h : l.Nodup) {k k' : ℕ} {x : Ix} (a : l[k]? = some x)
    (b : l[k']? = some x) : k = k' := by
  obtain ⟨h1, h2⟩ := List.getElem?_eq_some_iff.mp a
  obtain ⟨h1', h2'⟩ := List.getElem?_eq_some_iff.mp b
  exact (List.Nodup.getElem_inj_iff h).mp (h2.trans h2'.symm)

theorem shared_symm (h : PartsOK parts opp) (hn : NbOK nb opp) {x y : Entry} (s : Shared parts nb x y) :
    Shared parts nb y x := by
  obtain ⟨p, hp, c, k, hc, hnb, hx, hy⟩ := s
  obtain ⟨q, hq, hqc, e1, e2⟩ := h.pair p hp c hc
  exact ⟨q, hq, opp c, k, hqc, hn.symm _ _ _ hnb, by rw [e1]; exact hy, by rw [e2]; exact hx⟩

theorem shared_unique (h : PartsOK parts opp) {x y z : Entry} (s : Shared parts nb x y)
    (s' : Shared parts nb x z) : y = z := by
  obtain ⟨p, hp, c, k, hc, hnb, hx, hy⟩ := s
  obtain ⟨q, hq, c', k', hc', hnb', hx', hy'⟩ := s'
  obtain rfl := h.unique hp hq (List.mem_of_getElem? hx) (List.mem_of_getElem? hx')
  rw [hc] at hc'
  simp only [Option.some.injEq] at hc'
  subst hc'
  obtain rfl := getElem?_inj (h.nodup p hp) hx hx'
  rw [hnb] at hnb'
  rw [hy] at hy'
  simp only [Option.some.injEq] at hnb' hy'
  exact Prod.ext hnb' hy'

theorem shared_ne (hn : NbOK nb opp) {x y : Entry} (s : Shared parts nb x y) : x.1 ≠ y.1 := by
  obtain ⟨p, hp, c, k, hc, hnb, hx, hy⟩ := s
  intro e
  rw [← e] at hnb
  exact hn.irrefl _ _ hnb

/-- The dofs numbered so far. -/
def Done (jobs : List (ℕ × Part)) (x : Entry) : Prop := ∃ j ∈ jobs, j.1 = x.1 ∧ x.2 ∈ j.2.idx

/-- The dof is not a copy of a dof of an earlier element. -/
def Primary (parts : List Part) (nb : ℕ → ℕ → Option ℕ) (x : Entry) : Prop :=
  ∀ y, Shared parts nb x y → ¬ y.1 < x.1

/-- The invariant of the loop. -/
structure Good (parts : List Part) (nb : ℕ → ℕ → Option ℕ) (jobs : List (ℕ × Part)) (s : St) : Prop where
  copied : ∀ x y, Done jobs x → Shared parts nb x y → y.1 < x.1 →
    Done jobs y ∧ s.gm x.1 x.2 = s.gm y.1 y.2
  inj : ∀ x y, Done jobs x → Done jobs y → Primary parts nb x → Primary parts nb y →
    s.gm x.1 x.2 = s.gm y.1 y.2 → x = y
  range : ∀ x, Done jobs x → Primary parts nb x → 0 ≤ s.gm x.1 x.2 ∧ s.gm x.1 x.2 < s.cur
  onto : ∀ v : ℕ, v < s.cur → ∃ x, Done jobs x ∧ Primary parts nb x ∧ s.gm x.1 x.2 = v

theorem assign_other (gm : ℕ → Ix → ℤ) (e : ℕ) (idx : List Ix) (vals : List ℤ) {e' : ℕ} {x : Ix}
    (h : ¬ (e' = e ∧ x ∈ idx)) : assign gm e idx vals e' x = gm e' x := by
  unfold assign; rw [if_neg h]

theorem assign_at (gm : ℕ → Ix → ℤ) (e : ℕ) {idx : List Ix} (vals : List ℤ) (hn : idx.Nodup) {k : ℕ} {x : Ix}
    (h : idx[k]? = some x) : assign gm e idx vals e x = vals.getD k 0 := by
  unfold assign
  rw [if_pos ⟨rfl, List.mem_of_getElem? h⟩]
  congr 1
  have hm := List.mem_of_getElem? h
  have h1 : idx[idx.idxOf x]? = some x := by
    rw [List.getElem?_eq_getElem (List.idxOf_lt_length_of_mem hm)]
    simp
  exact getElem?_inj hn h1 h

section step
variable {jobs : List (ℕ × Part)} {s : St} {e : ℕ} {p : Part}

theorem done_snoc (x : Entry) : Done (jobs ++ [(e, p)]) x ↔ Done jobs x ∨ (x.1 = e ∧ x.2 ∈ p.idx) := by
  unfold Done
  constructor
  · rintro ⟨j, hj, h⟩
    rcases List.mem_append.mp hj with h' | h'
    · exact Or.inl ⟨j, h', h⟩
    · simp only [List.mem_singleton] at h'
      subst h'
      exact Or.inr ⟨h.1.symm, h.2⟩
  · rintro (⟨j, hj, h⟩ | ⟨h1, h2⟩)
    · exact ⟨j, by simp [hj], h⟩
    · exact ⟨(e, p), by simp, h1.symm, h2⟩

theorem good_fresh (h : PartsOK parts opp) (hp : p ∈ parts) (hg : Good parts nb jobs s)
    (hnew : ∀ x, Done jobs x → ¬ (x.1 = e ∧ x.2 ∈ p.idx))
    (hprim : ∀ c f, p.edge = some c → nb e c = some f → e < f) :
    Good parts nb (jobs ++ [(e, p)]) (number s e p.idx) := by
  have hnd := h.nodup p hp
  have prim : ∀ x : Entry, x.1 = e → x.2 ∈ p.idx → Primary parts nb x := by
    rintro ⟨e', x⟩ h1 h2 y ⟨q, hq, c, k, hc, hnb, hx, hy⟩ hlt
    simp only at h1 h2 hnb hx hlt
    subst h1
    obtain rfl := h.unique hp hq h2 (List.mem_of_getElem? hx)
    have := hprim c _ hc hnb
    omega
  have old : ∀ x, Done jobs x → (number s e p.idx).gm x.1 x.2 = s.gm x.1 x.2 := by
    intro x hx
    exact assign_other _ _ _ _ (hnew x hx)
  have new : ∀ x : Entry, x.1 = e → ∀ k : ℕ, p.idx[k]? = some x.2 →
      (number s e p.idx).gm x.1 x.2 = (s.cur + k : ℕ) := by
    intro x h1 k hk
    unfold number
    simp only
    rw [h1, assign_at _ _ _ hnd hk]
    have hlt := (List.getElem?_eq_some_iff.mp hk).1
    simp [List.getD_eq_getElem?_getD, hlt]
  have hcur : (number s e p.idx).cur = s.cur + p.idx.length := rfl
  have pos : ∀ x : Entry, x.2 ∈ p.idx → ∃ k : ℕ, p.idx[k]? = some x.2 ∧ k < p.idx.length := by
    intro x hx
    obtain ⟨k, hk⟩ := List.mem_iff_getElem?.mp hx
    exact ⟨k, hk, (List.getElem?_eq_some_iff.mp hk).1⟩
  constructor
  · intro x y hx hs hlt
    rw [done_snoc] at hx
    rcases hx with hx | ⟨h1, h2⟩
    · obtain ⟨a, b⟩ := hg.copied x y hx hs hlt
      exact ⟨(done_snoc y).mpr (Or.inl a), by rw [old x hx, old y a, b]⟩
    · exact absurd hlt (prim x h1 h2 y hs)
  · intro x y hx hy px py he
    rw [done_snoc] at hx hy
    rcases hx with hx | ⟨h1, h2⟩ <;> rcases hy with hy | ⟨h1', h2'⟩
    · rw [old x hx, old y hy] at he
      exact hg.inj x y hx hy px py he
    · obtain ⟨k, hk, _⟩ := pos y h2'
      rw [old x hx, new y h1' k hk] at he
      have := (hg.range x hx px).2
      omega
    · obtain ⟨k, hk, _⟩ := pos x h2
      rw [old y hy, new x h1 k hk] at he
      have := (hg.range y hy py).2
      omega
    · obtain ⟨k, hk, _⟩ := pos x h2
      obtain ⟨k', hk', _⟩ := pos y h2'
      rw [new x h1 k hk, new y h1' k' hk'] at he
      obtain rfl : k = k' := by omega
      rw [hk] at hk'
      simp only [Option.some.injEq] at hk'
      exact Prod.ext (h1.trans h1'.symm) hk'
  · intro x hx px
    rw [done_snoc] at hx
    rw [hcur]
    rcases hx with hx | ⟨h1, h2⟩
    · rw [old x hx]
      have := hg.range x hx px
      push_cast
      omega
    · obtain ⟨k, hk, hl⟩ := pos x h2
      rw [new x h1 k hk]
      omega
  · intro v hv
    rw [hcur] at hv
    by_cases hc : v < s.cur
    · obtain ⟨x, a, b, c⟩ := hg.onto v hc
      exact ⟨x, (done_snoc x).mpr (Or.inl a), b, by rw [old x a, c]⟩
    · have hk : v - s.cur < p.idx.length := by omega
      refine ⟨(e, p.idx[v - s.cur]), (done_snoc _).mpr (Or.inr ⟨rfl, List.getElem_mem hk⟩),
        prim _ rfl (List.getElem_mem hk), ?_⟩
      rw [new (e, p.idx[v - s.cur]) rfl (v - s.cur) (List.getElem?_eq_getElem hk)]
      omega

theorem good_copy (h : PartsOK parts opp) (hn : NbOK nb opp) (hp : p ∈ parts) (hg : Good parts nb jobs s)
    (hnew : ∀ x, Done jobs x → ¬ (x.1 = e ∧ x.2 ∈ p.idx)) {c f : ℕ} (hc : p.edge = some c)
    (hnb : nb e c = some f) (hf : f < e) (hall : ∀ q ∈ parts, ∀ x ∈ q.idx, Done jobs (f, x)) :
    Good parts nb (jobs ++ [(e, p)]) ⟨assign s.gm e p.idx (p.src.map (s.gm f)), s.cur⟩ := by
  have hnd := h.nodup p hp
  have hlen := h.lens p hp c hc
  have pos : ∀ x : Entry, x.1 = e → x.2 ∈ p.idx → ∃ y : Ix, ∃ k : ℕ, p.idx[k]? = some x.2 ∧
      p.src[k]? = some y ∧ Shared parts nb x (f, y) ∧ Done jobs (f, y) := by
    intro x h1 hx
    obtain ⟨k, hk⟩ := List.mem_iff_getElem?.mp hx
    have hlt := (List.getElem?_eq_some_iff.mp hk).1
    have hs : p.src[k]? = some (p.src[k]'(by omega)) := List.getElem?_eq_getElem _
    refine ⟨_, k, hk, hs, ⟨p, hp, c, k, hc, by rw [h1]; exact hnb, hk, hs⟩, ?_⟩
    obtain ⟨q, hq, _, e1, _⟩ := h.pair p hp c hc
    refine hall q hq _ ?_
    rw [e1]
    exact List.getElem_mem _
  have nonprim : ∀ x : Entry, x.1 = e → x.2 ∈ p.idx → ¬ Primary parts nb x := by
    intro x h1 h2 hpr
    obtain ⟨y, k, _, _, hs, _⟩ := pos x h1 h2
    exact hpr _ hs (by simp only; omega)
  have old : ∀ x, Done jobs x → assign s.gm e p.idx (p.src.map (s.gm f)) x.1 x.2 = s.gm x.1 x.2 := by
    intro x hx
    exact assign_other _ _ _ _ (hnew x hx)
  constructor
  · intro x y hx hs hlt
    rw [done_snoc] at hx
    rcases hx with hx | ⟨h1, h2⟩
    · obtain ⟨a, b⟩ := hg.copied x y hx hs hlt
      exact ⟨(done_snoc y).mpr (Or.inl a), by simp only; rw [old x hx, old y a, b]⟩
    · obtain ⟨z, k, hk, hsrc, hs', hd⟩ := pos x h1 h2
      obtain rfl := shared_unique h hs hs'
      refine ⟨(done_snoc _).mpr (Or.inl hd), ?_⟩
      simp only
      rw [old _ hd, h1, assign_at _ _ _ hnd hk]
      simp [List.getD_eq_getElem?_getD, hsrc]
  · intro x y hx hy px py he
    rw [done_snoc] at hx hy
    rcases hx with hx | ⟨h1, h2⟩
    · rcases hy with hy | ⟨h1', h2'⟩
      · simp only at he
        rw [old x hx, old y hy] at he
        exact hg.inj x y hx hy px py he
      · exact absurd py (nonprim y h1' h2')
    · exact absurd px (nonprim x h1 h2)
  · intro x hx px
    rw [done_snoc] at hx
    rcases hx with hx | ⟨h1, h2⟩
    · simp only
      rw [old x hx]
      exact hg.range x hx px
    · exact absurd px (nonprim x h1 h2)
  · intro v hv
    obtain ⟨x, a, b, c⟩ := hg.onto v hv
    exact ⟨x, (done_snoc x).mpr (Or.inl a), b, by simp only; rw [old x a, c]⟩

end step

/-- What the choice between numbering and copying must do where it matters. -/
def DecOK (dec : Option ℕ → ℕ → Action) (nb : ℕ → ℕ → Option ℕ) (parts : List Part) (N : ℕ) : Prop :=
  ∀ e < N, ∀ p ∈ parts, ∀ c, p.edge = some c →
    (∃ f, nb e c = some f ∧ f < e ∧ dec (nb e c) e = .copy f) ∨
    ((∀ f, nb e c = some f → e < f) ∧ dec (nb e c) e = .fresh)

theorem element_good (h : PartsOK parts opp) (hn : NbOK nb opp) {dec : Option ℕ → ℕ → Action} {N : ℕ}
    (hd : DecOK dec nb parts N) {e : ℕ} (he : e < N) : ∀ (todo before : List Part) (jobs : List (ℕ × Part)) (s : St),
    parts = before ++ todo → Good parts nb (jobs ++ before.map fun p => (e, p)) s →
    (∀ j ∈ jobs, j.1 < e) → (∀ f < e, ∀ q ∈ parts, (f, q) ∈ jobs) →
    ∃ s', todo.foldlM (doPart dec nb e) s = some s' ∧ Good parts nb (jobs ++ parts.map fun p => (e, p)) s' := by
  intro todo
  induction todo with
  | nil =>
    intro before jobs s hb hg _ _
    refine ⟨s, rfl, ?_⟩
    rw [hb, List.append_nil]
    rwa [hb, List.append_nil] at hg
  | cons p todo ih =>
    intro before jobs s hb hg hj hall
    have hp : p ∈ parts := by rw [hb]; simp
    have hnew : ∀ x, Done (jobs ++ before.map fun p => (e, p)) x → ¬ (x.1 = e ∧ x.2 ∈ p.idx) := by
      rintro x ⟨j, hj', h1, h2⟩ ⟨h3, h4⟩
      rcases List.mem_append.mp hj' with hj' | hj'
      · have := hj j hj'; omega
      · obtain ⟨q, hq, rfl⟩ := List.mem_map.mp hj'
        have hdis := h.disj
        rw [hb, List.pairwise_append] at hdis
        exact hdis.2.2 q hq p (by simp) h2 h4
    have key : ∃ s1, doPart dec nb e s p = some s1 ∧
        Good parts nb (jobs ++ (before ++ [p]).map fun p => (e, p)) s1 := by
      rw [List.map_append, ← List.append_assoc]
      cases hedge : p.edge with
      | none =>
        refine ⟨number s e p.idx, by unfold doPart; rw [hedge], ?_⟩
        refine good_fresh h hp hg hnew ?_
        intro c f hc; rw [hedge] at hc; simp at hc
      | some c =>
        rcases hd e he p hp c hedge with ⟨f, h1, h2, h3⟩ | ⟨h1, h3⟩
        · refine ⟨⟨assign s.gm e p.idx (p.src.map (s.gm f)), s.cur⟩, by unfold doPart; simp only [hedge, h3], ?_⟩
          refine good_copy h hn hp hg hnew hedge h1 h2 ?_
          intro q hq x hx
          exact ⟨(f, q), by simp [hall f h2 q hq], rfl, hx⟩
        · refine ⟨number s e p.idx, by unfold doPart; simp only [hedge, h3], ?_⟩
          refine good_fresh h hp hg hnew ?_
          intro c' f hc' hf
          rw [hedge] at hc'
          simp only [Option.some.injEq] at hc'
          subst hc'
          exact h1 f hf
    obtain ⟨s1, e1, g1⟩ := key
    obtain ⟨s', e2, g2⟩ := ih (before ++ [p]) jobs s1 (by rw [hb]; simp) g1 hj hall
    exact ⟨s', by simp [e1, e2], g2⟩

/-- The jobs of the first `n` elements. -/
def jobsUpTo (parts : List Part) (n : ℕ) : List (ℕ × Part) :=
  (List.range n).flatMap fun e => parts.map fun p => (e, p)

theorem mem_jobsUpTo {n : ℕ} {j : ℕ × Part} : j ∈ jobsUpTo parts n ↔ j.1 < n ∧ j.2 ∈ parts := by
  unfold jobsUpTo
  simp only [List.mem_flatMap, List.mem_range, List.mem_map]
  constructor
  · rintro ⟨e, he, p, hp, rfl⟩; exact ⟨he, hp⟩
  · rintro ⟨h1, h2⟩; exact ⟨j.1, h1, j.2, h2, rfl⟩

theorem run_good (h : PartsOK parts opp) (hn : NbOK nb opp) {dec : Option ℕ → ℕ → Action} {N : ℕ}
    (hd : DecOK dec nb parts N) (init : ℤ) :
    ∃ s, runLoop dec nb parts N init = some s ∧ Good parts nb (jobsUpTo parts N) s := by
  unfold runLoop
  have aux : ∀ n ≤ N, ∃ s, (List.range n).foldlM (doElement dec nb parts) ⟨fun _ _ => init, 0⟩ = some s ∧
      Good parts nb (jobsUpTo parts n) s := by
    intro n
    induction n with
    | zero =>
      intro _
      refine ⟨_, rfl, ?_⟩
      constructor
      · rintro x y ⟨j, hj, _⟩; simp [jobsUpTo] at hj
      · rintro x y ⟨j, hj, _⟩; simp [jobsUpTo] at hj
      · rintro x ⟨j, hj, _⟩; simp [jobsUpTo] at hj
      · intro v hv; simp at hv
    | succ n ih =>
      intro hn'
      obtain ⟨s, e1, g1⟩ := ih (by omega)
      obtain ⟨s', e2, g2⟩ := element_good h hn hd (e := n) (by omega) parts [] (jobsUpTo parts n) s rfl
        (by simpa using g1) (fun j hj => (mem_jobsUpTo.mp hj).1)
        (fun f hf q hq => mem_jobsUpTo.mpr ⟨hf, hq⟩)
      refine ⟨s', ?_, ?_⟩
      · rw [List.range_succ, List.foldlM_append, e1]
        simp only [List.foldlM_cons, List.foldlM_nil, Option.bind_eq_bind, Option.bind_some, doElement, e2]
        rfl
      · have : jobsUpTo parts (n + 1) = jobsUpTo parts n ++ parts.map fun p => (n, p) := by
          unfold jobsUpTo; rw [List.range_succ, List.flatMap_append]; simp
        rw [this]; exact g2
  exact aux N (le_refl N)

/-- Dofs of the mesh. -/
def Valid (parts : List Part) (N : ℕ) (x : Entry) : Prop := x.1 < N ∧ ∃ p ∈ parts, x.2 ∈ p.idx

theorem valid_done {N : ℕ} {x : Entry} : Done (jobsUpTo parts N) x ↔ Valid parts N x := by
  unfold Done Valid
  constructor
  · rintro ⟨j, hj, h1, h2⟩
    obtain ⟨a, b⟩ := mem_jobsUpTo.mp hj
    exact ⟨by omega, j.2, b, h2⟩
  · rintro ⟨h1, p, hp, h2⟩
    exact ⟨(x.1, p), mem_jobsUpTo.mpr ⟨h1, hp⟩, rfl, h2⟩

/-- The result of the loop: two dofs have the same number exactly when they are the same dof or the two
copies of a dof of a shared side; the numbers used are `0 … cur - 1`. -/
theorem run_spec (h : PartsOK parts opp) (hn : NbOK nb opp) {dec : Option ℕ → ℕ → Action} {N : ℕ}
    (hd : DecOK dec nb parts N) (init : ℤ) :
    ∃ s, runLoop dec nb parts N init = some s ∧
      (∀ x y, Valid parts N x → Valid parts N y →
        (s.gm x.1 x.2 = s.gm y.1 y.2 ↔ x = y ∨ Shared parts nb x y)) ∧
      (∀ x, Valid parts N x → 0 ≤ s.gm x.1 x.2 ∧ s.gm x.1 x.2 < s.cur) ∧
      (∀ v : ℕ, v < s.cur → ∃ x, Valid parts N x ∧ s.gm x.1 x.2 = v) := by
  obtain ⟨s, e, g⟩ := run_good h hn hd init
  have prim2 : ∀ x y, Shared parts nb x y → y.1 < x.1 → Primary parts nb y := by
    intro x y hs hlt z hz
    have := shared_unique h hz (shared_symm h hn hs)
    subst this
    omega
  have canon : ∀ x, Valid parts N x → ∃ y, Valid parts N y ∧ Primary parts nb y ∧
      s.gm x.1 x.2 = s.gm y.1 y.2 ∧ (x = y ∨ Shared parts nb x y) := by
    intro x hx
    by_cases hp : Primary parts nb x
    · exact ⟨x, hx, hp, rfl, Or.inl rfl⟩
    · unfold Primary at hp
      push Not at hp
      obtain ⟨y, hs, hlt⟩ := hp
      obtain ⟨a, b⟩ := g.copied x y (valid_done.mpr hx) hs hlt
      exact ⟨y, valid_done.mp a, prim2 x y hs hlt, b, Or.inr hs⟩
  refine ⟨s, e, ?_, ?_, ?_⟩
  · intro x y hx hy
    constructor
    · intro he
      obtain ⟨x', vx, px, ex, rx⟩ := canon x hx
      obtain ⟨y', vy, py, ey, ry⟩ := canon y hy
      have := g.inj x' y' (valid_done.mpr vx) (valid_done.mpr vy) px py (by rw [← ex, ← ey, he])
      subst this
      rcases rx with rfl | rx <;> rcases ry with rfl | ry
      · exact Or.inl rfl
      · exact Or.inr (shared_symm h hn ry)
      · exact Or.inr rx
      · exact Or.inl (shared_unique h (shared_symm h hn rx) (shared_symm h hn ry))
    · rintro (rfl | hs)
      · rfl
      · rcases Nat.lt_or_gt_of_ne (shared_ne hn hs) with hlt | hlt
        · exact (g.copied y x (valid_done.mpr hy) (shared_symm h hn hs) hlt).2.symm
        · exact (g.copied x y (valid_done.mpr hx) hs hlt).2
  · intro x hx
    obtain ⟨x', vx, px, ex, rx⟩ := canon x hx
    rw [ex]
    exact g.range x' (valid_done.mpr vx) px
  · intro v hv
    obtain ⟨x, a, b, c⟩ := g.onto v hv
    exact ⟨x, valid_done.mp a, c⟩

end Phyem.Gathering
