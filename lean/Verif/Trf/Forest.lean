import Verif.Trf.Glue

/-! The elements of a refined mesh as the leaves of a forest. -/

namespace Phyem.Trf

/-- `f` is `e` or was made by splitting it. -/
def Elem.Under : Elem → Elem → Prop
  | .quad c, .quad c' => c = c'
  | .quad c, .tri t => t.cell = c
  | .tri _, .quad _ => False
  | .tri s, .tri t => s.Under t

lemma Tri.Under.refl (t : Tri) : t.Under t := ⟨rfl, rfl, List.prefix_rfl⟩

lemma Tri.Under.antisymm {s t : Tri} (h : s.Under t) (k : t.Under s) : s = t := by
  obtain ⟨a, b, c⟩ := s
  obtain ⟨a', b', c'⟩ := t
  obtain ⟨h1, h2, h3⟩ := h
  simp only at h1 h2 h3
  subst h1 h2
  rw [List.IsPrefix.eq_of_length_le h3 k.2.2.length_le]

lemma under_child (t : Tri) (k : Half) : t.Under (child t k) := ⟨rfl, rfl, _, rfl⟩

lemma child_ne (t : Tri) (k : Half) : t ≠ child t k := by
  intro h
  have := congrArg (fun t => t.path.length) h
  simp [child] at this

lemma under_child_cases {s t : Tri} {k : Half} (h : s.Under (child t k)) (hn : s ≠ child t k) : s.Under t := by
  obtain ⟨h1, h2, h3⟩ := h
  refine ⟨h1, h2, ?_⟩
  simp only [child] at h3
  rcases List.prefix_concat_iff.mp (by simpa using h3) with e | e
  · exfalso; apply hn
    cases s; simp only at h1 h2 e; subst h1 h2 e; rfl
  · exact e

/-- The leaves of a forest that fills the cells. -/
structure Leaves (B : Base) (L : List Elem) : Prop where
  nodup : L.Nodup
  cell : ∀ e ∈ L, e.cell ∈ B.map Prod.fst
  anti : ∀ e ∈ L, ∀ f ∈ L, e.Under f → e = f
  cover : ∀ c ∈ B.map Prod.fst, ∀ p, InSquare p →
    Elem.quad c ∈ L ∨ ∃ t, Elem.tri t ∈ L ∧ t.cell = c ∧ In (verts t) p

variable {B : Base} {L : List Elem}

lemma mem_splitCells {l : List ℕ} {e : Elem} : e ∈ splitCells B l ↔
    ∃ c ∈ B.map Prod.fst, (c ∉ l ∧ e = .quad c) ∨ (c ∈ l ∧ ∃ d, e = .tri ⟨c, d, []⟩) := by
  unfold splitCells
  rw [List.mem_flatMap]
  constructor
  · rintro ⟨q, hq, h⟩
    refine ⟨q.1, List.mem_map_of_mem hq, ?_⟩
    split_ifs at h with hl
    · right
      simp only [List.mem_cons, List.not_mem_nil, or_false] at h
      rcases h with h | h | h | h <;> exact ⟨hl, _, h⟩
    · left; exact ⟨hl, by simpa using h⟩
  · rintro ⟨c, hc, h⟩
    rw [List.mem_map] at hc
    obtain ⟨q, hq, rfl⟩ := hc
    refine ⟨q, hq, ?_⟩
    rcases h with ⟨hl, rfl⟩ | ⟨hl, d, rfl⟩
    · rw [if_neg hl]; simp
    · rw [if_pos hl]; cases d <;> simp

lemma leaves_cells (hk : (B.map Prod.fst).Nodup) (l : List ℕ) : Leaves B (splitCells B l) := by
  refine ⟨?_, ?_, ?_, ?_⟩
  · unfold splitCells
    rw [List.nodup_flatMap]
    refine ⟨?_, ?_⟩
    · intro q _
      split_ifs <;> simp
    · have := List.pairwise_map.mp hk
      refine this.imp ?_
      intro q q' hne
      intro e h h'
      have hc : ∀ q : ℕ × Nodes, (e ∈ (if q.1 ∈ l then
          [Elem.tri ⟨q.1, .N, []⟩, .tri ⟨q.1, .W, []⟩, .tri ⟨q.1, .E, []⟩, .tri ⟨q.1, .S, []⟩]
          else [.quad q.1])) → e.cell = q.1 := by
        intro q h
        split_ifs at h
        · simp only [List.mem_cons, List.not_mem_nil, or_false] at h
          rcases h with rfl | rfl | rfl | rfl <;> rfl
        · simp only [List.mem_singleton] at h; subst h; rfl
      exact hne ((hc q h).symm.trans (hc q' h'))
  · intro e he
    obtain ⟨c, hc, ⟨_, rfl⟩ | ⟨_, d, rfl⟩⟩ := mem_splitCells.mp he <;> exact hc
  · intro e he f hf h
    obtain ⟨c, hc, ⟨hl, rfl⟩ | ⟨hl, d, rfl⟩⟩ := mem_splitCells.mp he <;>
    obtain ⟨c', hc', ⟨hl', rfl⟩ | ⟨hl', d', rfl⟩⟩ := mem_splitCells.mp hf
    · simp only [Elem.Under] at h; subst h; rfl
    · simp only [Elem.Under] at h; subst h; exact absurd hl' hl
    · simp only [Elem.Under] at h
    · simp only [Elem.Under] at h
      obtain ⟨h1, h2, _⟩ := h
      simp only at h1 h2
      subst h1 h2; rfl
  · intro c hc p hp
    by_cases hl : c ∈ l
    · right
      obtain ⟨d, hd⟩ := start_cover hp
      exact ⟨⟨c, d, []⟩, mem_splitCells.mpr ⟨c, hc, Or.inr ⟨hl, d, rfl⟩⟩, rfl, hd⟩
    · left; exact mem_splitCells.mpr ⟨c, hc, Or.inl ⟨hl, rfl⟩⟩

lemma mem_splitTris {sel : List Tri} {e : Elem} : e ∈ splitTris sel L ↔
    (e ∈ L ∧ ∀ t, e = .tri t → t ∉ sel) ∨ (∃ t k, Elem.tri t ∈ L ∧ t ∈ sel ∧ e = .tri (child t k)) := by
  unfold splitTris
  rw [List.mem_flatMap]
  constructor
  · rintro ⟨f, hf, h⟩
    cases f with
    | quad c =>
      simp only [List.mem_singleton] at h
      subst h
      exact Or.inl ⟨hf, fun t h => by cases h⟩
    | tri t =>
      simp only at h
      split_ifs at h with ht
      · simp only [List.mem_cons, List.not_mem_nil, or_false] at h
        rcases h with h | h
        · exact Or.inr ⟨t, .two, hf, ht, h⟩
        · exact Or.inr ⟨t, .zero, hf, ht, h⟩
      · simp only [List.mem_singleton] at h
        subst h
        exact Or.inl ⟨hf, fun t' h => by cases h; exact ht⟩
  · rintro (⟨he, h⟩ | ⟨t, k, ht, hs, rfl⟩)
    · refine ⟨e, he, ?_⟩
      cases e with
      | quad c => simp
      | tri t => simp [h t rfl]
    · refine ⟨_, ht, ?_⟩
      simp only
      rw [if_pos hs]
      cases k <;> simp

lemma Elem.Under.of_child {e : Elem} {t : Tri} {k : Half} (h : e.Under (.tri (child t k)))
    (hn : e ≠ .tri (child t k)) : e.Under (.tri t) := by
  cases e with
  | quad c => exact h
  | tri s => exact under_child_cases h (fun e => hn (by rw [e]))

lemma leaves_split (h : Leaves B L) (sel : List Tri) : Leaves B (splitTris sel L) := by
  refine ⟨?_, ?_, ?_, ?_⟩
  · unfold splitTris
    rw [List.nodup_flatMap]
    refine ⟨?_, ?_⟩
    · intro e _
      cases e with
      | quad c => simp
      | tri t =>
        simp only
        split_ifs
        · simp [child]
        · simp
    · refine List.Pairwise.imp_of_mem ?_ h.nodup
      intro e f he hf hne g hg hg'
      have hu : ∀ e : Elem, g ∈ (match e with
          | .quad c => [Elem.quad c]
          | .tri t => if t ∈ sel then [.tri (child t .two), .tri (child t .zero)] else [.tri t]) →
          g = e ∨ ∃ t k, e = .tri t ∧ g = .tri (child t k) := by
        intro e hg
        cases e with
        | quad c => simp only [List.mem_singleton] at hg; exact Or.inl hg
        | tri t =>
          simp only at hg
          split_ifs at hg
          · simp only [List.mem_cons, List.not_mem_nil, or_false] at hg
            rcases hg with hg | hg
            · exact Or.inr ⟨t, .two, rfl, hg⟩
            · exact Or.inr ⟨t, .zero, rfl, hg⟩
          · simp only [List.mem_singleton] at hg; exact Or.inl hg
      rcases hu e hg with rfl | ⟨t, k, rfl, rfl⟩ <;> rcases hu f hg' with rfl | ⟨t', k', rfl, e'⟩
      · exact hne rfl
      · subst e'
        exact absurd (h.anti _ hf _ he (under_child t' k')) (by
          intro e; injection e with e; exact child_ne _ _ e)
      · exact absurd (h.anti _ he _ hf (under_child t k)) (by
          intro e; injection e with e; exact child_ne _ _ e)
      · injection e' with e'
        apply hne
        have h1 : (child t k).cell = (child t' k').cell := congrArg Tri.cell e'
        have h2 : (child t k).dir = (child t' k').dir := congrArg Tri.dir e'
        have h3 : (child t k).path = (child t' k').path := congrArg Tri.path e'
        simp only [child] at h1 h2 h3
        have h4 := List.append_inj_left' h3 rfl
        cases t; cases t'; simp only at h1 h2 h4; subst h1 h2 h4; rfl
  · intro e he
    rcases mem_splitTris.mp he with ⟨he, _⟩ | ⟨t, k, ht, _, rfl⟩
    · exact h.cell e he
    · have := h.cell _ ht
      exact this
  · intro e he f hf hu
    by_contra hne
    rcases mem_splitTris.mp he with ⟨he, hes⟩ | ⟨t, k, ht, hts, rfl⟩ <;>
    rcases mem_splitTris.mp hf with ⟨hf, hfs⟩ | ⟨t', k', ht', hts', rfl⟩
    · exact hne (h.anti e he f hf hu)
    · have := h.anti e he _ ht' (hu.of_child hne)
      subst this
      exact hes t' rfl hts'
    · cases f with
      | quad c => exact hu
      | tri s =>
        have := h.anti _ ht _ hf (Under.trans (under_child t k) hu)
        injection this with this
        subst this
        exact hfs t rfl hts
    · have h1 : t.Under t' := under_child_cases (Under.trans (under_child t k) hu) (by
        intro e
        have := congrArg (fun t => t.path.length) e
        have h2 := hu.2.2.length_le
        simp [child] at this h2
        omega)
      have h2 := h.anti _ ht _ ht' h1
      injection h2 with h2
      subst h2
      apply hne
      have := hu.2.2
      simp only [child] at this
      have := List.IsPrefix.eq_of_length this (by simp)
      simp only [child]
      rw [this]
  · intro c hc p hp
    rcases h.cover c hc p hp with h1 | ⟨t, ht, hcell, hin⟩
    · left; exact mem_splitTris.mpr (Or.inl ⟨h1, fun t h => by cases h⟩)
    · right
      by_cases hs : t ∈ sel
      · rcases in_cover (size_pos t) hin with k | k
        · exact ⟨child t .zero, mem_splitTris.mpr (Or.inr ⟨t, .zero, ht, hs, rfl⟩), hcell, by rw [verts_child]; exact k⟩
        · exact ⟨child t .two, mem_splitTris.mpr (Or.inr ⟨t, .two, ht, hs, rfl⟩), hcell, by rw [verts_child]; exact k⟩
      · exact ⟨t, mem_splitTris.mpr (Or.inl ⟨ht, fun t' e => by cases e; exact hs⟩), hcell, hin⟩

/-- The triangles of a forest that fills the cells tile them. -/
lemma Leaves.tiles (h : Leaves B L) : Tiles B L := by
  intro c hc
  by_cases hq : Elem.quad c ∈ L
  · left
    refine ⟨hq, fun t ht e => ?_⟩
    have := h.anti _ hq _ ht e
    cases this
  · right
    refine ⟨hq, fun p hp => (h.cover c hc p hp).resolve_left hq, ?_⟩
    intro t t' ht ht' e e' hne p hp hp'
    rcases comparable (e.trans e'.symm) hp hp' with k | k
    · have := h.anti _ ht _ ht' k
      injection this with this
      exact hne this
    · have := h.anti _ ht' _ ht k
      injection this with this
      exact hne this.symm

end Phyem.Trf
