import Verif.Trf.Conform

/-! The levels keep the invariants, and do not raise exceptions of their own. -/

namespace Phyem.Trf

variable {B : Base} {L : List Elem}

lemma mem_bottoms {em : List (Elem × List ℕ)} {t : Tri} {k : ℕ × ℕ} :
    (t, k) ∈ bottoms em ↔ ∃ a b c, (Elem.tri t, [a, b, c]) ∈ em ∧ k = (min b c, max b c) := by
  induction em with
  | nil => simp [bottoms]
  | cons q em ih =>
    obtain ⟨e, l⟩ := q
    have skip : bottoms ((e, l) :: em) = bottoms em → (∀ s a b c, (e, l) ≠ (Elem.tri s, [a, b, c])) →
        ((t, k) ∈ bottoms ((e, l) :: em) ↔ ∃ a b c, (Elem.tri t, [a, b, c]) ∈ (e, l) :: em ∧ k = (min b c, max b c)) := by
      intro h1 h2
      rw [h1, ih]
      constructor
      · rintro ⟨a, b, c, h, hk⟩; exact ⟨a, b, c, List.mem_cons_of_mem _ h, hk⟩
      · rintro ⟨a, b, c, h, hk⟩
        rcases List.mem_cons.mp h with h | h
        · exact absurd h.symm (h2 _ _ _ _)
        · exact ⟨a, b, c, h, hk⟩
    cases e with
    | quad c => exact skip rfl (by intros; simp)
    | tri s =>
      match l with
      | [] => exact skip rfl (by intros; simp)
      | [_] => exact skip rfl (by intros; simp)
      | [_, _] => exact skip rfl (by intros; simp)
      | _ :: _ :: _ :: _ :: _ => exact skip rfl (by intros; simp)
      | [a, b, c] =>
        rw [bottoms, List.mem_cons, ih]
        constructor
        · rintro (h | ⟨a', b', c', h, hk⟩)
          · injection h with h1 h2
            subst h1
            exact ⟨a, b, c, List.mem_cons_self, h2⟩
          · exact ⟨a', b', c', List.mem_cons_of_mem _ h, hk⟩
        · rintro ⟨a', b', c', h, hk⟩
          rcases List.mem_cons.mp h with h | h
          · simp only [Prod.mk.injEq, Elem.tri.injEq, List.cons.injEq, and_true] at h
            obtain ⟨rfl, rfl, rfl, rfl⟩ := h
            exact Or.inl (by rw [hk])
          · exact Or.inr ⟨a', b', c', h, hk⟩

lemma bottoms_sublist (em : List (Elem × List ℕ)) :
    ((bottoms em).map fun q => Elem.tri q.1).Sublist (em.map Prod.fst) := by
  induction em with
  | nil => simp [bottoms]
  | cons q em ih =>
    obtain ⟨e, l⟩ := q
    have skip : bottoms ((e, l) :: em) = bottoms em →
        ((bottoms ((e, l) :: em)).map fun q => Elem.tri q.1).Sublist (((e, l) :: em).map Prod.fst) := by
      intro h
      rw [h, List.map_cons]
      exact ih.cons _
    cases e with
    | quad c => exact skip rfl
    | tri s =>
      match l with
      | [] => exact skip rfl
      | [_] => exact skip rfl
      | [_, _] => exact skip rfl
      | _ :: _ :: _ :: _ :: _ => exact skip rfl
      | [a, b, c] =>
        rw [bottoms, List.map_cons, List.map_cons]
        exact ih.cons_cons _

/-- What is used of the list of bottom edges: each triangle has one entry, and triangles with the same entry have
the same bottom edge. -/
structure Bots (B : Base) (L : List Elem) (bs : List (Tri × (ℕ × ℕ))) : Prop where
  nodup : (bs.map Prod.fst).Nodup
  mem : ∀ t, (∃ k, (t, k) ∈ bs) ↔ Elem.tri t ∈ L
  mate : ∀ t t' k, (t, k) ∈ bs → (t', k) ∈ bs → t' ≠ t → Mate B t t'
  eq : ∀ t t' k, (t, k) ∈ bs → Elem.tri t' ∈ L → Mate B t t' → (t', k) ∈ bs

lemma bots_of_map (hp : (B.map Prod.fst).Nodup) (hL : L.Nodup) {em : List (Elem × List ℕ)}
    (h : elementMap B L = some em) : Bots B L (bottoms em) := by
  obtain ⟨h1, pool, hpool, h2, -⟩ := elementMap_eq h
  have tri : ∀ t ns, (Elem.tri t, ns) ∈ em → ∃ n, (t.cell, n) ∈ B ∧
      ns = [pool.idxOf (keyAt n t.cell (verts t).a), pool.idxOf (keyAt n t.cell (verts t).b),
        pool.idxOf (keyAt n t.cell (verts t).c)] ∧
      keyAt n t.cell (verts t).b ∈ pool ∧ keyAt n t.cell (verts t).c ∈ pool := by
    intro t ns ht
    obtain ⟨n, hn, e, hm⟩ := h2 _ ht
    refine ⟨n, hn, e, hm _ (by simp [Elem.corners]), hm _ (by simp [Elem.corners])⟩
  have entry : ∀ t k, (t, k) ∈ bottoms em → ∃ n, (t.cell, n) ∈ B ∧
      keyAt n t.cell (verts t).b ∈ pool ∧ keyAt n t.cell (verts t).c ∈ pool ∧
      k = (min (pool.idxOf (keyAt n t.cell (verts t).b)) (pool.idxOf (keyAt n t.cell (verts t).c)),
           max (pool.idxOf (keyAt n t.cell (verts t).b)) (pool.idxOf (keyAt n t.cell (verts t).c))) := by
    intro t k hk
    obtain ⟨a, b, c, hm, rfl⟩ := mem_bottoms.mp hk
    obtain ⟨n, hn, e, e1, e2⟩ := tri t _ hm
    simp only [List.cons.injEq, and_true] at e
    obtain ⟨-, rfl, rfl⟩ := e
    exact ⟨n, hn, e1, e2, rfl⟩
  have inL : ∀ t, (∃ k, (t, k) ∈ bottoms em) ↔ Elem.tri t ∈ L := by
    intro t
    constructor
    · rintro ⟨k, hk⟩
      obtain ⟨a, b, c, hm, _⟩ := mem_bottoms.mp hk
      rw [← h1]
      exact List.mem_map_of_mem hm
    · intro ht
      rw [← h1, List.mem_map] at ht
      obtain ⟨⟨e, ns⟩, hm, rfl⟩ := ht
      obtain ⟨n, _, rfl, _⟩ := tri t ns hm
      exact ⟨_, mem_bottoms.mpr ⟨_, _, _, hm, rfl⟩⟩
  refine ⟨?_, inL, ?_, ?_⟩
  · have := (bottoms_sublist em).nodup (h1 ▸ hL)
    have e : (bottoms em).map (fun q => Elem.tri q.1) = ((bottoms em).map Prod.fst).map Elem.tri := by
      rw [List.map_map]; rfl
    rw [e] at this
    exact List.Nodup.of_map _ this
  · intro t t' k hk hk' hne
    obtain ⟨n, hn, eb, ec, rfl⟩ := entry t k hk
    obtain ⟨n', hn', eb', ec', e⟩ := entry t' _ hk'
    refine ⟨hne, n, n', hn, hn', ?_⟩
    simp only [Prod.mk.injEq] at e
    obtain ⟨e1, e2⟩ := e
    have : (pool.idxOf (keyAt n t.cell (verts t).b) = pool.idxOf (keyAt n' t'.cell (verts t').b) ∧
        pool.idxOf (keyAt n t.cell (verts t).c) = pool.idxOf (keyAt n' t'.cell (verts t').c)) ∨
      (pool.idxOf (keyAt n t.cell (verts t).b) = pool.idxOf (keyAt n' t'.cell (verts t').c) ∧
        pool.idxOf (keyAt n t.cell (verts t).c) = pool.idxOf (keyAt n' t'.cell (verts t').b)) := by omega
    rcases this with ⟨h3, h4⟩ | ⟨h3, h4⟩
    · exact Or.inl ⟨(List.idxOf_inj eb).mp h3, (List.idxOf_inj ec).mp h4⟩
    · exact Or.inr ⟨(List.idxOf_inj eb).mp h3, (List.idxOf_inj ec).mp h4⟩
  · intro t t' k hk ht' hm
    obtain ⟨n, hn, eb, ec, rfl⟩ := entry t k hk
    obtain ⟨k', hk'⟩ := (inL t').mpr ht'
    obtain ⟨n', hn', eb', ec', rfl⟩ := entry t' k' hk'
    obtain ⟨-, m, m', hm, hm', hh⟩ := hm
    rw [mem_unique hp hm hn, mem_unique hp hm' hn'] at hh
    convert hk' using 2
    rcases hh with ⟨h3, h4⟩ | ⟨h3, h4⟩
    · rw [h3, h4]
    · rw [h3, h4, min_comm, max_comm]

variable {bs : List (Tri × (ℕ × ℕ))}

lemma mem_group {k : ℕ × ℕ} {t : Tri} : t ∈ group bs k ↔ (t, k) ∈ bs := by
  unfold group
  rw [List.mem_map]
  constructor
  · rintro ⟨⟨s, k'⟩, h, rfl⟩
    rw [List.mem_filter] at h
    have := h.2
    simp only [decide_eq_true_eq] at this
    subst this
    exact h.1
  · intro h
    exact ⟨(t, k), by rw [List.mem_filter]; exact ⟨h, by simp⟩, rfl⟩

lemma group_nodup (h : (bs.map Prod.fst).Nodup) (k : ℕ × ℕ) : (group bs k).Nodup := by
  unfold group
  exact h.sublist (List.filter_sublist.map _)

lemma find_entry (h : (bs.map Prod.fst).Nodup) {t : Tri} {k : ℕ × ℕ} (hk : (t, k) ∈ bs) :
    (bs.find? fun q => q.1 = t) = some (t, k) := by
  cases hf : bs.find? fun q => q.1 = t with
  | none =>
    rw [List.find?_eq_none] at hf
    have := hf _ hk
    simp at this
  | some q =>
    have h1 := List.mem_of_find?_eq_some hf
    have h2 := List.find?_some hf
    simp only [decide_eq_true_eq] at h2
    rw [List.inj_on_of_nodup_map h h1 hk h2]

/-- Partners: exactly two triangles with a bottom edge. -/
lemma partner_some (h : (bs.map Prod.fst).Nodup) {t t' : Tri} (hpar : partner bs t = some t') :
    ∃ k, (t, k) ∈ bs ∧ (t', k) ∈ bs ∧ t' ≠ t ∧ partner bs t' = some t := by
  unfold partner at hpar
  rw [Option.bind_eq_some_iff] at hpar
  obtain ⟨⟨s, k⟩, hf, hg⟩ := hpar
  have h1 := List.mem_of_find?_eq_some hf
  have h2 := List.find?_some hf
  simp only [decide_eq_true_eq] at h2
  subst h2
  simp only at hg
  split at hg
  · rename_i a b hgr
    have nd := group_nodup h k
    rw [hgr] at nd
    have hab : a ≠ b := by simpa using nd
    have ma : (a, k) ∈ bs := mem_group.mp (by rw [hgr]; simp)
    have mb : (b, k) ∈ bs := mem_group.mp (by rw [hgr]; simp)
    split_ifs at hg with e1 e2
    · subst e1
      injection hg with hg
      subst hg
      refine ⟨k, ma, mb, hab.symm, ?_⟩
      unfold partner
      rw [find_entry h mb]
      simp only [Option.bind_some, hgr]
      rw [if_neg hab.symm, if_pos trivial]
    · subst e2
      injection hg with hg
      subst hg
      refine ⟨k, mb, ma, hab, ?_⟩
      unfold partner
      rw [find_entry h ma]
      simp only [Option.bind_some, hgr]
      rw [if_pos trivial]
  · cases hg

/-- What is selected: triangles of the mesh, with their partners or facing the boundary. -/
def Sel (L : List Elem) (bs : List (Tri × (ℕ × ℕ))) (fac : Tri → Bool) (acc : List Tri) : Prop :=
  acc.Nodup ∧ ∀ t ∈ acc, Elem.tri t ∈ L ∧
    ((∃ t' ∈ acc, partner bs t = some t') ∨ (partner bs t = none ∧ fac t = true))

lemma select_sel {val : Tri → Option ℚ} {r : ℚ} {fac : Tri → Bool} (hb : Bots B L bs) :
    ∀ {M : List Elem} {acc sel : List Tri}, (∀ e ∈ M, e ∈ L) → Sel L bs fac acc →
      select val r (partner bs) fac M acc = some sel → Sel L bs fac sel := by
  intro M
  induction M with
  | nil =>
    intro acc sel _ ha hs
    simp only [select, Option.some.injEq] at hs
    subst hs; exact ha
  | cons e M ih =>
    intro acc sel hM ha hs
    have hM' : ∀ e ∈ M, e ∈ L := fun e he => hM e (List.mem_cons_of_mem _ he)
    cases e with
    | quad c => exact ih hM' ha hs
    | tri t =>
      have ht : Elem.tri t ∈ L := hM _ List.mem_cons_self
      rw [select] at hs
      by_cases h1 : t ∈ acc
      · rw [if_pos h1] at hs; exact ih hM' ha hs
      rw [if_neg h1] at hs
      by_cases h2 : (partner bs t).isSome = true ∨ fac t = true
      · rw [if_pos h2] at hs
        cases hv : val t with
        | none => rw [hv] at hs; cases hs
        | some v =>
          rw [hv] at hs
          simp only at hs
          by_cases h3 : r ≤ v
          · rw [if_pos h3] at hs
            cases hpar : partner bs t with
            | none =>
              rw [hpar] at hs h2
              simp only [Option.isSome_none, Bool.false_eq_true, false_or] at h2
              refine ih hM' ⟨?_, ?_⟩ hs
              · rw [List.nodup_append]
                exact ⟨ha.1, by simp, by
                  intro a ha b hb e; rw [List.mem_singleton] at hb; subst hb; subst e; exact h1 ha⟩
              · intro s hs
                rcases List.mem_append.mp hs with hs | hs
                · obtain ⟨q1, q2⟩ := ha.2 s hs
                  refine ⟨q1, q2.imp (fun ⟨t', m, e⟩ => ⟨t', List.mem_append_left _ m, e⟩) id⟩
                · rw [List.mem_singleton] at hs; subst hs
                  exact ⟨ht, Or.inr ⟨hpar, h2⟩⟩
            | some t' =>
              rw [hpar] at hs
              obtain ⟨k, hk, hk', hne, hback⟩ := partner_some hb.nodup hpar
              have ht' : Elem.tri t' ∈ L := (hb.mem t').mp ⟨k, hk'⟩
              have hn' : t' ∉ acc := by
                intro hm
                rcases (ha.2 t' hm).2 with ⟨t'', m, e⟩ | ⟨e, _⟩
                · rw [hback] at e; injection e with e; subst e; exact h1 m
                · rw [hback] at e; cases e
              refine ih hM' ⟨?_, ?_⟩ hs
              · rw [List.nodup_append]
                refine ⟨ha.1, by simpa using hne.symm, ?_⟩
                intro a ha b hb e
                simp only [List.mem_cons, List.not_mem_nil, or_false] at hb
                subst e
                rcases hb with rfl | rfl
                · exact h1 ha
                · exact hn' ha
              · intro s hs
                rcases List.mem_append.mp hs with hs | hs
                · obtain ⟨q1, q2⟩ := ha.2 s hs
                  refine ⟨q1, q2.imp (fun ⟨t', m, e⟩ => ⟨t', List.mem_append_left _ m, e⟩) id⟩
                · simp only [List.mem_cons, List.not_mem_nil, or_false] at hs
                  rcases hs with rfl | rfl
                  · exact ⟨ht, Or.inl ⟨t', by simp, hpar⟩⟩
                  · exact ⟨ht', Or.inl ⟨t, by simp, hback⟩⟩
          · rw [if_neg h3] at hs; exact ih hM' ha hs
      · rw [if_neg h2] at hs; exact ih hM' ha hs

lemma mem_boundary {c : ℕ} {d : Dir} (h : (c, d) ∈ boundaryMap B) :
    ∃ n, (c, n) ∈ B ∧ (allFaces B).count (faceNodes n d) = 1 := by
  unfold boundaryMap at h
  rw [List.mem_flatMap] at h
  obtain ⟨q, hq, h⟩ := h
  rw [List.mem_map] at h
  obtain ⟨d', h, e⟩ := h
  injection e with e1 e2
  subst e1 e2
  rw [List.mem_filter] at h
  exact ⟨q.2, hq, by simpa using h.2⟩

lemma boundary_mem {c : ℕ} {d : Dir} {n : Nodes} (hn : (c, n) ∈ B)
    (h : (allFaces B).count (faceNodes n d) = 1) : (c, d) ∈ boundaryMap B := by
  unfold boundaryMap
  rw [List.mem_flatMap]
  refine ⟨_, hn, ?_⟩
  rw [List.mem_map]
  refine ⟨d, ?_, rfl⟩
  rw [List.mem_filter]
  exact ⟨by cases d <;> simp [dirs], by simpa using h⟩

/-- Facing a side of the list. -/
lemma facing_iff (bm : List (ℕ × Dir)) (t : Tri) : facing bm t = true ↔
    ∃ d tb tc, (verts t).b = sidePt d tb ∧ (verts t).c = sidePt d tc ∧ (t.cell, d) ∈ bm := by
  have hne := bc_ne t
  unfold facing
  simp only
  constructor
  · intro h
    split_ifs at h with h1 h2 h3 h4
    · exact ⟨.N, _, _, Pt.ext (h1.1.trans h1.2) rfl, Pt.ext h1.2 rfl, by simpa using h⟩
    · exact ⟨.S, _, _, Pt.ext (h2.1.trans h2.2) rfl, Pt.ext h2.2 rfl, by simpa using h⟩
    · exact ⟨.W, _, _, Pt.ext rfl (h3.1.trans h3.2), Pt.ext rfl h3.2, by simpa using h⟩
    · exact ⟨.E, _, _, Pt.ext rfl (h4.1.trans h4.2), Pt.ext rfl h4.2, by simpa using h⟩
  · rintro ⟨d, tb, tc, e1, e2, hm⟩
    rw [e1, e2] at hne ⊢
    cases d <;> simp only [sidePt] at hne ⊢
    · simpa using hm
    · have : ¬ tb = tc := fun e => hne (by rw [e])
      simp [this, hm]
    · have : ¬ tb = tc := fun e => hne (by rw [e])
      norm_num [this, hm]
    · norm_num [hm]

lemma facing_bnd {t : Tri} (h : facing (boundaryMap B) t = true) : Bnd B t := by
  obtain ⟨d, tb, tc, e1, e2, hm⟩ := (facing_iff _ _).mp h
  obtain ⟨n, hn, hc⟩ := mem_boundary hm
  exact ⟨n, d, tb, tc, hn, e1, e2, hc⟩

lemma refined_split {sel : List Tri} {s : Tri} (h : Refined (splitTris sel L) s) :
    Refined L s ∨ (s ∈ sel ∧ Elem.tri s ∈ L) := by
  obtain ⟨t, ht, h1, h2⟩ := h
  rcases mem_splitTris.mp ht with ⟨ht, _⟩ | ⟨u, k, hu, hs, e⟩
  · exact Or.inl ⟨t, ht, h1, h2⟩
  · injection e with e
    subst e
    have := under_child_cases h1 h2
    by_cases e : s = u
    · subst e; exact Or.inr ⟨hs, hu⟩
    · exact Or.inl ⟨u, hu, this, e⟩

lemma split_refined {sel : List Tri} {s : Tri} (h : s ∈ sel) (hs : Elem.tri s ∈ L) :
    Refined (splitTris sel L) s :=
  ⟨child s .zero, mem_splitTris.mpr (Or.inr ⟨s, .zero, hs, h, rfl⟩), under_child _ _, child_ne _ _⟩

lemma refined_mono {sel : List Tri} {s : Tri} (h : Refined L s) : Refined (splitTris sel L) s := by
  obtain ⟨t, ht, h1, h2⟩ := h
  by_cases e : t ∈ sel
  · refine ⟨child t .zero, mem_splitTris.mpr (Or.inr ⟨t, .zero, ht, e, rfl⟩), Under.trans h1 (under_child _ _), ?_⟩
    rintro rfl
    exact child_ne _ _ (Tri.Under.antisymm (under_child _ _) h1)
  · exact ⟨t, mem_splitTris.mpr (Or.inl ⟨ht, fun t' e' => by cases e'; exact e⟩), h1, h2⟩

lemma closed_split (hb : Bots B L bs) (hcl : Closed B L) {sel : List Tri}
    (hs : Sel L bs (facing (boundaryMap B)) sel) : Closed B (splitTris sel L) := by
  intro s h
  rcases refined_split h with h | ⟨h, hL⟩
  · exact (hcl s h).imp (fun ⟨s', h1, h2⟩ => ⟨s', refined_mono h1, h2⟩) id
  · rcases (hs.2 s h).2 with ⟨s', hm, hp⟩ | ⟨_, hf⟩
    · obtain ⟨k, hk, hk', hne, _⟩ := partner_some hb.nodup hp
      exact Or.inl ⟨s', split_refined hm (hs.2 s' hm).1, hb.mate s s' k hk hk' hne⟩
    · exact Or.inr (facing_bnd hf)

lemma closed_cells (l : List ℕ) : Closed B (splitCells B l) := by
  rintro s ⟨t, ht, h1, h2⟩
  obtain ⟨c, _, ⟨_, e⟩ | ⟨_, d, e⟩⟩ := mem_splitCells.mp ht
  · cases e
  · injection e with e
    subst e
    exfalso
    apply h2
    obtain ⟨g1, g2, g3⟩ := h1
    simp only at g1 g2 g3
    cases s
    simp only at g1 g2 g3
    subst g1 g2
    rw [List.prefix_nil.mp g3]

/-- The invariants of the levels. -/
structure Inv (B : Base) (L : List Elem) : Prop where
  leaves : Leaves B L
  closed : Closed B L

lemma inv_level (hp : (B.map Prod.fst).Nodup) {w : World} {m : Method} {r : ℚ} {s s' : State} {L' : List Elem}
    (hs : s.cache = none ∨ s.cache = some (boundaryMap B)) (h : Inv B L)
    (he : levelHigh B w m r L s = (some L', s')) : Inv B L' ∧ s'.cache = some (boundaryMap B) ∧
      ∃ sel, L' = splitTris sel L := by
  unfold levelHigh at he
  cases hem : elementMap B L with
  | none => rw [hem] at he; simp at he
  | some em =>
    rw [hem] at he
    have hbm : s.cache.getD (boundaryMap B) = boundaryMap B := by rcases hs with e | e <;> rw [e] <;> rfl
    simp only [hbm] at he
    have hb := bots_of_map hp h.leaves.nodup hem
    by_cases hok : pairsOK (bottoms em) (boundaryMap B) = true
    · rw [if_pos hok] at he
      injection he with h1 h2
      rw [Option.bind_eq_some_iff] at h1
      obtain ⟨sel, hsel, h1⟩ := h1
      have hS := select_sel hb (fun e he => he) ⟨List.nodup_nil, by simp⟩ hsel
      rw [if_pos hS.1] at h1
      injection h1 with h1
      subst h1
      exact ⟨⟨leaves_split h.leaves _, closed_split hb h.closed hS⟩, by rw [← h2], sel, rfl⟩
    · rw [if_neg hok] at he
      injection he with h1
      cases h1

lemma inv_levels (hp : (B.map Prod.fst).Nodup) {w : World} {m : Method} (rs : List ℚ) :
    ∀ {L : List Elem} {s s' : State} {L' : List Elem},
    (s.cache = none ∨ s.cache = some (boundaryMap B)) → Inv B L →
    levels B w m rs L s = (some L', s') → Inv B L' := by
  induction rs with
  | nil =>
    intro L s s' L' _ h he
    simp only [levels, Prod.mk.injEq, Option.some.injEq] at he
    rw [← he.1]; exact h
  | cons r rs ih =>
    intro L s s' L' hs h he
    rw [levels] at he
    rcases hl : levelHigh B w m r L s with ⟨o, s1⟩
    rw [hl] at he
    cases o with
    | none => simp at he
    | some L1 =>
      obtain ⟨h1, h2, _⟩ := inv_level hp hs h hl
      exact ih (Or.inr h2) h1 he

lemma inv_refining (hp : (B.map Prod.fst).Nodup) {w : World} {m : Method} {rft : List ℚ} {s s' : State} {L : List Elem}
    (hs : s.cache = none ∨ s.cache = some (boundaryMap B)) (he : refining B w m rft s = (some L, s')) : Inv B L := by
  unfold refining at he
  cases rft with
  | nil => simp at he
  | cons r rs =>
    simp only at he
    cases h1 : levelOne w m r B with
    | none => rw [h1] at he; simp at he
    | some l =>
      rw [h1] at he
      simp only at he
      rcases hl : levels B w m rs (splitCells B l) s with ⟨o, s1⟩
      rw [hl] at he
      cases o with
      | none => simp at he
      | some L1 =>
        simp only [Prod.mk.injEq, Option.some.injEq] at he
        rw [← he.1]
        exact inv_levels hp rs hs ⟨leaves_cells hp l, closed_cells l⟩ hl

/-! No exceptions. -/

/-- A bottom edge with no end inside the cell is on a side. -/
lemma bottom_cases (s : Tri) : (∃ tb tc, (verts s).b = sidePt s.dir tb ∧ (verts s).c = sidePt s.dir tc) ∨
    (-1 < (verts s).b.x ∧ (verts s).b.x < 1 ∧ -1 < (verts s).b.y ∧ (verts s).b.y < 1) ∨
    (-1 < (verts s).c.x ∧ (verts s).c.x < 1 ∧ -1 < (verts s).c.y ∧ (verts s).c.y < 1) := by
  rcases edge_or_inner (in_square (in_vb (verts s))) with gb | g
  · rcases edge_or_inner (in_square (in_vc (verts s))) with gc | g
    · obtain ⟨tb, e1⟩ := on_side (in_vb _) gb
      obtain ⟨tc, e2⟩ := on_side (in_vc _) gc
      exact Or.inl ⟨tb, tc, e1, e2⟩
    · exact Or.inr (Or.inr g)
  · exact Or.inr (Or.inl g)

lemma mate_inner (hp : Proper B) {s s' : Tri} (hm : Mate B s s')
    (hin : (-1 < (verts s).b.x ∧ (verts s).b.x < 1 ∧ -1 < (verts s).b.y ∧ (verts s).b.y < 1) ∨
      (-1 < (verts s).c.x ∧ (verts s).c.x < 1 ∧ -1 < (verts s).c.y ∧ (verts s).c.y < 1)) :
    s.cell = s'.cell ∧ (verts s').b = (verts s).c ∧ (verts s').c = (verts s).b := by
  obtain ⟨hne, n, n', hn, hn', hk⟩ := hm
  have sb := in_square (in_vb (verts s))
  have sc := in_square (in_vc (verts s))
  have sb' := in_square (in_vb (verts s'))
  have sc' := in_square (in_vc (verts s'))
  have lit : s.cell = s'.cell ∧ (((verts s).b = (verts s').b ∧ (verts s).c = (verts s').c) ∨
      ((verts s).b = (verts s').c ∧ (verts s).c = (verts s').b)) := by
    rcases hin with ⟨g1, g2, g3, g4⟩ | ⟨g1, g2, g3, g4⟩
    · rcases hk with ⟨k1, k2⟩ | ⟨k1, k2⟩
      · obtain ⟨r1, r2⟩ := key_own hp hn hn' g1 g2 g3 g4 sb' k1
        rw [← r1] at hn' k2
        rw [mem_unique hp.keys hn' hn] at k2
        exact ⟨r1, Or.inl ⟨r2, key_inj hp hn sc sc' k2⟩⟩
      · obtain ⟨r1, r2⟩ := key_own hp hn hn' g1 g2 g3 g4 sc' k1
        rw [← r1] at hn' k2
        rw [mem_unique hp.keys hn' hn] at k2
        exact ⟨r1, Or.inr ⟨r2, key_inj hp hn sc sb' k2⟩⟩
    · rcases hk with ⟨k1, k2⟩ | ⟨k1, k2⟩
      · obtain ⟨r1, r2⟩ := key_own hp hn hn' g1 g2 g3 g4 sc' k2
        rw [← r1] at hn' k1
        rw [mem_unique hp.keys hn' hn] at k1
        exact ⟨r1, Or.inl ⟨key_inj hp hn sb sb' k1, r2⟩⟩
      · obtain ⟨r1, r2⟩ := key_own hp hn hn' g1 g2 g3 g4 sb' k2
        rw [← r1] at hn' k1
        rw [mem_unique hp.keys hn' hn] at k1
        exact ⟨r1, Or.inr ⟨key_inj hp hn sb sc' k1, r2⟩⟩
  exact ⟨lit.1, mate_swapped hne lit.1 lit.2⟩

/-- A triangle has at most one mate. -/
lemma mate_unique (hp : Proper B) (hal : Aligned B) {s t u : Tri} (ht : Mate B s t) (hu : Mate B s u) : t = u := by
  rcases bottom_cases s with ⟨tb, tc, eb, ec⟩ | hin
  · obtain ⟨n, hn⟩ : ∃ n, (s.cell, n) ∈ B := by obtain ⟨_, n, _, hn, _⟩ := ht; exact ⟨n, hn⟩
    obtain ⟨n1, hn1, e1, ne1, p1⟩ := mate_across hp hal ht hn eb ec
    obtain ⟨n2, hn2, e2, ne2, p2⟩ := mate_across hp hal hu hn eb ec
    have f1 : faceNodes n1 t.dir = faceNodes n s.dir := by rw [faceNodes_eq, faceNodes_eq, e1]
    have f2 : faceNodes n2 u.dir = faceNodes n s.dir := by rw [faceNodes_eq, faceNodes_eq, e2]
    have same : (t.cell, t.dir) = (u.cell, u.dir) := by
      by_contra hno
      have := count_sides (B := B) (k := faceNodes n s.dir)
        (l := [(t.cell, t.dir), (u.cell, u.dir), (s.cell, s.dir)])
        (by
          simp only [List.nodup_cons, List.mem_cons, List.not_mem_nil, or_false, not_or,
            not_false_eq_true, List.nodup_nil, and_true]
          exact ⟨⟨hno, ne1⟩, ne2⟩)
        (by
          intro x hx
          simp only [List.mem_cons, List.not_mem_nil, or_false] at hx
          rcases hx with rfl | rfl | rfl
          · rw [← f1]; exact mem_sides hn1 _
          · rw [← f2]; exact mem_sides hn2 _
          · exact mem_sides hn _)
      have h2 := hp.two (faceNodes n s.dir)
      simp only [List.length_cons, List.length_nil] at this
      omega
    injection same with c d
    by_contra hne
    have hsw := mate_swapped (s := u) (s' := t) hne c.symm (by
      rw [d] at p1
      rcases p1 with ⟨q1, q2⟩ | ⟨q1, q2⟩ <;> rcases p2 with ⟨q3, q4⟩ | ⟨q3, q4⟩
      · exact Or.inl ⟨by rw [q1, q3], by rw [q2, q4]⟩
      · exact Or.inr ⟨by rw [q2, q4], by rw [q1, q3]⟩
      · exact Or.inr ⟨by rw [q1, q3], by rw [q2, q4]⟩
      · exact Or.inl ⟨by rw [q2, q4], by rw [q1, q3]⟩)
    have h2 := size_pos t
    have e : size (verts t) = area2 (verts t).b (verts t).c (verts t).a := by simp only [size, area2]; ring
    rw [e, hsw.1, hsw.2, area2_swap] at h2
    have : 0 ≤ area2 (verts u).b (verts u).c (verts t).a := by
      rcases p2 with ⟨q3, q4⟩ | ⟨q3, q4⟩
      · exact side_nonneg q3 q4 (in_square (in_va _))
      · exact side_nonneg q4 q3 (in_square (in_va _))
    linarith
  · obtain ⟨c1, b1, d1⟩ := mate_inner hp ht hin
    obtain ⟨c2, b2, d2⟩ := mate_inner hp hu hin
    exact verts_inj (c1.symm.trans c2)
      (right_apex (right_verts t) (right_verts u) (b1.trans b2.symm) (d1.trans d2.symm))

lemma group_le (hp : Proper B) (hal : Aligned B) (hb : Bots B L bs) {t : Tri} {k : ℕ × ℕ} (hk : (t, k) ∈ bs) :
    (group bs k).length ≤ 2 := by
  have nd := group_nodup hb.nodup k
  have hm : ∀ s ∈ group bs k, (s, k) ∈ bs := fun s hs => mem_group.mp hs
  match hg : group bs k with
  | [] => simp
  | [_] => simp
  | [_, _] => simp
  | a :: b :: c :: l =>
    exfalso
    rw [hg] at nd hm
    simp only [List.nodup_cons, List.mem_cons, not_or] at nd
    obtain ⟨⟨n1, n2, -⟩, ⟨n3, -⟩, -⟩ := nd
    have := mate_unique hp hal (hb.mate a b k (hm a (by simp)) (hm b (by simp)) (Ne.symm n1))
      (hb.mate a c k (hm a (by simp)) (hm c (by simp)) (Ne.symm n2))
    exact n3 this

lemma bnd_no_mate (hp : Proper B) (hal : Aligned B) {s s' : Tri} (h : Bnd B s) : ¬ Mate B s s' := by
  intro hm
  obtain ⟨n, d, tb, tc, hn, eb, ec, hc⟩ := h
  obtain ⟨n', hn', e, hne, _⟩ := mate_across hp hal hm hn eb ec
  have f : faceNodes n' s'.dir = faceNodes n d := by rw [faceNodes_eq, faceNodes_eq, e]
  have := count_sides (B := B) (k := faceNodes n d) (l := [(s'.cell, s'.dir), (s.cell, d)])
    (by
      simp only [List.nodup_cons, List.mem_cons, List.not_mem_nil, or_false,
        not_false_eq_true, List.nodup_nil, and_true]
      exact hne)
    (by
      intro x hx
      simp only [List.mem_cons, List.not_mem_nil, or_false] at hx
      rcases hx with rfl | rfl
      · rw [← f]; exact mem_sides hn' _
      · exact mem_sides hn _)
  simp only [List.length_cons, List.length_nil] at this
  omega

lemma pairs_ok (hp : Proper B) (hal : Aligned B) (hb : Bots B L bs) : pairsOK bs (boundaryMap B) = true := by
  unfold pairsOK
  rw [List.all_eq_true]
  rintro ⟨t, k⟩ hk
  have h2 := group_le hp hal hb hk
  have hmem : t ∈ group bs k := mem_group.mpr hk
  have hone : facing (boundaryMap B) t = true → (group bs k).length = 1 := by
    intro hf
    match hg : group bs k with
    | [] => rw [hg] at hmem; cases hmem
    | [_] => rfl
    | a :: b :: l =>
      exfalso
      have nd := group_nodup hb.nodup k
      rw [hg] at nd
      simp only [List.nodup_cons, List.mem_cons, not_or] at nd
      have ha : (a, k) ∈ bs := mem_group.mp (by rw [hg]; simp)
      have hb' : (b, k) ∈ bs := mem_group.mp (by rw [hg]; simp)
      by_cases e : a = t
      · exact bnd_no_mate hp hal (facing_bnd hf) (hb.mate t b k hk hb' (fun e' => nd.1.1 (e.trans e'.symm)))
      · exact bnd_no_mate hp hal (facing_bnd hf) (hb.mate t a k hk ha e)
  simp only [Bool.and_eq_true, decide_eq_true_eq, Bool.or_eq_true, Bool.not_eq_true']
  refine ⟨h2, ?_⟩
  cases hf : facing (boundaryMap B) t
  · exact Or.inl rfl
  · exact Or.inr (hone hf)

/-- The loop over the triangles does not raise unless the refining function does. -/
lemma select_some {val : Tri → Option ℚ} (hv : ∀ t, (val t).isSome) (r : ℚ) (par : Tri → Option Tri) (fac : Tri → Bool) :
    ∀ (M : List Elem) (acc : List Tri), ∃ sel, select val r par fac M acc = some sel := by
  intro M
  induction M with
  | nil => intro acc; exact ⟨acc, rfl⟩
  | cons e M ih =>
    intro acc
    cases e with
    | quad c => exact ih acc
    | tri t =>
      rw [select]
      split_ifs with h1 h2
      · exact ih acc
      · obtain ⟨v, hv⟩ := Option.isSome_iff_exists.mp (hv t)
        rw [hv]
        simp only
        split_ifs
        · cases par t with
          | none => exact ih _
          | some t' => exact ih _
        · exact ih acc
      · exact ih acc

lemma elementMap_some (h : ∀ e ∈ L, e.cell ∈ B.map Prod.fst) (hk : (B.map Prod.fst).Nodup) :
    ∃ em, elementMap B L = some em := by
  have : ∃ m, allKeys B L = some m := by
    induction L with
    | nil => exact ⟨[], rfl⟩
    | cons e l ih =>
      obtain ⟨m, hm⟩ := ih (fun e he => h e (List.mem_cons_of_mem _ he))
      have hc := h e List.mem_cons_self
      rw [List.mem_map] at hc
      obtain ⟨⟨c, n⟩, hn, rfl⟩ := hc
      cases e with
      | quad c =>
        simp only [Elem.cell] at hn
        simp [allKeys, keysOf, nodesOf_some hk hn, hm]
      | tri t =>
        simp only [Elem.cell] at hn
        simp [allKeys, keysOf, nodesOf_some hk hn, hm]
  obtain ⟨m, hm⟩ := this
  exact ⟨_, by rw [elementMap, hm]; rfl⟩

lemma level_some (hp : Proper B) (hal : Aligned B) {w : World} {m : Method} {s : State}
    (hv : ∀ t, (triValue w m t).isSome) (hs : s.cache = none ∨ s.cache = some (boundaryMap B))
    (h : Inv B L) (r : ℚ) : ∃ L' s', levelHigh B w m r L s = (some L', s') := by
  obtain ⟨em, hem⟩ := elementMap_some h.leaves.cell hp.keys
  have hb := bots_of_map hp.keys h.leaves.nodup hem
  have hbm : s.cache.getD (boundaryMap B) = boundaryMap B := by rcases hs with e | e <;> rw [e] <;> rfl
  obtain ⟨sel, hsel⟩ := select_some hv r (partner (bottoms em)) (facing (boundaryMap B)) L []
  have hS := select_sel hb (fun e he => he) ⟨List.nodup_nil, by simp⟩ hsel
  refine ⟨splitTris sel L, ⟨some (boundaryMap B)⟩, ?_⟩
  unfold levelHigh
  rw [hem]
  simp only [hbm]
  rw [if_pos (pairs_ok hp hal hb), hsel]
  simp only [Option.bind_some]
  rw [if_pos hS.1]

lemma levels_some (hp : Proper B) (hal : Aligned B) {w : World} {m : Method}
    (hv : ∀ t, (triValue w m t).isSome) (rs : List ℚ) :
    ∀ {L : List Elem} {s : State}, (s.cache = none ∨ s.cache = some (boundaryMap B)) → Inv B L →
      ∃ L' s', levels B w m rs L s = (some L', s') := by
  induction rs with
  | nil => intro L s _ _; exact ⟨L, s, rfl⟩
  | cons r rs ih =>
    intro L s hs h
    obtain ⟨L1, s1, h1⟩ := level_some hp hal hv hs h r
    obtain ⟨i1, i2, _⟩ := inv_level hp.keys hs h h1
    obtain ⟨L2, s2, h2⟩ := ih (Or.inr i2) i1
    exact ⟨L2, s2, by rw [levels, h1]; exact h2⟩

lemma levelOne_some {w : World} {m : Method} (hv : ∀ c, (cellValue w m c).isSome) (r : ℚ) (B : Base) :
    ∃ l, levelOne w m r B = some l := by
  induction B with
  | nil => exact ⟨[], rfl⟩
  | cons q B ih =>
    obtain ⟨l, hl⟩ := ih
    obtain ⟨v, hv⟩ := Option.isSome_iff_exists.mp (hv q.1)
    exact ⟨_, by rw [levelOne, hv, hl]; rfl⟩

lemma maxAt_some {f : Pt → Option ℚ} (hf : ∀ p, (f p).isSome) : ∀ {l : List Pt}, l ≠ [] → (maxAt f l).isSome := by
  intro l
  induction l with
  | nil => intro h; exact absurd rfl h
  | cons p l ih =>
    intro _
    cases l with
    | nil => exact hf p
    | cons q l =>
      obtain ⟨v, hv⟩ := Option.isSome_iff_exists.mp (hf p)
      obtain ⟨u, hu⟩ := Option.isSome_iff_exists.mp (ih (by simp))
      rw [maxAt, hv, hu]
      · rfl
      · simp

end Phyem.Trf
