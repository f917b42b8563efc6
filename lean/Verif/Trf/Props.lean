import Verif.Trf.Levels

/-! Properties of triangular refining. -/

namespace Phyem.Trf

variable {B : Base} {L : List Elem}

/-! Helpers. -/

lemma inv_level_leaves {w : World} {m : Method} {r : ℚ} {s s' : State} {L' : List Elem}
    (h : Leaves B L) (he : levelHigh B w m r L s = (some L', s')) : ∃ sel, L' = splitTris sel L := by
  unfold levelHigh at he
  cases hem : elementMap B L with
  | none => rw [hem] at he; simp at he
  | some em =>
    rw [hem] at he
    simp only at he
    split_ifs at he
    · injection he with h1 h2
      rw [Option.bind_eq_some_iff] at h1
      obtain ⟨sel, _, h1⟩ := h1
      split_ifs at h1
      · injection h1 with h1
        exact ⟨sel, h1.symm⟩
    · injection he with h1
      cases h1

/-- No more levels than asked for. -/
def Shallow (d : ℕ) (L : List Elem) : Prop := ∀ t, Elem.tri t ∈ L → t.path.length ≤ d

lemma shallow_split {d : ℕ} (h : Shallow d L) (sel : List Tri) : Shallow (d + 1) (splitTris sel L) := by
  intro t ht
  rcases mem_splitTris.mp ht with ⟨ht, _⟩ | ⟨u, k, hu, _, e⟩
  · exact (h t ht).trans (Nat.le_succ _)
  · injection e with e
    subst e
    have := h u hu
    simp only [child, List.length_append, List.length_singleton]
    omega

lemma leaves_levels {w : World} {m : Method} (rs : List ℚ) :
    ∀ {L : List Elem} {s s' : State} {L' : List Elem} {d : ℕ}, Leaves B L → Shallow d L →
    levels B w m rs L s = (some L', s') → Leaves B L' ∧ Shallow (d + rs.length) L' := by
  induction rs with
  | nil =>
    intro L s s' L' d h hd he
    simp only [levels, Prod.mk.injEq, Option.some.injEq] at he
    rw [← he.1]; exact ⟨h, hd⟩
  | cons r rs ih =>
    intro L s s' L' d h hd he
    rw [levels] at he
    rcases hl : levelHigh B w m r L s with ⟨o, s1⟩
    rw [hl] at he
    cases o with
    | none => simp at he
    | some L1 =>
      obtain ⟨sel, rfl⟩ := inv_level_leaves h hl
      obtain ⟨k1, k2⟩ := ih (leaves_split h sel) (shallow_split hd sel) he
      refine ⟨k1, ?_⟩
      rw [List.length_cons]
      convert k2 using 1
      omega

lemma leaves_refining (hp : (B.map Prod.fst).Nodup) {w : World} {m : Method} {rft : List ℚ} {s s' : State} {L : List Elem}
    (he : refining B w m rft s = (some L, s')) : Leaves B L ∧ Shallow (rft.length - 1) L := by
  unfold refining at he
  cases rft with
  | nil => simp at he
  | cons r rs =>
    simp only at he
    cases h1 : levelOne w m r B with
    | none => rw [h1] at he; simp at he
    | some l =>
      rw [h1] at he
      simp only at he
      rcases hl : levels B w m rs (splitCells B l) s with ⟨o, s1⟩
      rw [hl] at he
      cases o with
      | none => simp at he
      | some L1 =>
        simp only [Prod.mk.injEq, Option.some.injEq] at he
        rw [← he.1]
        have := leaves_levels rs (leaves_cells hp l) (d := 0) (by
          intro t ht
          obtain ⟨c, _, ⟨_, e⟩ | ⟨_, d, e⟩⟩ := mem_splitCells.mp ht
          · cases e
          · injection e with e
            subst e
            simp) hl
        refine ⟨this.1, ?_⟩
        convert this.2 using 1
        simp

/-! The mesh covers the domain without overlap. -/

/-- Whatever happened before, the elements of a refined mesh are different, each cell of the base mesh is kept or
exactly covered by its triangles, and the triangles run counterclockwise and are halved by each level, of which
there are no more than thresholds.  -/
theorem refined_covers (hk : (B.map Prod.fst).Nodup) {w : World} {m : Method} {rft : List ℚ} {s s' : State}
    (he : refining B w m rft s = (some L, s')) :
    L.Nodup ∧ Tiles B L ∧ (∀ e ∈ L, e.cell ∈ B.map Prod.fst) ∧
    ∀ t, Elem.tri t ∈ L → t.path.length < rft.length ∧
      area2 (verts t).a (verts t).b (verts t).c = 2 / 2 ^ t.path.length := by
  obtain ⟨h, hd⟩ := leaves_refining hk he
  refine ⟨h.nodup, h.tiles, h.cell, fun t ht => ⟨?_, ?_⟩⟩
  · have := hd t ht
    have : rft ≠ [] := by
      rintro rfl
      simp [refining] at he
    have := List.length_pos_iff.mpr this
    omega
  · rw [← size_verts]
    simp only [size, area2]

/-! No hanging nodes. -/

/-- After calls that did not raise, no vertex of a refined mesh lies inside an edge of an element, when neighbouring
cells run through their common side in the same direction. -/
theorem refined_conforming_partial (hp : Proper B) (hal : Aligned B) {w : World} {m : Method} {rft : List ℚ}
    {s s' : State} (hs : s.cache = none) (he : refining B w m rft s = (some L, s')) : NoHanging B L :=
  no_hanging hp hal (inv_refining hp.keys (Or.inl hs) he).leaves (inv_refining hp.keys (Or.inl hs) he).closed

/-- Under the same conditions refining does not raise when the refining function gives numbers: none of the checks of
the pairs fails. -/
theorem refining_succeeds_partial (hp : Proper B) (hal : Aligned B) {w : World} (m : Method) {rft : List ℚ}
    (hr : rft ≠ []) (hw : ∀ p, (w.rff p).isSome)
    (hn : w.number = true ∨ m = .middle) {s : State} (hs : s.cache = none) :
    ∃ L, refining B w m rft s = (some L, ⟨none⟩) := by
  cases rft with
  | nil => exact absurd rfl hr
  | cons r rs =>
    have hc : ∀ c, (cellValue w m c).isSome := by
      intro c
      cases m
      · exact hw _
      · exact maxAt_some (fun p => hw _) (by simp)
    have ht : ∀ t, (triValue w m t).isSome := by
      intro t
      cases m
      · simp only [triValue]
        rw [if_pos (hn.resolve_right (by simp))]
        exact hw _
      · exact maxAt_some (fun p => hw _) (by simp [sevenOf])
    obtain ⟨l, hl⟩ := levelOne_some hc r B
    obtain ⟨L, s1, h1⟩ := levels_some hp hal ht rs (Or.inl hs) ⟨leaves_cells hp.keys l, closed_cells l⟩
    exact ⟨L, by rw [refining]; simp only [hl, h1]⟩

/-! Numbers of the vertices. -/

/-- Two vertices of elements have the same number exactly if they are the same point of the mesh, and the numbers
are `0, ..., N - 1`. -/
theorem numbering_partial (hp : Proper B) (hal : Aligned B) {em : List (Elem × List ℕ)} (h : elementMap B L = some em) :
    em.map Prod.fst = L ∧
    (∀ q ∈ em, q.2.length = q.1.corners.length) ∧
    (∀ q ∈ em, ∀ q' ∈ em, ∀ (i j k k' : ℕ) (p p' : Pt), q.2[i]? = some k → q'.2[j]? = some k' →
      q.1.corners[i]? = some p → q'.1.corners[j]? = some p' →
      (k = k' ↔ Same B q.1.cell p q'.1.cell p')) ∧
    ∃ N, ∀ k, k < N ↔ ∃ q ∈ em, k ∈ q.2 := by
  obtain ⟨h1, pool, hpool, h2, h3⟩ := elementMap_eq h
  refine ⟨h1, ?_, ?_, pool.length, ?_⟩
  · intro q hq
    obtain ⟨n, _, e, _⟩ := h2 q hq
    rw [e, List.length_map]
  · intro q hq q' hq' i j k k' p p' hi hj hi' hj'
    obtain ⟨n, hn, e, hm⟩ := h2 q hq
    obtain ⟨n', hn', e', hm'⟩ := h2 q' hq'
    rw [e, List.getElem?_map, hi', Option.map_some, Option.some.injEq] at hi
    rw [e', List.getElem?_map, hj', Option.map_some, Option.some.injEq] at hj
    have mp := List.mem_of_getElem? hi'
    have mp' := List.mem_of_getElem? hj'
    rw [← hi, ← hj, List.idxOf_inj (hm _ mp)]
    exact key_iff_same hp hal hn hn' (corners_square mp) (corners_square mp')
  · intro k
    constructor
    · intro hk
      obtain ⟨q, hq, hm⟩ := h3 _ (List.getElem_mem hk)
      rw [hpool.idxOf_getElem] at hm
      exact ⟨q, hq, hm⟩
    · rintro ⟨q, hq, hm⟩
      obtain ⟨n, _, e, hm'⟩ := h2 q hq
      rw [e, List.mem_map] at hm
      obtain ⟨p, hp, rfl⟩ := hm
      exact List.idxOf_lt_length_iff.mpr (hm' p hp)

/-! Which triangles are split. -/

lemma mate_iff (hp : Proper B) (hal : Aligned B) {t t' : Tri} (h : t.cell ∈ B.map Prod.fst)
    (h' : t'.cell ∈ B.map Prod.fst) : Mate B t t' ↔ Opposite B t t' := by
  rw [List.mem_map] at h h'
  obtain ⟨⟨c, n⟩, hn, e⟩ := h
  obtain ⟨⟨c', n'⟩, hn', e'⟩ := h'
  simp only at e e'
  subst e e'
  have sb := in_square (in_vb (verts t))
  have sc := in_square (in_vc (verts t))
  have sb' := in_square (in_vb (verts t'))
  have sc' := in_square (in_vc (verts t'))
  constructor
  · rintro ⟨hne, m, m', hm, hm', hh⟩
    refine ⟨hne, ?_⟩
    rw [← key_iff_same hp hal hm hm' sb sb', ← key_iff_same hp hal hm hm' sc sc',
      ← key_iff_same hp hal hm hm' sb sc', ← key_iff_same hp hal hm hm' sc sb']
    exact hh
  · rintro ⟨hne, hh⟩
    refine ⟨hne, n, n', hn, hn', ?_⟩
    rw [key_iff_same hp hal hn hn' sb sb', key_iff_same hp hal hn hn' sc sc',
      key_iff_same hp hal hn hn' sb sc', key_iff_same hp hal hn hn' sc sb']
    exact hh

lemma count_one_iff (hk : (B.map Prod.fst).Nodup) {c : ℕ} {n : Nodes} (hn : (c, n) ∈ B) (d : Dir) :
    (allFaces B).count (faceNodes n d) = 1 ↔
    ∀ n' c' d', (c', n') ∈ B → (ends n' d' = ends n d ∨ ends n' d' = (ends n d).swap) → c' = c ∧ d' = d := by
  have same : ∀ n' d', faceNodes n' d' = faceNodes n d ↔ (ends n' d' = ends n d ∨ ends n' d' = (ends n d).swap) := by
    intro n' d'
    rw [faceNodes_eq, faceNodes_eq]
    rcases ends n' d' with ⟨a', b'⟩
    rcases ends n d with ⟨a, b⟩
    simp only [Prod.mk.injEq, Prod.swap_prod_mk]
    omega
  constructor
  · intro h n' c' d' hn' he
    by_contra hno
    have f := (same n' d').mpr he
    have := count_sides (B := B) (k := faceNodes n d) (l := [(c', d'), (c, d)])
      (by
        simp only [List.nodup_cons, List.mem_cons, List.not_mem_nil, or_false,
          not_false_eq_true, List.nodup_nil, and_true, Prod.mk.injEq]
        exact hno)
      (by
        intro x hx
        simp only [List.mem_cons, List.not_mem_nil, or_false] at hx
        rcases hx with rfl | rfl
        · rw [← f]; exact mem_sides hn' _
        · exact mem_sides hn _)
    simp only [List.length_cons, List.length_nil] at this
    omega
  · intro h
    rw [faces_sides, List.count_eq_length_filter, List.filter_map, List.length_map]
    have hnd : ((sides B).map Prod.fst).Nodup := by
      have : (sides B).map Prod.fst = B.flatMap fun q => dirs.map fun d => (q.1, d) := by
        rw [sides, List.map_flatMap]
        congr 1
      rw [this, List.nodup_flatMap]
      refine ⟨fun q _ => ?_, ?_⟩
      · simp [dirs]
      · refine (List.pairwise_map.mp hk).imp ?_
        intro a b hab x hx hx'
        rw [List.mem_map] at hx hx'
        obtain ⟨_, _, rfl⟩ := hx
        obtain ⟨_, _, e⟩ := hx'
        injection e with e
        exact hab e.symm
    have hall : ∀ x ∈ (sides B).filter (((fun x => x == faceNodes n d)) ∘ Prod.snd), x = ((c, d), faceNodes n d) := by
      rintro ⟨⟨c', d'⟩, k⟩ hx
      rw [List.mem_filter] at hx
      obtain ⟨hx, e⟩ := hx
      simp only [Function.comp, beq_iff_eq] at e
      subst e
      unfold sides at hx
      rw [List.mem_flatMap] at hx
      obtain ⟨⟨c2, n2⟩, h2, hx⟩ := hx
      rw [List.mem_map] at hx
      obtain ⟨d2, _, e⟩ := hx
      simp only [Prod.mk.injEq] at e
      obtain ⟨⟨rfl, rfl⟩, e⟩ := e
      obtain ⟨rfl, rfl⟩ := h n2 c2 d2 h2 ((same n2 d2).mp e)
      rfl
    have hmem : ((c, d), faceNodes n d) ∈ (sides B).filter (((fun x => x == faceNodes n d)) ∘ Prod.snd) := by
      rw [List.mem_filter]
      exact ⟨mem_sides hn d, by simp⟩
    have hnd' : ((sides B).filter (((fun x => x == faceNodes n d)) ∘ Prod.snd)).Nodup :=
      (List.Nodup.of_map _ hnd).filter _
    generalize (sides B).filter (((fun x => x == faceNodes n d)) ∘ Prod.snd) = F at *
    match F with
    | [] => cases hmem
    | [_] => rfl
    | a :: b :: l =>
      exfalso
      have h1 := hall a (by simp)
      have h2 := hall b (by simp)
      rw [h1, h2] at hnd'
      simp at hnd'

lemma bnd_iff (hk : (B.map Prod.fst).Nodup) (t : Tri) : Bnd B t ↔ OnBoundary B t := by
  constructor
  · rintro ⟨n, d, tb, tc, hn, e1, e2, h⟩
    exact ⟨n, d, hn, ⟨tb, tc, e1, e2⟩, (count_one_iff hk hn d).mp h⟩
  · rintro ⟨n, d, hn, ⟨tb, tc, e1, e2⟩, h⟩
    exact ⟨n, d, tb, tc, hn, e1, e2, (count_one_iff hk hn d).mpr h⟩

lemma facing_iff_bnd (hk : (B.map Prod.fst).Nodup) (t : Tri) : facing (boundaryMap B) t = true ↔ Bnd B t := by
  constructor
  · exact facing_bnd
  · rintro ⟨n, d, tb, tc, hn, e1, e2, h⟩
    exact (facing_iff _ _).mpr ⟨d, tb, tc, e1, e2, boundary_mem hn h⟩

variable {bs : List (Tri × (ℕ × ℕ))}

lemma partner_iff (hp : Proper B) (hal : Aligned B) (hb : Bots B L bs) {t t' : Tri} (ht : Elem.tri t ∈ L) :
    partner bs t = some t' ↔ Elem.tri t' ∈ L ∧ Mate B t t' := by
  constructor
  · intro h
    obtain ⟨k, hk, hk', hne, _⟩ := partner_some hb.nodup h
    exact ⟨(hb.mem t').mp ⟨k, hk'⟩, hb.mate t t' k hk hk' hne⟩
  · rintro ⟨ht', hm⟩
    obtain ⟨k, hk⟩ := (hb.mem t).mpr ht
    have hk' := hb.eq t t' k hk ht' hm
    have hle := group_le hp hal hb hk
    have m1 : t ∈ group bs k := mem_group.mpr hk
    have m2 : t' ∈ group bs k := mem_group.mpr hk'
    have hne := hm.1
    unfold partner
    rw [find_entry hb.nodup hk]
    simp only [Option.bind_some]
    generalize group bs k = G at *
    match G with
    | [] => cases m1
    | [a] =>
      rw [List.mem_singleton] at m1 m2
      exact absurd (m2.trans m1.symm) hne
    | [a, b] =>
      simp only [List.mem_cons, List.not_mem_nil, or_false] at m1 m2
      simp only
      rcases m1 with rfl | rfl
      · rcases m2 with rfl | rfl
        · exact absurd rfl hne
        · rw [if_pos rfl]
      · rcases m2 with rfl | rfl
        · rw [if_neg hne.symm, if_pos rfl]
        · exact absurd rfl hne
    | _ :: _ :: _ :: _ => simp at hle

lemma select_mem {val : Tri → Option ℚ} {r : ℚ} {fac : Tri → Bool} (hb : Bots B L bs) :
    ∀ {M : List Elem} {acc sel : List Tri}, (∀ e ∈ M, e ∈ L) → Sel L bs fac acc →
      select val r (partner bs) fac M acc = some sel → ∀ t, t ∈ sel ↔ t ∈ acc ∨
        ∃ u, Elem.tri u ∈ M ∧ (∃ v, val u = some v ∧ r ≤ v) ∧
          ((u = t ∧ ((partner bs u).isSome ∨ fac u = true)) ∨ partner bs u = some t) := by
  intro M
  induction M with
  | nil =>
    intro acc sel _ _ hs t
    simp only [select, Option.some.injEq] at hs
    subst hs; simp
  | cons e M ih =>
    intro acc sel hM ha hs t
    have hM' : ∀ e ∈ M, e ∈ L := fun e he => hM e (List.mem_cons_of_mem _ he)
    cases e with
    | quad c =>
      rw [ih hM' ha hs t]
      simp
    | tri s =>
      have hsL : Elem.tri s ∈ L := hM _ List.mem_cons_self
      rw [select] at hs
      -- what the new triangle adds
      have key : ∀ {acc' : List Tri}, Sel L bs fac acc' → select val r (partner bs) fac M acc' = some sel →
          (t ∈ acc' ↔ t ∈ acc ∨ ((∃ v, val s = some v ∧ r ≤ v) ∧
            ((s = t ∧ ((partner bs s).isSome ∨ fac s = true)) ∨ partner bs s = some t))) →
          (t ∈ sel ↔ t ∈ acc ∨ ∃ u, Elem.tri u ∈ Elem.tri s :: M ∧ (∃ v, val u = some v ∧ r ≤ v) ∧
            ((u = t ∧ ((partner bs u).isSome ∨ fac u = true)) ∨ partner bs u = some t)) := by
        intro acc' ha' hs' hk
        rw [ih hM' ha' hs' t, hk]
        constructor
        · rintro ((h | ⟨h1, h2⟩) | ⟨u, h1, h2⟩)
          · exact Or.inl h
          · exact Or.inr ⟨s, List.mem_cons_self, h1, h2⟩
          · exact Or.inr ⟨u, List.mem_cons_of_mem _ h1, h2⟩
        · rintro (h | ⟨u, h1, h2⟩)
          · exact Or.inl (Or.inl h)
          · rcases List.mem_cons.mp h1 with e | h1
            · injection e with e; subst e; exact Or.inl (Or.inr h2)
            · exact Or.inr ⟨u, h1, h2⟩
      have one : Sel L bs fac acc := ha
      by_cases h1 : s ∈ acc
      · rw [if_pos h1] at hs
        refine key ha hs ⟨Or.inl, ?_⟩
        rintro (h | ⟨_, ⟨rfl, _⟩ | h⟩)
        · exact h
        · exact h1
        · rcases (ha.2 s h1).2 with ⟨t', m, e⟩ | ⟨e, _⟩
          · rw [e] at h; injection h with h; subst h; exact m
          · rw [e] at h; cases h
      rw [if_neg h1] at hs
      by_cases h2 : (partner bs s).isSome = true ∨ fac s = true
      · rw [if_pos h2] at hs
        cases hv : val s with
        | none => rw [hv] at hs; cases hs
        | some v =>
          rw [hv] at hs
          simp only at hs
          by_cases h3 : r ≤ v
          · rw [if_pos h3] at hs
            have hstep : ∀ acc', select val r (partner bs) fac [Elem.tri s] acc = some acc' → Sel L bs fac acc' :=
              fun acc' h => select_sel hb (by intro e he; rw [List.mem_singleton] at he; rw [he]; exact hsL) ha h
            have hone : ∀ acc', (match partner bs s with
                | some t' => some (acc ++ [s, t'])
                | none => some (acc ++ [s])) = some acc' → Sel L bs fac acc' := by
              intro acc' h
              refine hstep acc' ?_
              rw [select, if_neg h1, if_pos h2, hv]
              simp only
              rw [if_pos h3]
              cases hpar : partner bs s <;> rw [hpar] at h <;> simpa [select] using h
            cases hpar : partner bs s with
            | none =>
              rw [hpar] at hs h2
              refine key (hone _ (by rw [hpar])) hs ?_
              rw [List.mem_append, List.mem_singleton, hpar, hv]
              constructor
              · rintro (h | rfl)
                · exact Or.inl h
                · exact Or.inr ⟨⟨v, rfl, h3⟩, Or.inl ⟨rfl, h2⟩⟩
              · rintro (h | ⟨_, ⟨rfl, _⟩ | h⟩)
                · exact Or.inl h
                · exact Or.inr rfl
                · cases h
            | some s' =>
              rw [hpar] at hs h2
              refine key (hone _ (by rw [hpar])) hs ?_
              rw [List.mem_append, hpar, hv]
              simp only [List.mem_cons, List.not_mem_nil, or_false]
              constructor
              · rintro (h | rfl | rfl)
                · exact Or.inl h
                · exact Or.inr ⟨⟨v, rfl, h3⟩, Or.inl ⟨rfl, h2⟩⟩
                · exact Or.inr ⟨⟨v, rfl, h3⟩, Or.inr rfl⟩
              · rintro (h | ⟨_, ⟨rfl, _⟩ | h⟩)
                · exact Or.inl h
                · exact Or.inr (Or.inl rfl)
                · injection h with h; exact Or.inr (Or.inr h.symm)
          · rw [if_neg h3] at hs
            refine key ha hs ⟨Or.inl, ?_⟩
            rintro (h | ⟨⟨u, hu, hr⟩, _⟩)
            · exact h
            · rw [hv] at hu; injection hu with hu; subst hu; exact absurd hr h3
      · rw [if_neg h2] at hs
        refine key ha hs ⟨Or.inl, ?_⟩
        rintro (h | ⟨_, ⟨_, h⟩ | h⟩)
        · exact h
        · exact absurd h h2
        · exact absurd (Or.inl (by rw [h]; rfl)) h2

/-- The elements of a mesh that a higher level starts from: those of a mesh that some thresholds lead to. -/
def Reached (B : Base) (w : World) (m : Method) (rft : List ℚ) (L : List Elem) : Prop :=
  (refining B w m rft ⟨none⟩).1 = some L

lemma levels_append {w : World} {m : Method} (rs : List ℚ) (r : ℚ) :
    ∀ {L : List Elem} {s s' : State} {L' : List Elem}, levels B w m (rs ++ [r]) L s = (some L', s') →
      ∃ L1 s1, levels B w m rs L s = (some L1, s1) ∧ levelHigh B w m r L1 s1 = (some L', s') := by
  induction rs with
  | nil =>
    intro L s s' L' h
    refine ⟨L, s, rfl, ?_⟩
    rw [List.nil_append, levels] at h
    rcases hl : levelHigh B w m r L s with ⟨o, s1⟩
    rw [hl] at h
    cases o with
    | none => simp at h
    | some L1 => simpa [levels] using h
  | cons r0 rs ih =>
    intro L s s' L' h
    rw [List.cons_append, levels] at h
    rcases hl : levelHigh B w m r0 L s with ⟨o, s1⟩
    rw [hl] at h
    cases o with
    | none => simp at h
    | some L1 =>
      obtain ⟨L2, s2, h2, h3⟩ := ih h
      exact ⟨L2, s2, by rw [levels, hl]; exact h2, h3⟩

lemma cache_levels (hk : (B.map Prod.fst).Nodup) {w : World} {m : Method} (rs : List ℚ) :
    ∀ {L : List Elem} {s s' : State} {L' : List Elem}, Inv B L →
      (s.cache = none ∨ s.cache = some (boundaryMap B)) → levels B w m rs L s = (some L', s') →
      (s'.cache = none ∨ s'.cache = some (boundaryMap B)) := by
  induction rs with
  | nil =>
    intro L s s' L' _ hs h
    simp only [levels, Prod.mk.injEq] at h
    rw [← h.2]; exact hs
  | cons r rs ih =>
    intro L s s' L' hi hs h
    rw [levels] at h
    rcases hl : levelHigh B w m r L s with ⟨o, s1⟩
    rw [hl] at h
    cases o with
    | none => simp at h
    | some L1 =>
      obtain ⟨i1, i2, _⟩ := inv_level hk hs hi hl
      exact ih i1 (Or.inr i2) h

/-- The first level splits exactly the cells at which the value reaches the threshold, into four triangles. -/
theorem first_level (hk : (B.map Prod.fst).Nodup) {w : World} {m : Method} {r : ℚ} {s s' : State}
    (he : refining B w m [r] s = (some L, s')) (c : ℕ) (hc : c ∈ B.map Prod.fst) :
    ((∃ v, cellValue w m c = some v ∧ r ≤ v) ∧ ∀ e, e.cell = c → (e ∈ L ↔ ∃ d, e = .tri ⟨c, d, []⟩)) ∨
    ((∃ v, cellValue w m c = some v ∧ v < r) ∧ ∀ e, e.cell = c → (e ∈ L ↔ e = .quad c)) := by
  unfold refining at he
  simp only at he
  cases h1 : levelOne w m r B with
  | none => rw [h1] at he; simp at he
  | some l =>
    rw [h1] at he
    simp only [levels, Prod.mk.injEq, Option.some.injEq] at he
    rw [← he.1]
    have hl : ∃ v, cellValue w m c = some v ∧ (c ∈ l ↔ r ≤ v) := by
      clear he
      induction B generalizing l with
      | nil => cases hc
      | cons q B ih =>
        rw [levelOne, Option.bind_eq_some_iff] at h1
        obtain ⟨v, hv, h1⟩ := h1
        rw [Option.map_eq_some_iff] at h1
        obtain ⟨l', hl', h1⟩ := h1
        rw [List.map_cons, List.nodup_cons] at hk
        have hnot : ∀ x ∈ l', x ∈ B.map Prod.fst := by
          clear ih h1 hk hc
          induction B generalizing l' with
          | nil => simp only [levelOne, Option.some.injEq] at hl'; subst hl'; simp
          | cons q B ih =>
            rw [levelOne, Option.bind_eq_some_iff] at hl'
            obtain ⟨v, hv, h1⟩ := hl'
            rw [Option.map_eq_some_iff] at h1
            obtain ⟨l2, hl2, h1⟩ := h1
            intro x hx
            rw [← h1] at hx
            split_ifs at hx
            · rcases List.mem_cons.mp hx with rfl | hx
              · simp
              · rw [List.map_cons]; exact List.mem_cons_of_mem _ (ih _ hl2 x hx)
            · rw [List.map_cons]; exact List.mem_cons_of_mem _ (ih _ hl2 x hx)
        rw [List.map_cons, List.mem_cons] at hc
        rcases hc with rfl | hc
        · refine ⟨v, hv, ?_⟩
          rw [← h1]
          have : q.1 ∉ l' := fun h => hk.1 (hnot _ h)
          split_ifs with hr
          · simp [hr]
          · exact ⟨fun h => absurd h this, fun h => absurd h hr⟩
        · obtain ⟨u, hu, hiff⟩ := ih hk.2 hc l' hl'
          refine ⟨u, hu, ?_⟩
          rw [← hiff, ← h1]
          have : c ≠ q.1 := by rintro rfl; exact hk.1 hc
          split_ifs with hr
          · simp [this]
          · rfl
    obtain ⟨v, hv, hiff⟩ := hl
    by_cases hr : r ≤ v
    · refine Or.inl ⟨⟨v, hv, hr⟩, fun e hec => ?_⟩
      rw [mem_splitCells]
      constructor
      · rintro ⟨c', _, ⟨hn, rfl⟩ | ⟨_, d, rfl⟩⟩
        · simp only [Elem.cell] at hec
          subst hec
          exact absurd (hiff.mpr hr) hn
        · simp only [Elem.cell] at hec
          subst hec
          exact ⟨d, rfl⟩
      · rintro ⟨d, rfl⟩
        exact ⟨c, hc, Or.inr ⟨hiff.mpr hr, d, rfl⟩⟩
    · refine Or.inr ⟨⟨v, hv, not_le.mp hr⟩, fun e hec => ?_⟩
      rw [mem_splitCells]
      constructor
      · rintro ⟨c', _, ⟨hn, rfl⟩ | ⟨hn, d, rfl⟩⟩
        · simp only [Elem.cell] at hec
          rw [hec]
        · simp only [Elem.cell] at hec
          subst hec
          exact absurd (hiff.mp hn) hr
      · rintro rfl
        exact ⟨c, hc, Or.inl ⟨fun h => hr (hiff.mp h), rfl⟩⟩

/-- One more threshold splits exactly the triangles with another triangle at their bottom edge one of whose two
values reaches it, and the triangles whose bottom edge is on the boundary and whose value reaches it.  They are
replaced by their two halves and all other elements are kept. -/
theorem next_level_partial (hp : Proper B) (hal : Aligned B) {w : World} {m : Method} {rft : List ℚ} (hr : rft ≠ [])
    {r : ℚ} {L' : List Elem} (h : Reached B w m rft L) (h' : Reached B w m (rft ++ [r]) L') :
    ∀ e, e ∈ L' ↔
      (e ∈ L ∧ ∀ t, e = .tri t →
        ¬ ((OnBoundary B t ∧ Reaches w m r t) ∨
          ∃ t', Elem.tri t' ∈ L ∧ Opposite B t t' ∧ (Reaches w m r t ∨ Reaches w m r t'))) ∨
      (∃ t k, Elem.tri t ∈ L ∧ e = .tri (child t k) ∧
        ((OnBoundary B t ∧ Reaches w m r t) ∨
          ∃ t', Elem.tri t' ∈ L ∧ Opposite B t t' ∧ (Reaches w m r t ∨ Reaches w m r t'))) := by
  cases rft with
  | nil => exact absurd rfl hr
  | cons r0 rs =>
    unfold Reached refining at h h'
    rw [List.cons_append] at h'
    simp only at h h'
    cases h1 : levelOne w m r0 B with
    | none => rw [h1] at h; simp at h
    | some l =>
      rw [h1] at h h'
      simp only at h h'
      rcases hl : levels B w m rs (splitCells B l) ⟨none⟩ with ⟨o, s1⟩
      rw [hl] at h
      cases o with
      | none => simp at h
      | some L1 =>
        simp only [Option.some.injEq] at h
        subst h
        rcases hl' : levels B w m (rs ++ [r]) (splitCells B l) ⟨none⟩ with ⟨o, s2⟩
        rw [hl'] at h'
        cases o with
        | none => simp at h'
        | some L2 =>
          simp only [Option.some.injEq] at h'
          subst h'
          obtain ⟨L3, s3, g1, g2⟩ := levels_append rs r hl'
          rw [hl] at g1
          simp only [Prod.mk.injEq, Option.some.injEq] at g1
          obtain ⟨rfl, rfl⟩ := g1
          have i0 : Inv B (splitCells B l) := ⟨leaves_cells hp.keys l, closed_cells l⟩
          have i1 := inv_levels hp.keys rs (Or.inl rfl) i0 hl
          have hs := cache_levels hp.keys rs i0 (Or.inl rfl) hl
          unfold levelHigh at g2
          obtain ⟨em, hem⟩ := elementMap_some i1.leaves.cell hp.keys
          rw [hem] at g2
          have hbm : s1.cache.getD (boundaryMap B) = boundaryMap B := by rcases hs with e | e <;> rw [e] <;> rfl
          simp only [hbm] at g2
          have hb := bots_of_map hp.keys i1.leaves.nodup hem
          rw [if_pos (pairs_ok hp hal hb)] at g2
          injection g2 with g2 _
          rw [Option.bind_eq_some_iff] at g2
          obtain ⟨sel, hsel, g2⟩ := g2
          have hm := select_mem hb (fun e he => he) ⟨List.nodup_nil, by simp⟩ hsel
          split_ifs at g2
          injection g2 with g2
          subst g2
          have crit : ∀ t, Elem.tri t ∈ L1 → (t ∈ sel ↔ ((OnBoundary B t ∧ Reaches w m r t) ∨
              ∃ t', Elem.tri t' ∈ L1 ∧ Opposite B t t' ∧ (Reaches w m r t ∨ Reaches w m r t'))) := by
            intro t ht
            have hc : ∀ t, Elem.tri t ∈ L1 → t.cell ∈ B.map Prod.fst := fun t ht => i1.leaves.cell _ ht
            rw [hm t]
            constructor
            · rintro (h | ⟨u, hu, hr, ⟨rfl, h | h⟩ | h⟩)
              · cases h
              · obtain ⟨t', h⟩ := Option.isSome_iff_exists.mp h
                obtain ⟨k1, k2⟩ := (partner_iff hp hal hb hu).mp h
                exact Or.inr ⟨t', k1, (mate_iff hp hal (hc _ hu) (hc _ k1)).mp k2, Or.inl hr⟩
              · exact Or.inl ⟨(bnd_iff hp.keys u).mp (facing_bnd h), hr⟩
              · obtain ⟨_, _, _, _, h⟩ := partner_some hb.nodup h
                obtain ⟨k1, k2⟩ := (partner_iff hp hal hb ht).mp h
                exact Or.inr ⟨u, k1, (mate_iff hp hal (hc _ ht) (hc _ k1)).mp k2, Or.inr hr⟩
            · rintro (⟨hbd, hr⟩ | ⟨t', ht', ho, hr | hr⟩)
              · exact Or.inr ⟨t, ht, hr, Or.inl ⟨rfl, Or.inr ((facing_iff_bnd hp.keys t).mpr ((bnd_iff hp.keys t).mpr hbd))⟩⟩
              · have h := (partner_iff hp hal hb ht).mpr ⟨ht', (mate_iff hp hal (hc _ ht) (hc _ ht')).mpr ho⟩
                exact Or.inr ⟨t, ht, hr, Or.inl ⟨rfl, Or.inl (by rw [h]; rfl)⟩⟩
              · have h := (partner_iff hp hal hb ht).mpr ⟨ht', (mate_iff hp hal (hc _ ht) (hc _ ht')).mpr ho⟩
                obtain ⟨_, _, _, _, h⟩ := partner_some hb.nodup h
                exact Or.inr ⟨t', ht', hr, Or.inr h⟩
          intro e
          rw [mem_splitTris]
          constructor
          · rintro (⟨he, hn⟩ | ⟨t, k, ht, hs, rfl⟩)
            · exact Or.inl ⟨he, fun t et hcr => hn t et ((crit t (et ▸ he)).mpr hcr)⟩
            · exact Or.inr ⟨t, k, ht, rfl, (crit t ht).mp hs⟩
          · rintro (⟨he, hn⟩ | ⟨t, k, ht, rfl, hs⟩)
            · exact Or.inl ⟨he, fun t et hcr => hn t et ((crit t (et ▸ he)).mp hcr)⟩
            · exact Or.inr ⟨t, k, ht, (crit t ht).mpr hs, rfl⟩

end Phyem.Trf
