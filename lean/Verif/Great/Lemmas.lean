import Verif.Great.Group
import Verif.Great.Spec

/-!
Positions, pools and the loop over the pool.
-/

namespace Phyem.Great

open Phyem.Dict

theorem faces_eq (s : Shape) : faces s = (sides s).map (nodesOn s) := by
  cases s <;> rfl

theorem faceAt_iff (mesh : Mesh) (p : Position) (nodes : List ℕ) :
    FaceAt mesh p nodes ↔ ∃ s, get mesh p.1 = some s ∧ (faces s)[p.2]? = some nodes := by
  unfold FaceAt
  simp only [faces_eq, List.getElem?_map, Option.map_eq_some_iff]
  simp only [eq_comm (a := nodes)]

theorem FaceAt.unique {mesh : Mesh} {p : Position} {n n' : List ℕ} (h : FaceAt mesh p n) (h' : FaceAt mesh p n') :
    n = n' := by
  rw [faceAt_iff] at h h'
  obtain ⟨s, hs, h⟩ := h
  obtain ⟨s', hs', h'⟩ := h'
  obtain rfl := Option.some.inj (hs.symm.trans hs')
  exact Option.some.inj (h.symm.trans h')

theorem mem_positions (mesh : Mesh) (hn : (keys mesh).Nodup) (n : List ℕ) (p : Position) :
    (n, p) ∈ positions mesh ↔ FaceAt mesh p n := by
  rw [faceAt_iff]
  unfold positions
  simp only [List.mem_flatMap, List.mem_map, Prod.exists, Prod.mk.injEq]
  constructor
  · rintro ⟨e, s, hs, n', f, hf, rfl, rfl⟩
    exact ⟨s, get_of_mem _ hn _ _ hs, (List.mem_zipIdx_iff_getElem? (x := (n', f))).1 hf⟩
  · rintro ⟨s, hs, hf⟩
    exact ⟨p.1, s, get_mem _ _ _ hs, n, p.2, (List.mem_zipIdx_iff_getElem? (x := (n, p.2))).2 hf, rfl, rfl⟩

theorem nodup_zipIdx {α : Type} (l : List α) : (l.zipIdx.map Prod.snd).Nodup := by
  rw [List.zipIdx_map_snd]
  exact List.nodup_range'

theorem nodup_positions (mesh : Mesh) (hn : (keys mesh).Nodup) : ((positions mesh).map Prod.snd).Nodup := by
  induction mesh with
  | nil => exact List.nodup_nil
  | cons x mesh ih =>
    have hn' := List.nodup_cons.1 hn
    unfold positions at ih ⊢
    rw [List.flatMap_cons, List.map_append, List.nodup_append]
    refine ⟨?_, ih hn'.2, ?_⟩
    · rw [List.map_map]
      have : (Prod.snd ∘ fun f : List ℕ × ℕ => (f.1, (x.1, f.2))) = (fun i : ℕ => (x.1, i)) ∘ Prod.snd := rfl
      rw [this, ← List.map_map]
      exact (nodup_zipIdx _).map (fun a b h => (Prod.mk.inj h).2)
    · rintro p hp q hq rfl
      simp only [List.map_map, List.mem_map, List.mem_flatMap, Function.comp] at hp hq
      obtain ⟨f, -, rfl⟩ := hp
      obtain ⟨y, ⟨z, hz, g, -, rfl⟩, h⟩ := hq
      have : z.1 = x.1 := (Prod.mk.inj h).1
      exact hn'.1 (this ▸ List.mem_map_of_mem hz)

/-- What is in the pool. -/
theorem mem_pool (mesh : Mesh) (k : List ℕ) (ps : List Position) :
    (k, ps) ∈ pool mesh ↔
      ps ≠ [] ∧ ps = ((positions mesh).filter fun x => sorted x.1 = k).map Prod.snd := by
  unfold pool
  rw [mem_collectAll, List.filter_map, List.map_map]
  rfl

/-- The members of an entry of the pool. -/
theorem mem_entry (mesh : Mesh) (hn : (keys mesh).Nodup) (k : List ℕ) (ps : List Position)
    (h : (k, ps) ∈ pool mesh) (p : Position) :
    p ∈ ps ↔ ∃ n, FaceAt mesh p n ∧ sorted n = k := by
  rw [mem_pool] at h
  rw [h.2]
  simp only [List.mem_map, List.mem_filter, decide_eq_true_eq, Prod.exists, exists_eq_right]
  simp only [mem_positions mesh hn]

theorem nodup_entry (mesh : Mesh) (hn : (keys mesh).Nodup) (k : List ℕ) (ps : List Position)
    (h : (k, ps) ∈ pool mesh) : ps.Nodup := by
  rw [mem_pool] at h
  rw [h.2]
  exact (nodup_positions mesh hn).sublist ((List.filter_sublist).map _)

/-- Every face is in the pool. -/
theorem exists_entry (mesh : Mesh) (hn : (keys mesh).Nodup) (p : Position) (n : List ℕ) (h : FaceAt mesh p n) :
    ∃ ps, (sorted n, ps) ∈ pool mesh ∧ p ∈ ps := by
  have hp : p ∈ ((positions mesh).filter fun x => sorted x.1 = sorted n).map Prod.snd := by
    simp only [List.mem_map, List.mem_filter, decide_eq_true_eq, Prod.exists, exists_eq_right]
    exact ⟨n, (mem_positions mesh hn n p).2 h, rfl⟩
  exact ⟨_, (mem_pool _ _ _).2 ⟨List.ne_nil_of_mem hp, rfl⟩, hp⟩

/-- Entries of the pool with a common position are the same. -/
theorem entry_unique (mesh : Mesh) (hn : (keys mesh).Nodup) (k k' : List ℕ) (ps ps' : List Position)
    (h : (k, ps) ∈ pool mesh) (h' : (k', ps') ∈ pool mesh) (p : Position) (hp : p ∈ ps) (hp' : p ∈ ps') :
    k = k' ∧ ps = ps' := by
  obtain ⟨n, hf, rfl⟩ := (mem_entry mesh hn k ps h p).1 hp
  obtain ⟨n', hf', rfl⟩ := (mem_entry mesh hn k' ps' h' p).1 hp'
  obtain rfl := hf.unique hf'
  rw [mem_pool] at h h'
  exact ⟨rfl, h.2.trans h'.2.symm⟩

/-- A table of neighbours after a part of the pool. -/
structure Done (mesh : Mesh) (part : List (List ℕ × List Position)) (nb : Dict ℕ (List (Option ℕ))) : Prop where
  /-- the same elements -/
  keys_eq : keys nb = keys mesh
  /-- an entry per face -/
  length_eq : ∀ e s row, get mesh e = some s → get nb e = some row → row.length = (faces s).length
  /-- the neighbours found so far -/
  entry : ∀ (e f : ℕ) (row : List (Option ℕ)) (v : Option ℕ), get nb e = some row → row[f]? = some v → ∀ e', v = some e' ↔
    ∃ k p q, (k, [p, q]) ∈ part ∧ ((p = (e, f) ∧ q.1 = e') ∨ (q = (e, f) ∧ p.1 = e'))

theorem get_map_val {V W : Type} (g : V → W) (d : Dict ℕ V) (k : ℕ) :
    get (d.map fun x => (x.1, g x.2)) k = (get d k).map g := by
  induction d with
  | nil => rfl
  | cons x d ih =>
    obtain ⟨k', v⟩ := x
    simp only [List.map_cons, Dict.get, ih]
    split_ifs <;> rfl

theorem done_nil (mesh : Mesh) :
    Done mesh [] (mesh.map fun x => (x.1, List.replicate (faces x.2).length none)) where
  keys_eq := by simp [keys, Function.comp_def]
  length_eq := by
    intro e s row hs h
    rw [get_map_val (fun s : Shape => List.replicate (faces s).length (none : Option ℕ)), hs] at h
    obtain rfl := Option.some.inj h
    simp
  entry := by
    intro e f row v h hv e'
    rw [get_map_val (fun s : Shape => List.replicate (faces s).length (none : Option ℕ))] at h
    obtain ⟨s, -, rfl⟩ := Option.map_eq_some_iff.1 h
    rw [List.getElem?_replicate] at hv
    split_ifs at hv
    obtain rfl := Option.some.inj hv
    simp

theorem get_setNeighbor (nb : Dict ℕ (List (Option ℕ))) (e f e' a : ℕ) (row : List (Option ℕ))
    (h : get nb e = some row) :
    get (setNeighbor nb e f e') a = if a = e then some (row.set f (some e')) else get nb a := by
  unfold setNeighbor
  rw [h]
  simp only [get_put]

theorem keys_setNeighbor (nb : Dict ℕ (List (Option ℕ))) (e f e' : ℕ) :
    keys (setNeighbor nb e f e') = keys nb := by
  unfold setNeighbor
  split
  · rename_i row h
    rw [keys_put, if_pos ((get_isSome nb e).1 (by rw [h]; rfl))]
  · rfl

/-- One entry of the table after an assignment. -/
theorem entry_setNeighbor (nb : Dict ℕ (List (Option ℕ))) (e f e' : ℕ) (row0 : List (Option ℕ))
    (h0 : get nb e = some row0) (hf : f < row0.length) (a b : ℕ) (row : List (Option ℕ)) (v : Option ℕ)
    (h : get (setNeighbor nb e f e') a = some row) (hv : row[b]? = some v) :
    (((a, b) = (e, f)) ∧ v = some e') ∨
      (((a, b) ≠ (e, f)) ∧ ∃ row', get nb a = some row' ∧ row'[b]? = some v ∧ row'.length = row.length) := by
  rw [get_setNeighbor nb e f e' a row0 h0] at h
  split_ifs at h with hae
  · subst hae
    obtain rfl := Option.some.inj h
    rw [List.getElem?_set] at hv
    split_ifs at hv with hb
    · exact .inl ⟨by rw [hb], (Option.some.inj hv).symm⟩
    · exact .inr ⟨by simp; exact fun h => hb h.symm, row0, h0, hv, by simp⟩
  · exact .inr ⟨by simp [hae], row, h, hv, rfl⟩

/-- A position of the pool has a free place until its entry is reached. -/
theorem isFree_of_done (mesh : Mesh) (hn : (keys mesh).Nodup) (part rest : List (List ℕ × List Position))
    (k : List ℕ) (ps : List Position) (hp : pool mesh = part ++ (k, ps) :: rest)
    (nb : Dict ℕ (List (Option ℕ))) (hd : Done mesh part nb) (p : Position) (h : p ∈ ps) :
    isFree nb p.1 p.2 = true ∧ ∃ row, get nb p.1 = some row ∧ p.2 < row.length := by
  have hmem : (k, ps) ∈ pool mesh := by rw [hp]; simp
  obtain ⟨n, hf, -⟩ := (mem_entry mesh hn k ps hmem p).1 h
  rw [faceAt_iff] at hf
  obtain ⟨s, hs, hf⟩ := hf
  have hk : p.1 ∈ keys nb := by rw [hd.keys_eq]; exact (get_isSome _ _).1 (by rw [hs]; rfl)
  obtain ⟨row, hrow⟩ := Option.isSome_iff_exists.1 ((get_isSome nb p.1).2 hk)
  have hlt : p.2 < row.length := by
    rw [hd.length_eq _ _ _ hs hrow]
    exact (List.getElem?_eq_some_iff.1 hf).1
  refine ⟨?_, row, hrow, hlt⟩
  unfold isFree
  rw [hrow]
  have hv : row[p.2]? = some row[p.2] := List.getElem?_eq_getElem hlt
  cases hval : row[p.2] with
  | none => simp [hv, hval]
  | some e' =>
    exfalso
    obtain ⟨k', p', q', hm, hpq⟩ := (hd.entry p.1 p.2 row _ hrow hv e').1 hval
    have hm' : (k', [p', q']) ∈ pool mesh := by rw [hp]; exact List.mem_append_left _ hm
    have hin : p ∈ [p', q'] := by
      rcases hpq with ⟨h1, -⟩ | ⟨h1, -⟩ <;> simp [h1]
    obtain ⟨e1, e2⟩ := entry_unique mesh hn _ _ _ _ hmem hm' p h hin
    have hnd : (keys (pool mesh)).Nodup := nodup_collectAll _
    rw [hp] at hnd
    simp only [keys, List.map_append, List.map_cons] at hnd
    have := (List.nodup_append.1 hnd).2.2 k (by rw [e1]; exact List.mem_map_of_mem hm) k (by simp)
    exact this rfl

/-- One step of the loop. -/
theorem done_step (mesh : Mesh) (hn : (keys mesh).Nodup) (part rest : List (List ℕ × List Position))
    (k : List ℕ) (ps : List Position) (hp : pool mesh = part ++ (k, ps) :: rest)
    (nb : Dict ℕ (List (Option ℕ))) (hd : Done mesh part nb) :
    ∃ nb', pair nb ps = some nb' ∧ Done mesh (part ++ [(k, ps)]) nb' := by
  have hmem : (k, ps) ∈ pool mesh := by rw [hp]; simp
  by_cases h2 : ∃ p q, ps = [p, q]
  · obtain ⟨⟨e0, f0⟩, ⟨e1, f1⟩, rfl⟩ := h2
    obtain ⟨hfree0, row0, hrow0, hlt0⟩ := isFree_of_done mesh hn part rest k _ hp nb hd (e0, f0) (by simp)
    obtain ⟨hfree1, row1, hrow1, hlt1⟩ := isFree_of_done mesh hn part rest k _ hp nb hd (e1, f1) (by simp)
    have hne : ((e0, f0) : Position) ≠ (e1, f1) := by
      have := nodup_entry mesh hn k _ hmem
      simpa using this
    dsimp only at hfree0 hrow0 hlt0 hfree1 hrow1 hlt1
    refine ⟨setNeighbor (setNeighbor nb e0 f0 e1) e1 f1 e0, by simp [pair, hfree0, hfree1], ?_⟩
    -- the row of `e1` after the first assignment
    obtain ⟨row1', hrow1', hlt1'⟩ : ∃ row, get (setNeighbor nb e0 f0 e1) e1 = some row ∧ f1 < row.length := by
      rw [get_setNeighbor nb e0 f0 e1 e1 row0 hrow0]
      by_cases he : e1 = e0
      · subst he
        obtain rfl := Option.some.inj (hrow0.symm.trans hrow1)
        exact ⟨_, if_pos rfl, by simpa using hlt1⟩
      · exact ⟨row1, by rw [if_neg he, hrow1], hlt1⟩
    refine ⟨by rw [keys_setNeighbor, keys_setNeighbor, hd.keys_eq], ?_, ?_⟩
    · intro e s row hs h
      rw [get_setNeighbor _ _ _ _ _ row1' hrow1'] at h
      have aux : ∀ r, get (setNeighbor nb e0 f0 e1) e = some r → r.length = (faces s).length := by
        intro r hr
        rw [get_setNeighbor _ _ _ _ _ row0 hrow0] at hr
        split_ifs at hr with he
        · subst he
          obtain rfl := Option.some.inj hr
          rw [List.length_set]
          exact hd.length_eq _ _ _ hs hrow0
        · exact hd.length_eq _ _ _ hs hr
      split_ifs at h with he
      · subst he
        obtain rfl := Option.some.inj h
        rw [List.length_set]
        exact aux _ hrow1'
      · exact aux _ h
    · intro a b row v h hv e'
      have hpart : ∀ k' p q, (k', [p, q]) ∈ part → (a, b) ∈ [p, q] →
          (a, b) ≠ ((e0, f0) : Position) ∧ (a, b) ≠ ((e1, f1) : Position) := by
        intro k' p q hm hin
        have hm' : (k', [p, q]) ∈ pool mesh := by rw [hp]; exact List.mem_append_left _ hm
        have hno : ∀ x : Position, x ∈ [(e0, f0), (e1, f1)] → (a, b) ≠ x := by
          intro x hx hax
          obtain ⟨e1', -⟩ := entry_unique mesh hn _ _ _ _ hmem hm' x hx (hax ▸ hin)
          have hnd : (keys (pool mesh)).Nodup := nodup_collectAll _
          rw [hp] at hnd
          simp only [keys, List.map_append, List.map_cons] at hnd
          exact (List.nodup_append.1 hnd).2.2 k (by rw [e1']; exact List.mem_map_of_mem hm) k (by simp) rfl
        exact ⟨hno _ (by simp), hno _ (by simp)⟩
      have hfalse : (a, b) = ((e0, f0) : Position) ∨ (a, b) = ((e1, f1) : Position) →
          ¬ ∃ k p q, (k, [p, q]) ∈ part ∧ ((p = (a, b) ∧ q.1 = e') ∨ (q = (a, b) ∧ p.1 = e')) := by
        rintro hor ⟨k', p, q, hm, hpq⟩
        have hin : (a, b) ∈ [p, q] := by rcases hpq with ⟨h1, -⟩ | ⟨h1, -⟩ <;> simp [h1]
        obtain ⟨h1, h2⟩ := hpart k' p q hm hin
        rcases hor with h | h
        · exact h1 h
        · exact h2 h
      have hsplit : (∃ k' p q, (k', [p, q]) ∈ part ++ [(k, [(e0, f0), (e1, f1)])] ∧
            ((p = (a, b) ∧ q.1 = e') ∨ (q = (a, b) ∧ p.1 = e'))) ↔
          (∃ k p q, (k, [p, q]) ∈ part ∧ ((p = (a, b) ∧ q.1 = e') ∨ (q = (a, b) ∧ p.1 = e'))) ∨
          (((e0, f0) = (a, b) ∧ e1 = e') ∨ ((e1, f1) = (a, b) ∧ e0 = e')) := by
        constructor
        · rintro ⟨k', p, q, hm, h⟩
          rcases List.mem_append.1 hm with hm | hm
          · exact .inl ⟨k', p, q, hm, h⟩
          · simp only [List.mem_singleton, Prod.mk.injEq, List.cons.injEq, and_true] at hm
            obtain ⟨-, rfl, rfl⟩ := hm
            exact .inr h
        · rintro (⟨k', p, q, hm, h⟩ | h)
          · exact ⟨k', p, q, List.mem_append_left _ hm, h⟩
          · exact ⟨k, (e0, f0), (e1, f1), List.mem_append_right _ (by simp), h⟩
      rw [hsplit]
      rcases entry_setNeighbor _ e1 f1 e0 row1' hrow1' hlt1' a b row v h hv with ⟨hab, rfl⟩ | ⟨hab, r, hr, hrv, -⟩
      · have h0 : (e0, f0) ≠ (a, b) := by rw [hab]; exact hne
        refine ⟨fun h => .inr (.inr ⟨hab.symm, Option.some.inj h⟩), ?_⟩
        rintro (h | ⟨h, -⟩ | ⟨-, h⟩)
        · exact absurd h (hfalse (.inr hab))
        · exact absurd h h0
        · rw [h]
      · rcases entry_setNeighbor _ e0 f0 e1 row0 hrow0 hlt0 a b r v hr hrv with ⟨hab', rfl⟩ | ⟨hab', r', hr', hrv', -⟩
        · have h1 : (e1, f1) ≠ (a, b) := by rw [hab']; exact hne.symm
          refine ⟨fun h => .inr (.inl ⟨hab'.symm, Option.some.inj h⟩), ?_⟩
          rintro (h | ⟨-, h⟩ | ⟨h, -⟩)
          · exact absurd h (hfalse (.inl hab'))
          · rw [h]
          · exact absurd h h1
        · rw [hd.entry a b r' v hr' hrv' e']
          simp only [hab.symm, hab'.symm, false_and, or_false]
  · refine ⟨nb, ?_, hd.keys_eq, hd.length_eq, ?_⟩
    · unfold pair
      split
      · rename_i e0 f0 e1 f1
        exact absurd ⟨_, _, rfl⟩ h2
      · rfl
    · intro e f row v h hv e'
      rw [hd.entry e f row v h hv e']
      constructor
      · rintro ⟨k', p, q, hm, h⟩
        exact ⟨k', p, q, List.mem_append_left _ hm, h⟩
      · rintro ⟨k', p, q, hm, h⟩
        rcases List.mem_append.1 hm with hm | hm
        · exact ⟨k', p, q, hm, h⟩
        · simp only [List.mem_singleton, Prod.mk.injEq] at hm
          exact absurd ⟨p, q, hm.2.symm⟩ h2

theorem done_fold (mesh : Mesh) (hn : (keys mesh).Nodup) (rest : List (List ℕ × List Position)) :
    ∀ (part : List (List ℕ × List Position)) (nb : Dict ℕ (List (Option ℕ))), pool mesh = part ++ rest →
      Done mesh part nb →
      ∃ nb', rest.foldlM (fun nb x => pair nb x.2) nb = some nb' ∧ Done mesh (pool mesh) nb' := by
  induction rest with
  | nil =>
    intro part nb hp hd
    exact ⟨nb, rfl, by rw [hp, List.append_nil]; exact hd⟩
  | cons x rest ih =>
    intro part nb hp hd
    obtain ⟨nb', h1, h2⟩ := done_step mesh hn part rest x.1 x.2 hp nb hd
    obtain ⟨nb'', h3, h4⟩ := ih (part ++ [(x.1, x.2)]) nb' (by rw [hp]; simp) h2
    refine ⟨nb'', ?_, h4⟩
    rw [List.foldlM_cons, h1]
    exact h3

theorem neighbors_done (mesh : Mesh) (hn : (keys mesh).Nodup) :
    ∃ nb, neighbors mesh = some nb ∧ Done mesh (pool mesh) nb :=
  done_fold mesh hn (pool mesh) [] _ rfl (done_nil mesh)

end Phyem.Great
