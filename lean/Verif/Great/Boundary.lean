import Verif.Great.Neighbors
import Mathlib.Tactic.IntervalCases

/-!
C82: the boundary faces of a patch of elements.
-/

namespace Phyem.Great

open Phyem.Dict

theorem lookup_spec (mesh : Mesh) (range : List ℕ) :
    (lookup mesh range = none ∧ ∃ i ∈ range, i ∉ keys mesh) ∨
      (∃ patch, lookup mesh range = some patch ∧ keys patch = range ∧ (∀ i ∈ range, i ∈ keys mesh) ∧
        ∀ e s, (e, s) ∈ patch ↔ e ∈ range ∧ get mesh e = some s) := by
  induction range with
  | nil => exact .inr ⟨[], rfl, rfl, by simp, by simp⟩
  | cons i range ih =>
    unfold lookup
    cases hg : get mesh i with
    | none => exact .inl ⟨rfl, i, by simp, (get_eq_none _ _).1 hg⟩
    | some s =>
      have hi : i ∈ keys mesh := (get_isSome _ _).1 (by rw [hg]; rfl)
      rcases ih with ⟨h, j, hj, hjk⟩ | ⟨patch, h, hk, hall, hmem⟩
      · exact .inl ⟨by simp [h], j, by simp [hj], hjk⟩
      · refine .inr ⟨(i, s) :: patch, by simp [h], by simpa [keys] using hk, ?_, ?_⟩
        · intro j hj
          rcases List.mem_cons.1 hj with rfl | hj
          · exact hi
          · exact hall j hj
        · intro e s'
          simp only [List.mem_cons, Prod.mk.injEq, hmem]
          constructor
          · rintro (⟨rfl, rfl⟩ | ⟨h1, h2⟩)
            · exact ⟨.inl rfl, hg⟩
            · exact ⟨.inr h1, h2⟩
          · rintro ⟨rfl | h1, h2⟩
            · exact .inl ⟨rfl, Option.some.inj (h2.symm.trans hg)⟩
            · exact .inr ⟨h1, h2⟩

theorem undirected_eq (s : Shape) (n : List ℕ) (h : n ∈ faces s) : undirected s n = sorted n := by
  have two : ∀ a b : ℕ, [min a b, max a b] = sorted [a, b] := by
    intro a b
    simp only [sorted, List.insertionSort_cons, List.insertionSort_nil, List.orderedInsert]
    split_ifs with hab
    · rw [min_eq_left hab, max_eq_right hab]
    · rw [min_eq_right (by omega), max_eq_left (by omega)]
  cases s <;> simp only [faces, List.mem_cons, List.not_mem_nil, or_false] at h <;>
    rcases h with rfl | rfl | rfl | h <;> first | exact two _ _ | rfl | skip
  · obtain rfl := h; exact two _ _
  · obtain rfl := h; exact two _ _

theorem counts_eq (patch : Mesh) :
    counts patch = ((positions patch).map fun x => sorted x.1).foldl
      (fun d k => put d k ((get d k).getD 0 + 1)) [] := by
  unfold counts
  congr 1
  unfold positions
  rw [List.map_flatMap]
  congr 1
  funext x
  rw [List.map_map]
  have : ((fun x : List ℕ × Position => sorted x.1) ∘ fun f : List ℕ × ℕ => (f.1, (x.1, f.2))) =
      sorted ∘ Prod.fst := rfl
  rw [this, ← List.map_map, List.zipIdx_map_fst]
  exact List.map_congr_left fun n hn => undirected_eq _ _ hn

theorem sorted_perm (l : List ℕ) : (sorted l).Perm l := List.perm_insertionSort _ l

theorem mem_indicators (patch : Mesh) (n : List ℕ) :
    n ∈ indicators patch ↔
      (sorted n, 1) ∈ counts patch ∧ (n.length = 2 ∨ n = sorted n) := by
  have hsorted : ∀ k c, (k, c) ∈ counts patch → ∃ m, k = sorted m := by
    intro k c h
    rw [counts_eq, mem_count] at h
    obtain ⟨x, -, rfl⟩ := List.mem_map.1 h.1
    exact ⟨_, rfl⟩
  have hidem : ∀ m, sorted (sorted m) = sorted m := fun m => (sorted_eq_iff _ _).2 (sorted_perm m)
  unfold indicators
  simp only [List.mem_flatMap, Prod.exists]
  constructor
  · rintro ⟨k, c, hm, hn⟩
    obtain ⟨m, hk⟩ := hsorted k c hm
    split_ifs at hn with hc
    · subst hc
      split at hn
      · rename_i a b
        simp only [List.mem_cons, List.not_mem_nil, or_false] at hn
        have : sorted n = [a, b] := by
          have h2 : sorted [a, b] = [a, b] := by rw [hk, hidem]
          rcases hn with rfl | rfl
          · exact h2
          · rw [← h2, sorted_eq_iff]
            exact List.Perm.swap _ _ _
        refine ⟨by rw [this]; exact hm, .inl ?_⟩
        rcases hn with rfl | rfl <;> rfl
      · rename_i heq
        simp only [List.mem_singleton] at hn
        subst hn
        rw [hk, hidem] 
        exact ⟨hk ▸ hm, .inr rfl⟩
    · simp at hn
  · rintro ⟨hm, hn⟩
    refine ⟨sorted n, 1, hm, ?_⟩
    rw [if_pos rfl]
    split
    · rename_i a b heq
      have hp : n.Perm [a, b] := heq ▸ (sorted_perm n).symm
      have h2 : n.length = 2 := hp.length_eq
      match n, h2 with
      | [c, d], _ =>
        simp only [sorted, List.insertionSort_cons, List.insertionSort_nil, List.orderedInsert] at heq
        split_ifs at heq <;> simp_all
    · rename_i hno
      rcases hn with hn | hn
      · exfalso
        have hl : (sorted n).length = 2 := by rw [(sorted_perm n).length_eq, hn]
        match hs : sorted n, hl with
        | [a, b], _ => exact hno a b hs
      · simp only [List.mem_singleton]
        exact hn

theorem isBoundary_iff (patch : Mesh) (s : Shape) (n : List ℕ) (h : n ∈ faces s) :
    isBoundary patch s n = true ↔ (sorted n, 1) ∈ counts patch := by
  have hidem : ∀ m, sorted (sorted m) = sorted m := fun m => (sorted_eq_iff _ _).2 (sorted_perm m)
  unfold isBoundary
  split_ifs with hf
  · rw [List.contains_iff_mem, mem_indicators]
    have : n.length = 2 := by
      cases s <;> simp only [faces, List.mem_cons, List.not_mem_nil, or_false] at h
      · rcases h with rfl | rfl | rfl <;> rfl
      · rcases h with rfl | rfl | rfl | rfl <;> rfl
      · rcases h with rfl | rfl | rfl | rfl <;> rfl
      · cases hf
    simp [this]
  · rw [List.contains_iff_mem, mem_indicators, hidem]
    simp

theorem faceAt_patch (mesh patch : Mesh) (range : List ℕ) (hn : range.Nodup) (hk : keys patch = range)
    (hmem : ∀ e s, (e, s) ∈ patch ↔ e ∈ range ∧ get mesh e = some s) (p : Position) (n : List ℕ) :
    FaceAt patch p n ↔ p.1 ∈ range ∧ FaceAt mesh p n := by
  have hkn : (keys patch).Nodup := by rw [hk]; exact hn
  have : ∀ e s, get patch e = some s ↔ e ∈ range ∧ get mesh e = some s := fun e s =>
    ⟨fun h => (hmem e s).1 (get_mem _ _ _ h), fun h => get_of_mem _ hkn _ _ ((hmem e s).2 h)⟩
  simp only [FaceAt, this]
  constructor
  · rintro ⟨s, ⟨h1, h2⟩, h3⟩
    exact ⟨h1, s, h2, h3⟩
  · rintro ⟨h1, s, h2, h3⟩
    exact ⟨s, ⟨h1, h2⟩, h3⟩

/-- Met once: no other position of the patch has these nodes. -/
theorem once_iff (patch : Mesh) (hkn : (keys patch).Nodup) (p : Position) (n : List ℕ) (h : FaceAt patch p n) :
    (sorted n, 1) ∈ counts patch ↔ ∀ q, ¬ Meet patch p q := by
  rw [counts_eq, mem_count]
  have hx : (n, p) ∈ positions patch := (mem_positions patch hkn n p).2 h
  have hlen : (((positions patch).map fun x => sorted x.1).filter fun x => x = sorted n).length =
      (((positions patch).filter fun x => sorted x.1 = sorted n).map Prod.snd).length := by
    rw [List.filter_map, List.length_map, List.length_map]
    congr 1
  rw [hlen]
  have hmem : ∀ q, q ∈ ((positions patch).filter fun x => sorted x.1 = sorted n).map Prod.snd ↔
      ∃ m, FaceAt patch q m ∧ m.Perm n := by
    intro q
    simp only [List.mem_map, List.mem_filter, decide_eq_true_eq, Prod.exists, exists_eq_right,
      mem_positions patch hkn, sorted_eq_iff]
  have hnd : (((positions patch).filter fun x => sorted x.1 = sorted n).map Prod.snd).Nodup :=
    (nodup_positions patch hkn).sublist ((List.filter_sublist).map _)
  generalize ((positions patch).filter fun x => sorted x.1 = sorted n).map Prod.snd = w at hmem hnd ⊢
  have hp : p ∈ w := (hmem p).2 ⟨n, h, .refl _⟩
  constructor
  · rintro ⟨-, h1⟩ q ⟨hne, m, m', hm, hm', hperm⟩
    obtain ⟨a, rfl⟩ := List.length_eq_one_iff.1 h1.symm
    obtain rfl := hm.unique h
    have hq : q ∈ [a] := (hmem q).2 ⟨m', hm', hperm.symm⟩
    simp only [List.mem_singleton] at hp hq
    exact hne (hp.trans hq.symm)
  · intro hno
    refine ⟨List.mem_map_of_mem hx, ?_⟩
    have hall : ∀ q, q ∈ w ↔ q ∈ [p] := by
      intro q
      rw [List.mem_singleton]
      constructor
      · intro hq
        obtain ⟨m, hm, hperm⟩ := (hmem q).1 hq
        by_contra hne
        exact hno q ⟨fun e => hne e.symm, n, m, h, hm, hperm.symm⟩
      · rintro rfl; exact hp
    exact ((List.perm_ext_iff_of_nodup hnd (by simp)).2 hall).length_eq.symm

/-- The boundary faces of a patch of elements without repetition: the faces of its elements that no other face of its
elements meets. Each is given once, element by element in the order of the patch and by increasing face id, with its
own nodes. -/
theorem boundary_faces_right (mesh : Mesh) (range : List ℕ) (hn : range.Nodup)
    (hin : ∀ i ∈ range, i ∈ keys mesh) :
    ∃ bf, boundaryFaces mesh range = some bf ∧
      (∀ p nodes, (p, nodes) ∈ bf ↔
        p.1 ∈ range ∧ FaceAt mesh p nodes ∧ ∀ q, q.1 ∈ range → ¬ Meet mesh p q) ∧
      (bf.map Prod.fst).Sublist (range.flatMap fun e => (List.range 6).map fun f => (e, f)) := by
  rcases lookup_spec mesh range with ⟨-, i, hi, hno⟩ | ⟨patch, h, hk, -, hmem⟩
  · exact absurd (hin i hi) hno
  have hkn : (keys patch).Nodup := by rw [hk]; exact hn
  have hface := faceAt_patch mesh patch range hn hk hmem
  have hmeet : ∀ p q, Meet patch p q ↔ p.1 ∈ range ∧ q.1 ∈ range ∧ Meet mesh p q := by
    intro p q
    simp only [Meet, hface]
    constructor
    · rintro ⟨h1, n, n', ⟨h2, h3⟩, ⟨h4, h5⟩, h6⟩
      exact ⟨h2, h4, h1, n, n', h3, h5, h6⟩
    · rintro ⟨h2, h4, h1, n, n', h3, h5, h6⟩
      exact ⟨h1, n, n', ⟨h2, h3⟩, ⟨h4, h5⟩, h6⟩
  refine ⟨_, by unfold boundaryFaces; rw [h]; rfl, ?_, ?_⟩
  · intro p nodes
    simp only [List.mem_flatMap, List.mem_map, List.mem_filter, Prod.exists, Prod.mk.injEq]
    constructor
    · rintro ⟨e, s, hes, n, f, ⟨hf, hb⟩, rfl, rfl⟩
      have hf' := (List.mem_zipIdx_iff_getElem? (x := (n, f))).1 hf
      have hfp : FaceAt patch (e, f) n := (faceAt_iff _ _ _).2 ⟨s, get_of_mem _ hkn _ _ hes, hf'⟩
      rw [isBoundary_iff patch s n (List.mem_of_getElem? hf'), once_iff patch hkn _ n hfp] at hb
      refine ⟨((hmem e s).1 hes).1, ((hface _ _).1 hfp).2, fun q hq hm => hb q ?_⟩
      exact (hmeet _ _).2 ⟨((hmem e s).1 hes).1, hq, hm⟩
    · rintro ⟨hp, hfp, hno⟩
      have hfp' : FaceAt patch p nodes := (hface _ _).2 ⟨hp, hfp⟩
      obtain ⟨s, hs, hf⟩ := (faceAt_iff _ _ _).1 hfp'
      refine ⟨p.1, s, get_mem _ _ _ hs, nodes, p.2, ⟨(List.mem_zipIdx_iff_getElem? (x := (nodes, p.2))).2 hf, ?_⟩, rfl, rfl⟩
      rw [isBoundary_iff patch s nodes (List.mem_of_getElem? hf), once_iff patch hkn p nodes hfp']
      intro q hq
      obtain ⟨-, h2, h3⟩ := (hmeet _ _).1 hq
      exact hno q h2 h3
  · rw [List.map_flatMap, ← hk]
    have hkeys : keys patch = patch.map Prod.fst := rfl
    rw [hkeys, List.flatMap_map]
    clear hmeet hface hkn hmem hk h hkeys
    have : ∀ all : Mesh, (patch.flatMap fun a => List.map Prod.fst (((faces a.2).zipIdx.filter
        fun f => isBoundary all a.2 f.1).map fun f => ((a.1, f.2), f.1))).Sublist
        (patch.flatMap fun a => (List.range 6).map fun f => (a.1, f)) := by
      intro all
      induction patch with
      | nil => exact List.Sublist.refl _
      | cons x patch ih =>
        rw [List.flatMap_cons, List.flatMap_cons]
        refine List.Sublist.append ?_ ih
        rw [List.map_map]
        have e : (Prod.fst ∘ fun f : List ℕ × ℕ => ((x.1, f.2), f.1)) = (fun i : ℕ => (x.1, i)) ∘ Prod.snd := rfl
        rw [e, ← List.map_map]
        refine List.Sublist.map _ ((List.filter_sublist.map _).trans ?_)
        rw [List.zipIdx_map_snd]
        have hl : (faces x.2).length ≤ 6 := by cases x.2 <;> simp [faces]
        rw [← List.range_eq_range']
        exact List.range_sublist.2 hl
    exact this patch

/-- An element that is not in the mesh is an error. -/
theorem boundary_faces_missing (mesh : Mesh) (range : List ℕ) :
    boundaryFaces mesh range = none ↔ ∃ i ∈ range, i ∉ keys mesh := by
  unfold boundaryFaces
  rcases lookup_spec mesh range with ⟨h, hi⟩ | ⟨patch, h, -, hall, -⟩
  · simp only [h, Option.map_none, true_iff]
    exact hi
  · simp only [h, Option.map_some, reduceCtorEq, false_iff]
    rintro ⟨i, hi, hno⟩
    exact hno (hall i hi)

/-- On the whole mesh, where no face has more than two positions: the boundary faces are the faces without neighbour. -/
theorem boundary_iff_no_neighbor (mesh : Mesh) (hn : (keys mesh).Nodup)
    (h2 : ∀ p q q', Meet mesh p q → Meet mesh p q' → q = q') (nb : Dict ℕ (List (Option ℕ)))
    (h : neighbors mesh = some nb) (bf : List (Position × List ℕ)) (hb : boundaryFaces mesh (keys mesh) = some bf)
    (e f : ℕ) (row : List (Option ℕ)) (v : Option ℕ) (hr : get nb e = some row) (hv : row[f]? = some v) :
    (e, f) ∈ bf.map Prod.fst ↔ v = none := by
  obtain ⟨bf', hb', hmem, -⟩ := boundary_faces_right mesh (keys mesh) hn (fun _ h => h)
  obtain rfl := Option.some.inj (hb.symm.trans hb')
  obtain ⟨nb', h', hk, hlen⟩ := neighbors_total mesh hn
  obtain rfl := Option.some.inj (h.symm.trans h')
  have hkey : ∀ p n, FaceAt mesh p n → p.1 ∈ keys mesh := fun p n ⟨s, hs, _⟩ =>
    (get_isSome _ _).1 (by rw [hs]; rfl)
  rw [no_neighbor_iff mesh hn h2 nb h e f row v hr hv]
  simp only [List.mem_map, Prod.exists, exists_eq_right, Prod.mk.injEq, exists_and_right]
  constructor
  · rintro ⟨nodes, hm⟩ q hq
    obtain ⟨-, -, hno⟩ := (hmem _ _).1 hm
    obtain ⟨-, n, n', -, hn', -⟩ := id hq
    exact hno q (hkey q n' hn') hq
  · intro hno
    have hke : e ∈ keys mesh := by rw [← hk]; exact (get_isSome _ _).1 (by rw [hr]; rfl)
    obtain ⟨s, hs⟩ := Option.isSome_iff_exists.1 ((get_isSome mesh e).2 hke)
    have hlt : f < (sides s).length := by
      rw [← hlen e s row hs hr]
      exact (List.getElem?_eq_some_iff.1 hv).1
    refine ⟨nodesOn s (sides s)[f], (hmem _ _).2 ⟨hke, ⟨s, hs, _, List.getElem?_eq_getElem hlt, rfl⟩, ?_⟩⟩
    exact fun q _ => hno q

example : boundaryFaces fan [3, 7, 9] = some [((3, 1), [2, 3]), ((7, 0), [0, 1]), ((7, 1), [1, 2]),
    ((9, 0), [0, 5]), ((9, 1), [3, 4]), ((9, 3), [5, 4])] := by decide +kernel

example : [3, 7, 9].Nodup ∧ ∀ i ∈ [3, 7, 9], i ∈ keys fan := by decide

/-- An element that is listed twice has no boundary face at all. -/
theorem boundary_faces_repeated_refuted :
    ¬ ∀ (mesh : Mesh) (range : List ℕ) (bf : List (Position × List ℕ)), boundaryFaces mesh range = some bf →
      ∀ p nodes, p.1 ∈ range → FaceAt mesh p nodes → (∀ q, ¬ Meet mesh p q) → (p, nodes) ∈ bf := by
  intro h
  have := h [(0, .tri 0 1 2)] [0, 0] [] (by decide +kernel) (0, 0) [0, 1] (by simp) ⟨_, rfl, _, rfl, rfl⟩ ?_
  · simp at this
  · rintro q ⟨hne, n, n', ⟨s, hs, side, hside, rfl⟩, ⟨s', hs', side', hside', rfl⟩, hperm⟩
    obtain ⟨e, f⟩ := q
    have he : (0, Shape.tri 0 1 2) = (e, s') := by
      have := get_mem _ _ _ hs'
      simpa [eq_comm] using this
    obtain ⟨rfl, rfl⟩ := Prod.mk.inj he
    obtain rfl := Option.some.inj hs
    have hf : f < 3 := (List.getElem?_eq_some_iff.1 hside').1
    interval_cases f
    · exact hne rfl
    · obtain rfl := Option.some.inj hside
      obtain rfl := Option.some.inj hside'
      revert hperm; decide
    · obtain rfl := Option.some.inj hside
      obtain rfl := Option.some.inj hside'
      revert hperm; decide

end Phyem.Great
