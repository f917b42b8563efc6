import Verif.Great.Neighbors
import Mathlib.Data.List.Dedup

/-!
C85: which faces are periodic (`msehtt/static/mesh/great/elements/main.py:364-426`).
-/

namespace Phyem.Great

open Phyem.Dict

variable {K V : Type} [DecidableEq K] [DecidableEq V]

/-- `if coo in pool[k]: pass`, else append, or start the list (`main.py:381-387`). -/
def collectNew (pool : Dict K (List V)) (k : K) (v : V) : Dict K (List V) :=
  match get pool k with
  | some vs => if v ∈ vs then pool else put pool k (vs ++ [v])
  | none => put pool k [v]

/-- The representative strings of the faces of a rank by their sorted nodes (`main.py:369-387`). `repr p` stands for
`___face_representative_str___` of a face: where its middle is. -/
def reprPool (repr : Position → ℕ) (mesh : Mesh) : Dict (List ℕ) (List ℕ) :=
  ((positions mesh).map fun x => (sorted x.1, repr x.2)).foldl (fun d x => collectNew d x.1 x.2) []

/-- One pool of another rank put into that of the master rank (`main.py:398-401`, `main.py:405-408`): only faces that
are there already are extended. -/
def mergePool (all : Dict K (List V)) (pool : Dict K (List V)) : Dict K (List V) :=
  pool.foldl (fun all x =>
    match get all x.1 with
    | some vs => put all x.1 (vs ++ x.2)
    | none => all) all

/-- The gathered pools as one (`main.py:397-409`). -/
def mergePools : List (Dict K (List V)) → Dict K (List V)
  | [] => []
  | first :: others => others.foldl mergePool first

/-- `periodic_face_pairing_m2n2` (`main.py:411-417`): the faces with more than one representative, with their
positions. `none`: a `KeyError`. -/
def pairingAll (repr : Position → ℕ) (ranks : List Mesh) : Option (Dict (List ℕ) (List Position)) :=
  (mergePools (ranks.map (reprPool repr))).foldlM (fun d x =>
    if x.2.dedup.length = 1 then some d
    else (get (mergePools (ranks.map pool)) x.1).map fun ps => put d x.1 ps) []

/-- `___periodic_face_pairing_m2n2___` (`main.py:364-430`) on a rank with the elements `mesh`: the entries of faces of
this rank. -/
def pairing (repr : Position → ℕ) (ranks : List Mesh) (mesh : Mesh) : Option (Dict (List ℕ) (List Position)) :=
  (pairingAll repr ranks).map fun d => d.filter fun x => (get (pool mesh) x.1).isSome

/-! ### Lemmas -/

theorem mem_collectNew (d : Dict K (List V)) (k k' : K) (v w : V) :
    (∃ vs, get (collectNew d k v) k' = some vs ∧ w ∈ vs) ↔
      (∃ vs, get d k' = some vs ∧ w ∈ vs) ∨ (k' = k ∧ w = v) := by
  unfold collectNew
  cases h : get d k with
  | none =>
    simp only [get_put]
    by_cases hk : k' = k
    · subst hk; simp [h]
    · simp [hk]
  | some vs =>
    simp only
    split_ifs with hv
    · constructor
      · exact .inl
      · rintro (h' | ⟨rfl, rfl⟩)
        · exact h'
        · exact ⟨vs, h, hv⟩
    · simp only [get_put]
      by_cases hk : k' = k
      · subst hk; simp [h]
      · simp [hk]

theorem nonempty_collectNew (d : Dict K (List V)) (k : K) (v : V) (h : ∀ x ∈ d, x.2 ≠ []) (hn : (keys d).Nodup) :
    (keys (collectNew d k v)).Nodup ∧ ∀ x ∈ collectNew d k v, x.2 ≠ [] := by
  have key : ∀ vs : List V, vs ≠ [] → (keys (put d k vs)).Nodup ∧ ∀ x ∈ put d k vs, x.2 ≠ [] := by
    intro vs hvs
    have hnp := nodup_put d k vs hn
    refine ⟨hnp, ?_⟩
    rintro ⟨k', l⟩ hx
    have := get_of_mem _ hnp k' l hx
    rw [get_put] at this
    split_ifs at this with hk
    · rw [← Option.some.inj this]; exact hvs
    · exact h _ (get_mem _ _ _ this)
  unfold collectNew
  split
  · split_ifs
    · exact ⟨hn, h⟩
    · exact key _ (by simp)
  · exact key _ (by simp)

theorem reprPool_spec (repr : Position → ℕ) (mesh : Mesh) :
    (keys (reprPool repr mesh)).Nodup ∧ (∀ x ∈ reprPool repr mesh, x.2 ≠ []) ∧
      ∀ k w, (∃ vs, get (reprPool repr mesh) k = some vs ∧ w ∈ vs) ↔
        ∃ x ∈ positions mesh, sorted x.1 = k ∧ repr x.2 = w := by
  unfold reprPool
  generalize positions mesh = l
  induction l using List.reverseRecOn with
  | nil => exact ⟨List.nodup_nil, by simp, by simp [Dict.get]⟩
  | append_singleton l x ih =>
    rw [List.map_append, List.foldl_append]
    simp only [List.map_cons, List.map_nil, List.foldl_cons, List.foldl_nil]
    obtain ⟨h1, h2, h3⟩ := ih
    obtain ⟨g1, g2⟩ := nonempty_collectNew _ (sorted x.1) (repr x.2) h2 h1
    refine ⟨g1, g2, fun k w => ?_⟩
    rw [mem_collectNew, h3]
    constructor
    · rintro (⟨y, hy, h⟩ | ⟨rfl, rfl⟩)
      · exact ⟨y, by simp [hy], h⟩
      · exact ⟨x, by simp, rfl, rfl⟩
    · rintro ⟨y, hy, h⟩
      rcases List.mem_append.1 hy with hy | hy
      · exact .inl ⟨y, hy, h⟩
      · rw [List.mem_singleton] at hy
        subst hy
        exact .inr ⟨h.1.symm, h.2.symm⟩

theorem get_mergePool (all pool : Dict K (List V)) (hn : (keys pool).Nodup) (k : K) :
    get (mergePool all pool) k = (get all k).map fun vs => vs ++ (get pool k).getD [] := by
  induction pool generalizing all with
  | nil => cases h : get all k <;> simp [mergePool, Dict.get, h]
  | cons x pool ih =>
    have hn' := List.nodup_cons.1 hn
    have hstep : mergePool all (x :: pool) = mergePool (match get all x.1 with
        | some vs => put all x.1 (vs ++ x.2)
        | none => all) pool := rfl
    rw [hstep, ih _ hn'.2]
    by_cases hk : x.1 = k
    · subst hk
      have hnone : get pool x.1 = none := (get_eq_none _ _).2 hn'.1
      cases h : get all x.1 with
      | none => simp [h]
      | some vs => simp [get_put, hnone, Dict.get]
    · cases h : get all x.1 with
      | none => simp [Dict.get, hk]
      | some vs => simp [get_put, Dict.get, hk, Ne.symm hk]

theorem keys_mergePool (all pool : Dict K (List V)) : keys (mergePool all pool) = keys all := by
  induction pool generalizing all with
  | nil => rfl
  | cons x pool ih =>
    have hstep : mergePool all (x :: pool) = mergePool (match get all x.1 with
        | some vs => put all x.1 (vs ++ x.2)
        | none => all) pool := rfl
    rw [hstep, ih]
    cases h : get all x.1 with
    | none => rfl
    | some vs => rw [keys_put, if_pos ((get_isSome _ _).1 (by rw [h]; rfl))]

theorem get_mergePools (first : Dict K (List V)) (others : List (Dict K (List V)))
    (hn : ∀ d ∈ others, (keys d).Nodup) (k : K) :
    get (mergePools (first :: others)) k =
      (get first k).map fun vs => vs ++ others.flatMap fun d => (get d k).getD [] := by
  change get (others.foldl mergePool first) k = _
  induction others generalizing first with
  | nil => cases h : get first k <;> simp [h]
  | cons d others ih =>
    rw [List.foldl_cons, ih _ (fun d hd => hn d (by simp [hd])), get_mergePool _ _ (hn d (by simp))]
    cases h : get first k <;> simp

theorem keys_mergePools (first : Dict K (List V)) (others : List (Dict K (List V))) :
    keys (mergePools (first :: others)) = keys first := by
  change keys (others.foldl mergePool first) = _
  induction others generalizing first with
  | nil => rfl
  | cons d others ih => rw [List.foldl_cons, ih, keys_mergePool]

theorem dedup_one (l : List ℕ) (h : l ≠ []) : l.dedup.length = 1 ↔ ∀ a ∈ l, ∀ b ∈ l, a = b := by
  constructor
  · intro h1 a ha b hb
    obtain ⟨c, hc⟩ := List.length_eq_one_iff.1 h1
    have ha' := List.mem_dedup.2 ha
    have hb' := List.mem_dedup.2 hb
    rw [hc, List.mem_singleton] at ha' hb'
    rw [ha', hb']
  · intro hall
    obtain ⟨a, ha⟩ := List.exists_mem_of_ne_nil l h
    have : l.dedup.Perm [a] := (List.perm_ext_iff_of_nodup (List.nodup_dedup l) (by simp)).2 fun b => by
      rw [List.mem_dedup, List.mem_singleton]
      exact ⟨fun hb => hall b hb a ha, fun hb => hb ▸ ha⟩
    exact this.length_eq

/-- The positions on a face in the order of ranks. -/
def allOn (ranks : List Mesh) (k : List ℕ) : List Position :=
  ranks.flatMap fun m => ((positions m).filter fun x => sorted x.1 = k).map Prod.snd

theorem get_pool (mesh : Mesh) (k : List ℕ) :
    (get (pool mesh) k).getD [] = ((positions mesh).filter fun x => sorted x.1 = k).map Prod.snd ∧
      (get (pool mesh) k = none ↔ ((positions mesh).filter fun x => sorted x.1 = k).map Prod.snd = []) := by
  unfold pool
  rw [get_collectAll, List.filter_map, List.map_map]
  have e : (Prod.snd ∘ fun x : List ℕ × Position => (sorted x.1, x.2)) = Prod.snd := rfl
  have e2 : ((fun x : List ℕ × Position => decide (x.1 = k)) ∘ fun x : List ℕ × Position => (sorted x.1, x.2)) =
      fun x => decide (sorted x.1 = k) := rfl
  rw [e, e2]
  split_ifs with h
  · exact ⟨h.symm, iff_of_true rfl h⟩
  · exact ⟨rfl, iff_of_false (by simp) h⟩

theorem foldlM_put (l : List (List ℕ × List ℕ)) (all : Dict (List ℕ) (List Position)) (hn : (keys l).Nodup)
    (hk : ∀ x ∈ l, (get all x.1).isSome) : ∀ acc : Dict (List ℕ) (List Position),
    (∀ x ∈ l, get acc x.1 = none) →
    ∃ d, l.foldlM (fun d x => if x.2.dedup.length = 1 then some d
        else (get all x.1).map fun ps => put d x.1 ps) acc = some d ∧
      ∀ k, get d k = match get acc k with
        | some v => some v
        | none => (get l k).bind fun vs => if vs.dedup.length = 1 then none else get all k := by
  induction l with
  | nil =>
    intro acc _
    refine ⟨acc, rfl, fun k => ?_⟩
    cases get acc k <;> rfl
  | cons x l ih =>
    intro acc hacc
    have hn' := List.nodup_cons.1 hn
    have hx0 : get acc x.1 = none := hacc x (by simp)
    have hxl : get l x.1 = none := (get_eq_none _ _).2 hn'.1
    by_cases h1 : x.2.dedup.length = 1
    · obtain ⟨d, hd, hg⟩ := ih hn'.2 (fun y hy => hk y (by simp [hy])) acc (fun y hy => hacc y (by simp [hy]))
      refine ⟨d, by rw [List.foldlM_cons, if_pos h1]; exact hd, fun k => ?_⟩
      rw [hg]
      cases hak : get acc k with
      | some v => rfl
      | none =>
        simp only [Dict.get]
        by_cases hxk : x.1 = k
        · subst hxk
          rw [if_pos rfl, hxl]
          simp [h1]
        · rw [if_neg hxk]
    · obtain ⟨ps, hps⟩ := Option.isSome_iff_exists.1 (hk x (by simp))
      obtain ⟨d, hd, hg⟩ := ih hn'.2 (fun y hy => hk y (by simp [hy])) (put acc x.1 ps) (by
        intro y hy
        rw [get_put, if_neg]
        · exact hacc y (by simp [hy])
        · intro e
          exact hn'.1 (e ▸ List.mem_map_of_mem hy))
      refine ⟨d, by rw [List.foldlM_cons, if_neg h1, hps]; exact hd, fun k => ?_⟩
      rw [hg, get_put]
      by_cases hxk : k = x.1
      · subst hxk
        rw [if_pos rfl, hx0]
        simp [Dict.get, h1, hps]
      · rw [if_neg hxk]
        cases hak : get acc k with
        | some v => rfl
        | none =>
          simp only [Dict.get]
          rw [if_neg (fun e => hxk e.symm)]

/-- A face, given by its sorted nodes, is periodic: two positions on it are in different places. -/
def Periodic (repr : Position → ℕ) (mesh : Mesh) (k : List ℕ) : Prop :=
  ∃ p q n n', FaceAt mesh p n ∧ FaceAt mesh q n' ∧ sorted n = k ∧ sorted n' = k ∧ repr p ≠ repr q

theorem pairing_aux (repr : Position → ℕ) (first : Mesh) (others : List Mesh)
    (hn : (keys ((first :: others).flatten)).Nodup) :
    ∃ d, pairingAll repr (first :: others) = some d ∧
      ∀ k ps, get d k = some ps ↔
        (get (pool first) k).isSome ∧ Periodic repr (first :: others).flatten k ∧ ps = allOn (first :: others) k := by
  have hpos : ∀ (l : List Mesh), positions l.flatten = l.flatMap positions := by
    intro l
    unfold positions
    induction l with
    | nil => rfl
    | cons m l ih => rw [List.flatten_cons, List.flatMap_append, List.flatMap_cons, ih]
  obtain ⟨r1, r2, r3⟩ := reprPool_spec repr first
  have hget := get_mergePools (reprPool repr first) (others.map (reprPool repr)) (by
    intro d hd
    obtain ⟨m, -, rfl⟩ := List.mem_map.1 hd
    exact (reprPool_spec repr m).1)
  have hget2 := get_mergePools (pool first) (others.map pool) (by
    intro d hd
    obtain ⟨m, -, rfl⟩ := List.mem_map.1 hd
    exact nodup_collectAll _)
  have hkeys : ∀ k, (get (reprPool repr first) k).isSome ↔ (get (pool first) k).isSome := by
    intro k
    rw [Option.isSome_iff_ne_none (o := get (pool first) k), ne_eq, (get_pool first k).2]
    constructor
    · intro h h0
      obtain ⟨vs, hvs⟩ := Option.isSome_iff_exists.1 h
      obtain ⟨w, hw⟩ := List.exists_mem_of_ne_nil vs (r2 _ (get_mem _ _ _ hvs))
      obtain ⟨x, hx, hxk, -⟩ := (r3 k w).1 ⟨vs, hvs, hw⟩
      have : x.2 ∈ ((positions first).filter fun x => sorted x.1 = k).map Prod.snd :=
        List.mem_map_of_mem (List.mem_filter.2 ⟨hx, by simpa using hxk⟩)
      rw [h0] at this
      simp at this
    · intro h
      obtain ⟨p, hp⟩ := List.exists_mem_of_ne_nil _ h
      obtain ⟨x, hx, rfl⟩ := List.mem_map.1 hp
      obtain ⟨hx1, hx2⟩ := List.mem_filter.1 hx
      obtain ⟨vs, hvs, -⟩ := (r3 k (repr x.2)).2 ⟨x, hx1, by simpa using hx2, rfl⟩
      rw [hvs]; rfl
  have hmem : ∀ k vs, get (mergePools (reprPool repr first :: others.map (reprPool repr))) k = some vs →
      ∀ w, w ∈ vs ↔ ∃ x ∈ positions (first :: others).flatten, sorted x.1 = k ∧ repr x.2 = w := by
    intro k vs hvs w
    rw [hget] at hvs
    obtain ⟨v0, hv0, rfl⟩ := Option.map_eq_some_iff.1 hvs
    rw [List.mem_append, List.mem_flatMap, hpos]
    have h0 : w ∈ v0 ↔ ∃ x ∈ positions first, sorted x.1 = k ∧ repr x.2 = w := by
      rw [← r3]
      constructor
      · exact fun h => ⟨v0, hv0, h⟩
      · rintro ⟨vs, h1, h2⟩
        rwa [Option.some.inj (hv0.symm.trans h1)]
    have h1 : (∃ a ∈ others.map (reprPool repr), w ∈ (get a k).getD []) ↔
        ∃ m ∈ others, ∃ x ∈ positions m, sorted x.1 = k ∧ repr x.2 = w := by
      simp only [List.mem_map, exists_exists_and_eq_and]
      constructor
      · rintro ⟨m, hm, h⟩
        refine ⟨m, hm, ?_⟩
        rw [← (reprPool_spec repr m).2.2]
        cases hg : get (reprPool repr m) k with
        | none => rw [hg] at h; simp at h
        | some vs => rw [hg] at h; exact ⟨vs, rfl, h⟩
      · rintro ⟨m, hm, h⟩
        rw [← (reprPool_spec repr m).2.2] at h
        obtain ⟨vs, h1, h2⟩ := h
        exact ⟨m, hm, by rw [h1]; exact h2⟩
    rw [h0, h1]
    simp only [List.flatMap_cons, List.mem_append, List.mem_flatMap]
    constructor
    · rintro (⟨x, hx, h⟩ | ⟨m, hm, x, hx, h⟩)
      · exact ⟨x, .inl hx, h⟩
      · exact ⟨x, .inr ⟨m, hm, hx⟩, h⟩
    · rintro ⟨x, hx | ⟨m, hm, hx⟩, h⟩
      · exact .inl ⟨x, hx, h⟩
      · exact .inr ⟨m, hm, x, hx, h⟩
  have hmk : (keys (mergePools (reprPool repr first :: others.map (reprPool repr)))).Nodup := by
    rw [keys_mergePools]; exact r1
  obtain ⟨d, hd, hg⟩ := foldlM_put (mergePools (reprPool repr first :: others.map (reprPool repr)))
    (mergePools (pool first :: others.map pool)) hmk (by
      rintro ⟨k, vs⟩ hx
      have h1 := get_of_mem _ hmk k vs hx
      rw [hget] at h1
      obtain ⟨v0, hv0, -⟩ := Option.map_eq_some_iff.1 h1
      rw [hget2, Option.isSome_map]
      exact (hkeys k).1 (by rw [hv0]; rfl)) [] (by intro x _; rfl)
  refine ⟨d, hd, fun k ps => ?_⟩
  rw [hg k]
  simp only [Dict.get]
  have hall : ∀ v0, get (pool first) k = some v0 →
      get (mergePools (pool first :: others.map pool)) k = some (allOn (first :: others) k) := by
    intro v0 h0
    rw [hget2, h0, Option.map_some]
    congr 1
    unfold allOn
    rw [List.flatMap_cons, ← (get_pool first k).1, h0, Option.getD_some, List.flatMap_map]
    congr 2
    funext m
    exact (get_pool m k).1
  cases hp : get (pool first) k with
  | none =>
    have hnone : get (reprPool repr first) k = none := by
      cases hr : get (reprPool repr first) k with
      | none => rfl
      | some v =>
        have := (hkeys k).1 (by rw [hr]; rfl)
        rw [hp] at this
        cases this
    rw [hget, hnone]
    simp
  | some v0 =>
    obtain ⟨w0, hw0⟩ := Option.isSome_iff_exists.1 ((hkeys k).2 (by rw [hp]; rfl))
    obtain ⟨vs, hvs⟩ : ∃ vs, get (mergePools (reprPool repr first :: others.map (reprPool repr))) k = some vs := by
      rw [hget, hw0]; exact ⟨_, rfl⟩
    have hne : vs ≠ [] := by
      rw [hget, hw0, Option.map_some] at hvs
      obtain rfl := Option.some.inj hvs
      have := r2 _ (get_mem _ _ _ hw0)
      intro h0
      exact this (List.append_eq_nil_iff.1 h0).1
    have hper : ¬ vs.dedup.length = 1 ↔ Periodic repr (first :: others).flatten k := by
      rw [dedup_one vs hne]
      push Not
      simp only [hmem k vs hvs]
      constructor
      · rintro ⟨a, ⟨x, hx, hxk, rfl⟩, b, ⟨y, hy, hyk, rfl⟩, hab⟩
        exact ⟨x.2, y.2, x.1, y.1, (mem_positions _ hn _ _).1 hx, (mem_positions _ hn _ _).1 hy, hxk, hyk, hab⟩
      · rintro ⟨p, q, n, n', hf, hf', hk, hk', hab⟩
        exact ⟨repr p, ⟨(n, p), (mem_positions _ hn _ _).2 hf, hk, rfl⟩, repr q,
          ⟨(n', q), (mem_positions _ hn _ _).2 hf', hk', rfl⟩, hab⟩
    rw [hvs, Option.bind_some, hall v0 hp]
    by_cases h1 : vs.dedup.length = 1
    · rw [if_pos h1]
      simp only [reduceCtorEq, false_iff, Option.isSome_some, true_and]
      rintro ⟨h, -⟩
      exact hper.2 h h1
    · rw [if_neg h1]
      simp only [Option.some.injEq, Option.isSome_some, true_and]
      exact ⟨fun h => ⟨hper.1 h1, h.symm⟩, fun h => h.2.symm⟩

theorem get_filter (d : Dict K V) (f : K → Bool) (k : K) :
    get (d.filter fun x => f x.1) k = if f k then get d k else none := by
  induction d with
  | nil => simp [Dict.get]
  | cons x d ih =>
    by_cases hx : f x.1
    · rw [List.filter_cons_of_pos (by simpa using hx)]
      simp only [Dict.get, ih]
      by_cases hk : x.1 = k
      · subst hk; simp [hx]
      · simp [hk]
    · rw [List.filter_cons_of_neg (by simpa using hx), ih]
      by_cases hk : x.1 = k
      · subst hk; simp [hx]
      · simp [Dict.get, hk]

/-! ### Properties -/

theorem nodup_rank {ranks : List Mesh} (hn : (keys ranks.flatten).Nodup) {mesh : Mesh} (hm : mesh ∈ ranks) :
    (keys mesh).Nodup := by
  refine List.Sublist.nodup ?_ hn
  exact List.Sublist.map _ (List.sublist_flatten_of_mem hm)

theorem get_pool_isSome (mesh : Mesh) (hn : (keys mesh).Nodup) (k : List ℕ) :
    (get (pool mesh) k).isSome ↔ ∃ p n, FaceAt mesh p n ∧ sorted n = k := by
  rw [Option.isSome_iff_ne_none, ne_eq, (get_pool mesh k).2]
  constructor
  · intro h
    obtain ⟨p, hp⟩ := List.exists_mem_of_ne_nil _ h
    obtain ⟨x, hx, rfl⟩ := List.mem_map.1 hp
    obtain ⟨hx1, hx2⟩ := List.mem_filter.1 hx
    exact ⟨x.2, x.1, (mem_positions _ hn _ _).1 hx1, by simpa using hx2⟩
  · rintro ⟨p, n, hf, hk⟩ h0
    have : p ∈ ((positions mesh).filter fun x => sorted x.1 = k).map Prod.snd :=
      List.mem_map.2 ⟨(n, p), List.mem_filter.2 ⟨(mem_positions _ hn _ _).2 hf, by simpa using hk⟩, rfl⟩
    rw [h0] at this
    simp at this

/-- The positions given with a face are those on it, each once. -/
theorem allOn_right (ranks : List Mesh) (hn : (keys ranks.flatten).Nodup) (k : List ℕ) :
    (allOn ranks k).Nodup ∧ ∀ p, p ∈ allOn ranks k ↔ ∃ n, FaceAt ranks.flatten p n ∧ sorted n = k := by
  have e : allOn ranks k = ((positions ranks.flatten).filter fun x => sorted x.1 = k).map Prod.snd := by
    unfold allOn positions
    clear hn
    induction ranks with
    | nil => rfl
    | cons m l ih =>
      rw [List.flatten_cons, List.flatMap_append, List.filter_append, List.map_append, List.flatMap_cons, ih]
  rw [e]
  constructor
  · have := nodup_positions _ hn
    exact List.Sublist.nodup (List.Sublist.map _ List.filter_sublist) this
  · intro p
    simp only [List.mem_map, List.mem_filter, decide_eq_true_eq, Prod.exists, exists_eq_right]
    constructor
    · rintro ⟨n, h, hk⟩
      exact ⟨n, (mem_positions _ hn _ _).1 h, hk⟩
    · rintro ⟨n, h, hk⟩
      exact ⟨n, (mem_positions _ hn _ _).2 h, hk⟩

/-- Every rank finds, of the faces it has an element at, the periodic ones that the first rank also has an element at;
it gets the positions on them over all ranks. What is missing: the other periodic faces, which no rank finds. -/
theorem pairing_partial (repr : Position → ℕ) (first : Mesh) (others : List Mesh)
    (hn : (keys ((first :: others).flatten)).Nodup) (mesh : Mesh) (hm : mesh ∈ first :: others) :
    ∃ d, pairing repr (first :: others) mesh = some d ∧
      ∀ k ps, get d k = some ps ↔
        (∃ p n, FaceAt mesh p n ∧ sorted n = k) ∧ (∃ p n, FaceAt first p n ∧ sorted n = k) ∧
        Periodic repr (first :: others).flatten k ∧ ps = allOn (first :: others) k := by
  obtain ⟨d, hd, hg⟩ := pairing_aux repr first others hn
  refine ⟨_, by rw [pairing, hd, Option.map_some], fun k ps => ?_⟩
  rw [get_filter d (fun k => (get (pool mesh) k).isSome) k]
  rw [← get_pool_isSome mesh (nodup_rank hn hm), ← get_pool_isSome first (nodup_rank hn (by simp)), ← hg]
  by_cases h : (get (pool mesh) k).isSome
  · simp [h]
  · simp [h]

/-- On one rank exactly the periodic faces are found, with the positions on them. -/
theorem pairing_one_rank (repr : Position → ℕ) (mesh : Mesh) (hn : (keys mesh).Nodup) :
    ∃ d, pairing repr [mesh] mesh = some d ∧
      ∀ k ps, get d k = some ps ↔ Periodic repr mesh k ∧ ps = allOn [mesh] k := by
  have e : [mesh].flatten = mesh := by simp
  obtain ⟨d, hd, hg⟩ := pairing_partial repr mesh [] (by rw [e]; exact hn) mesh (by simp)
  refine ⟨d, hd, fun k ps => ?_⟩
  rw [hg, e]
  constructor
  · exact fun h => h.2.2
  · intro h
    obtain ⟨p, _, n, _, hf, -, hk, -⟩ := h.1
    exact ⟨⟨p, n, hf, hk⟩, ⟨p, n, hf, hk⟩, h⟩

/-- Three unit squares above each other on a mesh that is periodic upwards: the bottom of square `0` has the nodes of
the top of square `2`. -/
def tower : Mesh := [(1, .quad 2 3 4 5), (0, .quad 0 1 2 3), (2, .quad 4 5 0 1)]

/-- Where the faces of `tower` are: bottoms and tops by their height, the sides apart. -/
def towerRepr (p : Position) : ℕ := if p.2 = 2 then p.1 else if p.2 = 3 then p.1 + 1 else 10 + 2 * p.1 + p.2

/-- On one rank the face that the mesh is closed at is found, and no other. -/
example : (keys tower).Nodup ∧ pairing towerRepr [tower] tower = some [([0, 1], [(0, 2), (2, 3)])] := by
  decide +kernel

/-- With square `0` on the first rank and the others on the second both ranks find it. -/
example : pairing towerRepr [[(0, .quad 0 1 2 3)], [(1, .quad 2 3 4 5), (2, .quad 4 5 0 1)]]
    [(1, .quad 2 3 4 5), (2, .quad 4 5 0 1)] = some [([0, 1], [(0, 2), (2, 3)])] := by
  decide +kernel

theorem tower_periodic : Periodic towerRepr tower [0, 1] := by
  have hn : (keys tower).Nodup := by decide +kernel
  exact ⟨(0, 2), (2, 3), [0, 1], [0, 1], (mem_positions _ hn _ _).1 (by decide +kernel),
    (mem_positions _ hn _ _).1 (by decide +kernel), by decide +kernel, by decide +kernel, by decide +kernel⟩

/-- A periodic face is not found, by any rank, if none of its elements are on the first rank: here with square `1` on the
first rank and the others on the second. -/
theorem pairing_refuted :
    ∃ (repr : Position → ℕ) (first second : Mesh) (k : List ℕ),
      (keys [first, second].flatten).Nodup ∧ Periodic repr [first, second].flatten k ∧
      (∃ p n, FaceAt second p n ∧ sorted n = k) ∧
      pairing repr [first, second] second = some [] ∧ pairing repr [first, second] first = some [] := by
  refine ⟨towerRepr, [(1, .quad 2 3 4 5)], [(0, .quad 0 1 2 3), (2, .quad 4 5 0 1)], [0, 1], by decide +kernel,
    tower_periodic, ?_, by decide +kernel, by decide +kernel⟩
  exact ⟨(0, 2), [0, 1], (mem_positions _ (by decide +kernel) _ _).1 (by decide +kernel), by decide +kernel⟩

end Phyem.Great
