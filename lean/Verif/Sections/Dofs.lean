import Verif.Sections.Lemmas
import Mathlib.Data.List.Sort

/-!
C125: configuring. C126: degrees of freedom on a section. C127: elements of a point.
-/

namespace Phyem.Sections

open Phyem.Great Phyem.Dict

/-! ### Configuring -/

lemma configs_set {C R : Type} (make : R → Option C) (c : Option C) (rs : List R) (bs : List Bool) :
    rs.foldl (fun sb r => let n := config make sb.1 r; (n.1, sb.2 ++ [n.2])) ((⟨true, c⟩ : Partial C), bs) =
      (⟨true, c⟩, bs ++ rs.map fun _ => false) := by
  induction rs generalizing bs with
  | nil => simp
  | cons r rs ih =>
    rw [List.foldl_cons]
    have : config make ⟨true, c⟩ r = (⟨true, c⟩, false) := rfl
    simp only [this]
    rw [ih]
    simp

/-- A mesh is what the first request makes it, whatever is requested afterwards: all later requests fail. -/
theorem config_first {C R : Type} (make : R → Option C) (r : R) (rs : List R) :
    configs make (new C) (r :: rs) = (⟨true, make r⟩, (make r).isSome :: rs.map fun _ => false) := by
  unfold configs
  rw [List.foldl_cons]
  have : config make (new C) r = (⟨true, make r⟩, (make r).isSome) := by
    unfold config new
    cases h : make r <;> simp
  simp only [this]
  rw [configs_set]
  simp

/-- After a request that failed the mesh cannot be configured any more. -/
theorem config_retry_refuted : ¬ ∀ (C R : Type) (make : R → Option C) (r r' : R) (c : C), make r = none →
    make r' = some c → (configs make (new C) [r, r']).1.composition = some c := by
  intro h
  have := h ℕ (Option ℕ) id none (some 3) 3 rfl rfl
  rw [config_first] at this
  simp at this

/-! ### Degrees of freedom -/

/-- A strictly increasing list of the numbers that have a property. -/
def Lists (l : List ℕ) (P : ℕ → Prop) : Prop := l.Pairwise (· < ·) ∧ ∀ i, i ∈ l ↔ P i

/-- The answer of a rank: its elements with faces in the section, and the degrees of freedom on those of their faces that
are in the section. -/
def LocalRight (f : Form) (faces : List Position) (d : Dict ℕ (List ℕ)) : Prop :=
  (keys d).Nodup ∧ (∀ e, e ∈ keys d ↔ ∃ p ∈ faces, p.1 = e) ∧
    ∀ e l, get d e = some l → Lists l fun i => ∃ p ∈ faces, p.1 = e ∧ i ∈ f.dofs p

/-- The global number `g` is the number of a degree of freedom on a face of the section. -/
def OnSection (f : Form) (ranks : List (List Position)) (g : ℕ) : Prop :=
  ∃ faces ∈ ranks, ∃ p ∈ faces, ∃ i ∈ f.dofs p, (f.gm p.1)[i]? = some g

lemma lists_unique {l l' : List ℕ} {P : ℕ → Prop} (h : Lists l P) (h' : Lists l' P) : l = l' := by
  have hp : l.Perm l' := (List.perm_ext_iff_of_nodup (h.1.imp fun h => Nat.ne_of_lt h)
    (h'.1.imp fun h => Nat.ne_of_lt h)).2 fun a => (h.2 a).trans (h'.2 a).symm
  exact hp.eq_of_pairwise (fun a b _ _ h1 h2 => absurd h1 (Nat.lt_asymm h2)) h.1 h'.1

lemma sortedSet_lists (l : List ℕ) : Lists (sortedSet l) fun i => i ∈ l := by
  unfold sortedSet
  constructor
  · have h1 := List.pairwise_insertionSort (· ≤ ·) l.dedup
    have h2 : (l.dedup.insertionSort (· ≤ ·)).Nodup :=
      (List.perm_insertionSort (· ≤ ·) l.dedup).nodup_iff.2 l.nodup_dedup
    exact (h1.and h2).imp fun h => lt_of_le_of_ne h.1 h.2
  · intro i
    rw [(List.perm_insertionSort (· ≤ ·) l.dedup).mem_iff, List.mem_dedup]

/-- What `local_wise_dofs` is before it is sorted. -/
lemma fold_spec (f : Form) (faces : List Position) :
    ∀ d0 : Dict ℕ (List ℕ), (keys d0).Nodup →
      let d := faces.foldl (fun d p => put d p.1 ((get d p.1).getD [] ++ f.dofs p)) d0
      (keys d).Nodup ∧ (∀ e, e ∈ keys d ↔ e ∈ keys d0 ∨ ∃ p ∈ faces, p.1 = e) ∧
        ∀ e i, i ∈ (get d e).getD [] ↔ i ∈ (get d0 e).getD [] ∨ ∃ p ∈ faces, p.1 = e ∧ i ∈ f.dofs p := by
  induction faces with
  | nil => intro d0 h; simp [h]
  | cons p faces ih =>
    intro d0 h
    obtain ⟨h1, h2, h3⟩ := ih (put d0 p.1 ((get d0 p.1).getD [] ++ f.dofs p)) (nodup_put _ _ _ h)
    refine ⟨h1, ?_, ?_⟩
    · intro e
      refine (h2 e).trans ?_
      rw [mem_keys_put]
      constructor
      · rintro ((rfl | h) | ⟨q, hq, rfl⟩)
        · exact Or.inr ⟨p, List.mem_cons_self, rfl⟩
        · exact Or.inl h
        · exact Or.inr ⟨q, List.mem_cons_of_mem _ hq, rfl⟩
      · rintro (h | ⟨q, hq, rfl⟩)
        · exact Or.inl (Or.inr h)
        · rcases List.mem_cons.1 hq with rfl | hq
          · exact Or.inl (Or.inl rfl)
          · exact Or.inr ⟨q, hq, rfl⟩
    · intro e i
      refine (h3 e i).trans ?_
      rw [get_put]
      by_cases he : e = p.1
      · subst he
        rw [if_pos rfl, Option.getD_some, List.mem_append]
        constructor
        · rintro ((h | h) | ⟨q, hq, hqe, hi⟩)
          · exact Or.inl h
          · exact Or.inr ⟨p, List.mem_cons_self, rfl, h⟩
          · exact Or.inr ⟨q, List.mem_cons_of_mem _ hq, hqe, hi⟩
        · rintro (h | ⟨q, hq, hqe, hi⟩)
          · exact Or.inl (Or.inl h)
          · rcases List.mem_cons.1 hq with rfl | hq
            · exact Or.inl (Or.inr hi)
            · exact Or.inr ⟨q, hq, hqe, hi⟩
      · rw [if_neg he]
        refine or_congr_right ?_
        constructor
        · rintro ⟨q, hq, hqe, hi⟩
          exact ⟨q, List.mem_cons_of_mem _ hq, hqe, hi⟩
        · rintro ⟨q, hq, hqe, hi⟩
          rcases List.mem_cons.1 hq with rfl | hq
          · exact absurd hqe.symm he
          · exact ⟨q, hq, hqe, hi⟩

lemma get_map_values (d : Dict ℕ (List ℕ)) (g : List ℕ → List ℕ) (e : ℕ) :
    get (d.map fun x => (x.1, g x.2)) e = (get d e).map g := by
  induction d with
  | nil => rfl
  | cons x d ih =>
    obtain ⟨k, v⟩ := x
    rw [List.map_cons]
    simp only [Dict.get]
    split_ifs
    · rfl
    · exact ih

lemma localDofs_right (f : Form) (faces : List Position) : LocalRight f faces (localDofs f faces) := by
  obtain ⟨h1, h2, h3⟩ := fold_spec f faces [] (by simp [keys])
  unfold localDofs
  set d := faces.foldl (fun d p => put d p.1 ((get d p.1).getD [] ++ f.dofs p)) ([] : Dict ℕ (List ℕ)) with hd
  have hk : keys (d.map fun x => (x.1, sortedSet x.2)) = keys d := by
    unfold keys; rw [List.map_map]; rfl
  refine ⟨by rw [hk]; exact h1, fun e => ?_, fun e l hl => ?_⟩
  · rw [hk, h2]; simp [keys]
  · rw [get_map_values] at hl
    obtain ⟨v, hv, rfl⟩ := Option.map_eq_some_iff.1 hl
    have hs := sortedSet_lists v
    refine ⟨hs.1, fun i => (hs.2 i).trans ?_⟩
    have := h3 e i
    rw [hv] at this
    simpa [Dict.get] using this

/-- Element-wise: in each rank the answer is right. -/
theorem find_local (ranks : List (List Position)) (f : Form) :
    ∃ ds, find ranks f true = some (.loc ds) ∧ List.Forall₂ (LocalRight f) ranks ds := by
  refine ⟨_, rfl, ?_⟩
  rw [List.forall₂_map_right_iff, List.forall₂_same]
  exact fun faces _ => localDofs_right f faces

lemma rankDofs_some (f : Form) (faces : List Position) (l : List ℕ) (h : rankDofs f faces = some l) (g : ℕ) :
    g ∈ l ↔ ∃ p ∈ faces, ∃ i ∈ f.dofs p, (f.gm p.1)[i]? = some g := by
  obtain ⟨h1, h2, h3⟩ := localDofs_right f faces
  unfold rankDofs at h
  obtain ⟨ls, hls, rfl⟩ := Option.map_eq_some_iff.1 h
  have hf := (mapM_eq_some _ _ _).1 hls
  have hmem : ∀ p ∈ faces, ∀ i ∈ f.dofs p, ∃ v, (p.1, v) ∈ localDofs f faces ∧ i ∈ v := by
    intro p hp i hi
    obtain ⟨v, hv⟩ := Option.isSome_iff_exists.1 ((get_isSome _ _).2 ((h2 p.1).2 ⟨p, hp, rfl⟩))
    exact ⟨v, get_mem _ _ _ hv, ((h3 _ _ hv).2 i).2 ⟨p, hp, rfl, hi⟩⟩
  have key : ∀ (d : Dict ℕ (List ℕ)) (ls : List (List ℕ)),
      List.Forall₂ (fun (a : ℕ × List ℕ) b => (a.2.mapM fun i => (f.gm a.1)[i]?) = some b) d ls →
      ∀ g, g ∈ ls.flatten ↔ ∃ e v, (e, v) ∈ d ∧ ∃ i ∈ v, (f.gm e)[i]? = some g := by
    intro d ls hf
    induction hf with
    | nil => simp
    | @cons a b d ls hab _ ih =>
      intro g
      rw [List.flatten_cons, List.mem_append, ih]
      have hb : g ∈ b ↔ ∃ i ∈ a.2, (f.gm a.1)[i]? = some g := by
        have := (mapM_eq_some _ _ _).1 hab
        generalize a.2 = v at this
        clear hab ih
        induction this with
        | nil => simp
        | cons h _ ih =>
          refine List.mem_cons.trans ((or_congr_right ih).trans ?_)
          constructor
          · rintro (rfl | ⟨i, hi, h'⟩)
            · exact ⟨_, List.mem_cons_self, h⟩
            · exact ⟨i, List.mem_cons_of_mem _ hi, h'⟩
          · rintro ⟨i, hi, h'⟩
            rcases List.mem_cons.1 hi with rfl | hi
            · rw [h] at h'; exact Or.inl (Option.some.inj h').symm
            · exact Or.inr ⟨i, hi, h'⟩
      rw [hb]
      constructor
      · rintro (⟨i, hi, h⟩ | ⟨e, v, hev, i, hi, h⟩)
        · exact ⟨a.1, a.2, List.mem_cons_self, i, hi, h⟩
        · exact ⟨e, v, List.mem_cons_of_mem _ hev, i, hi, h⟩
      · rintro ⟨e, v, hev, i, hi, h⟩
        rcases List.mem_cons.1 hev with rfl | hev
        · exact Or.inl ⟨i, hi, h⟩
        · exact Or.inr ⟨e, v, hev, i, hi, h⟩
  rw [key _ _ hf]
  constructor
  · rintro ⟨e, v, hev, i, hi, hg⟩
    have hget := get_of_mem _ h1 _ _ hev
    obtain ⟨p, hp, rfl, hpi⟩ := ((h3 _ _ hget).2 i).1 hi
    exact ⟨p, hp, i, hpi, hg⟩
  · rintro ⟨p, hp, i, hi, hg⟩
    obtain ⟨v, hv, hiv⟩ := hmem p hp i hi
    exact ⟨p.1, v, hv, i, hiv, hg⟩

lemma rankDofs_isSome (f : Form) (faces : List Position) :
    (rankDofs f faces).isSome ↔ ∀ p ∈ faces, ∀ i ∈ f.dofs p, i < (f.gm p.1).length := by
  obtain ⟨h1, h2, h3⟩ := localDofs_right f faces
  unfold rankDofs
  rw [Option.isSome_map, mapM_isSome]
  constructor
  · intro h p hp i hi
    obtain ⟨v, hv⟩ := Option.isSome_iff_exists.1 ((get_isSome _ _).2 ((h2 p.1).2 ⟨p, hp, rfl⟩))
    have h' := (mapM_isSome _ _).1 (h _ (get_mem _ _ _ hv)) i (((h3 _ _ hv).2 i).2 ⟨p, hp, rfl, hi⟩)
    simpa using h'
  · rintro h ⟨e, v⟩ hev
    rw [mapM_isSome]
    intro i hi
    obtain ⟨p, hp, rfl, hpi⟩ := ((h3 _ _ (get_of_mem _ h1 _ _ hev)).2 i).1 hi
    simpa using h p hp i hpi

/-- Globally: the numbers of the degrees of freedom on all faces of the section of all ranks, increasing; it is an error
if a face has a degree of freedom that the gathering matrix does not have. -/
theorem find_global (ranks : List (List Position)) (f : Form) :
    (∃ l, find ranks f false = some (.glob l) ∧ Lists l (OnSection f ranks)) ∨
      (find ranks f false = none ∧ ∃ faces ∈ ranks, ∃ p ∈ faces, ∃ i ∈ f.dofs p, (f.gm p.1).length ≤ i) := by
  unfold find globalDofs
  cases h : ranks.mapM fun faces => rankDofs f faces with
  | none =>
    right
    refine ⟨by simp, ?_⟩
    have hno : ¬ (ranks.mapM fun faces => rankDofs f faces).isSome := by rw [h]; simp
    rw [mapM_isSome] at hno
    push Not at hno
    obtain ⟨faces, hf, hn⟩ := hno
    rw [Ne, rankDofs_isSome] at hn
    push Not at hn
    exact ⟨faces, hf, hn⟩
  | some ls =>
    left
    refine ⟨_, by simp; rfl, ?_⟩
    have hs := sortedSet_lists ls.flatten
    refine ⟨hs.1, fun g => (hs.2 g).trans ?_⟩
    have hf := (mapM_eq_some _ _ _).1 h
    unfold OnSection
    clear h hs
    beta_reduce
    induction hf with
    | nil => simp
    | cons h _ ih =>
      rw [List.flatten_cons, List.mem_append, rankDofs_some f _ _ h]
      refine (or_congr_right ih).trans ?_
      simp only [List.mem_cons, exists_eq_or_imp]

/-- It does not matter how the faces are distributed to ranks. -/
theorem find_global_ranks (ranks ranks' : List (List Position)) (f : Form)
    (h : ∀ p, p ∈ ranks.flatten ↔ p ∈ ranks'.flatten) : find ranks f false = find ranks' f false := by
  have hs : ∀ ranks ranks' : List (List Position), (∀ p, p ∈ ranks.flatten ↔ p ∈ ranks'.flatten) →
      ∀ Q : Position → Prop, (∃ faces ∈ ranks, ∃ p ∈ faces, Q p) → ∃ faces ∈ ranks', ∃ p ∈ faces, Q p := by
    rintro ranks ranks' h Q ⟨faces, hf, p, hp, hq⟩
    obtain ⟨faces', hf', hp'⟩ := List.mem_flatten.1 ((h p).1 (List.mem_flatten.2 ⟨faces, hf, hp⟩))
    exact ⟨faces', hf', p, hp', hq⟩
  have hs' : ∀ ranks ranks' : List (List Position), (∀ p, p ∈ ranks.flatten ↔ p ∈ ranks'.flatten) →
      find ranks f false = none → find ranks' f false = none := by
    intro ranks ranks' h hn
    rcases find_global ranks f with ⟨l, h1, -⟩ | ⟨-, h1⟩
    · rw [hn] at h1; simp at h1
    · obtain ⟨faces, hf, p, hp, i, hi, hle⟩ := hs ranks ranks' h _ h1
      rcases find_global ranks' f with ⟨l, h2, h3⟩ | ⟨h2, -⟩
      · exfalso
        have : (globalDofs f ranks').isSome := by
          unfold find at h2
          cases hg : globalDofs f ranks' with
          | none => rw [hg] at h2; simp at h2
          | some _ => rfl
        unfold globalDofs at this
        rw [Option.isSome_map, mapM_isSome] at this
        exact absurd ((rankDofs_isSome f faces).1 (this faces hf) p hp i hi) (not_lt.2 hle)
      · exact h2
  rcases find_global ranks f with ⟨l, h1, h2⟩ | ⟨h1, -⟩
  · rcases find_global ranks' f with ⟨l', h3, h4⟩ | ⟨h3, -⟩
    · rw [h1, h3]
      have : OnSection f ranks = OnSection f ranks' := by
        funext g
        exact propext ⟨hs _ _ h _, hs _ _ (fun p => (h p).symm) _⟩
      rw [← this] at h4
      rw [lists_unique h2 h4]
    · rw [hs' ranks' ranks (fun p => (h p).symm) h3] at h1
      simp at h1
  · rw [h1, hs' ranks ranks' h h1]

/-- The calls so far, and what the cache has. -/
lemma findAll_aux (ranks : List (List Position)) (calls : List (Form × Bool)) (forms : ℕ → Form)
    (hk : ∀ c ∈ calls, forms c.1.key = c.1) :
    ∀ (cache : Dict (ℕ × Bool) Answer) (out : List (Option Answer)),
      (∀ k loc a, get cache (k, loc) = some a → find ranks (forms k) loc = some a) →
      (calls.foldl (fun ca c => let n := findDofs ranks ca.1 c.1 c.2; (n.1, ca.2 ++ [n.2])) (cache, out)).2 =
        out ++ calls.map fun c => find ranks c.1 c.2 := by
  induction calls with
  | nil => intro cache out _; simp
  | cons c calls ih =>
    intro cache out hc
    rw [List.foldl_cons]
    have hck := hk c List.mem_cons_self
    have ih' := ih fun c hc => hk c (List.mem_cons_of_mem _ hc)
    cases hg : get cache (c.1.key, c.2) with
    | some a =>
      have hf := hc _ _ _ hg
      rw [hck] at hf
      have : findDofs ranks cache c.1 c.2 = (cache, some a) := by unfold findDofs; rw [hg]
      simp only [this]
      rw [ih' cache _ hc, List.map_cons, hf]
      simp
    | none =>
      cases hf : find ranks c.1 c.2 with
      | none =>
        have : findDofs ranks cache c.1 c.2 = (cache, none) := by unfold findDofs; rw [hg]; simp only; rw [hf]
        simp only [this]
        rw [ih' cache _ hc, List.map_cons, hf]
        simp
      | some a =>
        have : findDofs ranks cache c.1 c.2 = (put cache (c.1.key, c.2) a, some a) := by
          unfold findDofs; rw [hg]; simp only; rw [hf]
        simp only [this]
        rw [ih' _ _ ?_, List.map_cons, hf]
        · simp
        · intro k loc b hb
          rw [get_put] at hb
          split_ifs at hb with he
          · obtain ⟨rfl, rfl⟩ := Prod.mk.inj he
            rw [hck, hf, ← hb]
          · exact hc k loc b hb

/-- A cache that is not seen: whatever was asked before, each call gets what is found without a cache, as long as forms
with the same key are the same. -/
theorem findAll_right (ranks : List (List Position)) (calls : List (Form × Bool))
    (hk : ∀ c ∈ calls, ∀ c' ∈ calls, c.1.key = c'.1.key → c.1 = c'.1) :
    findAll ranks calls = calls.map fun c => find ranks c.1 c.2 := by
  classical
  cases calls with
  | nil => rfl
  | cons c0 calls =>
    let forms : ℕ → Form := fun k => if h : ∃ c ∈ c0 :: calls, c.1.key = k then h.choose.1 else c0.1
    have hf : ∀ c ∈ c0 :: calls, forms c.1.key = c.1 := by
      intro c hc
      have h : ∃ c' ∈ c0 :: calls, c'.1.key = c.1.key := ⟨c, hc, rfl⟩
      have : forms c.1.key = h.choose.1 := dif_pos h
      rw [this]
      exact hk _ h.choose_spec.1 c hc h.choose_spec.2
    unfold findAll
    rw [findAll_aux ranks _ forms hf [] [] (by simp [Dict.get])]
    simp

/-- A form whose degree is changed after the first call (`form/main.py:137-150`) gets the degrees of freedom of its former
degree, since its key is the same. -/
theorem findAll_stale_refuted : ¬ ∀ (ranks : List (List Position)) (calls : List (Form × Bool)),
    findAll ranks calls = calls.map fun c => find ranks c.1 c.2 := by
  intro h
  have := h [[(0, 0)]] [(⟨7, fun _ => [0], fun _ => [5, 6]⟩, false), (⟨7, fun _ => [0, 1], fun _ => [5, 6]⟩, false)]
  have hl : ∀ a b c d : List ℕ, [some (Answer.glob a), some (Answer.glob b)] = [some (Answer.glob c), some (Answer.glob d)] →
      b = d := by
    intro a b c d h
    simpa using (List.cons.inj (List.cons.inj h).2).1
  have := hl [5] [5] [5] [5, 6] this
  simp at this

/-! ### Elements of a point -/

lemma whereAll_aux {P K : Type} [DecidableEq K] (ranks : List (List ℕ)) (has : ℕ → P → Bool) (fmt : P → K)
    (xs : List P) (first : K → P) (hk : ∀ x ∈ xs, first (fmt x) = x) :
    ∀ (cache : Dict K (List ℕ)) (out : List (List ℕ)),
      (∀ k a, get cache k = some a → a = whichElements ranks has (first k)) →
      (xs.foldl (fun ca x => let n := whereIs ranks has fmt ca.1 x; (n.1, ca.2 ++ [n.2])) (cache, out)).2 =
        out ++ xs.map fun x => whichElements ranks has x := by
  induction xs with
  | nil => intro cache out _; simp
  | cons x xs ih =>
    intro cache out hc
    rw [List.foldl_cons]
    have hx := hk x List.mem_cons_self
    have ih' := ih fun c hc => hk c (List.mem_cons_of_mem _ hc)
    cases hg : get cache (fmt x) with
    | some a =>
      have ha := hc _ _ hg
      rw [hx] at ha
      have : whereIs ranks has fmt cache x = (cache, a) := by unfold whereIs; rw [hg]
      simp only [this]
      rw [ih' cache _ hc, ha]
      simp
    | none =>
      have : whereIs ranks has fmt cache x = (put cache (fmt x) (whichElements ranks has x), whichElements ranks has x) := by
        unfold whereIs; rw [hg]
      simp only [this]
      rw [ih' _ _ ?_]
      · simp
      · intro k b hb
        rw [get_put] at hb
        split_ifs at hb with he
        · subst he; rw [hx]; exact (Option.some.inj hb).symm
        · exact hc k b hb

/-- The elements of a point: those elements of all ranks that have it, rank by rank and each as often as it is listed.
This is the answer to every call, whatever was asked before, as long as no two different points are written with the same
digits. -/
theorem where_right_partial {P K : Type} [DecidableEq K] (ranks : List (List ℕ)) (has : ℕ → P → Bool) (fmt : P → K)
    (xs : List P) (hf : ∀ x ∈ xs, ∀ y ∈ xs, fmt x = fmt y → x = y) :
    whereAll ranks has fmt xs = xs.map fun x => ranks.flatten.filter fun e => has e x := by
  classical
  have hw : ∀ x, whichElements ranks has x = ranks.flatten.filter fun e => has e x := by
    intro x
    unfold whichElements
    induction ranks with
    | nil => rfl
    | cons r ranks ih => rw [List.map_cons, List.flatten_cons, ih, List.flatten_cons, List.filter_append]
  simp only [← hw]
  cases xs with
  | nil => rfl
  | cons x0 xs =>
    let first : K → P := fun k => if h : ∃ c ∈ x0 :: xs, fmt c = k then h.choose else x0
    have hfirst : ∀ c ∈ x0 :: xs, first (fmt c) = c := by
      intro c hc
      have h : ∃ c' ∈ x0 :: xs, fmt c' = fmt c := ⟨c, hc, rfl⟩
      have : first (fmt c) = h.choose := dif_pos h
      rw [this]
      exact hf _ h.choose_spec.1 c hc h.choose_spec.2
    unfold whereAll
    rw [whereAll_aux ranks has fmt _ first hfirst [] [] (by simp [Dict.get])]
    simp

/-- Two points that differ by less than the six digits: the second one is told to be in the elements of the first one.
(For positive numbers; numbers that are rounded to zero are written with their sign.) -/
theorem where_refuted : ¬ ∀ (ranks : List (List ℕ)) (has : ℕ → ℚ → Bool) (xs : List ℚ), (∀ x ∈ xs, 0 < x) →
    whereAll ranks has (fun x => round (x * 10 ^ 6)) xs = xs.map fun x => ranks.flatten.filter fun e => has e x := by
  intro h
  have := h [[0, 1]] (fun e x => if e = 0 then decide (x ≤ 1) else decide (1 ≤ x)) [1 - 1 / 10 ^ 7, 1 + 1 / 10 ^ 7]
    (by norm_num)
  have h1 : round ((1 - 1 / 10 ^ 7 : ℚ) * 10 ^ 6) = 1000000 := by
    rw [round_eq, Int.floor_eq_iff]; norm_num
  have h2 : round ((1 + 1 / 10 ^ 7 : ℚ) * 10 ^ 6) = 1000000 := by
    rw [round_eq, Int.floor_eq_iff]; norm_num
  simp only [whereAll, List.foldl_cons, List.foldl_nil, whereIs, Dict.get, Dict.put, h1, h2, whichElements] at this
  norm_num at this

/-! ### Cases -/

/-- A form on two elements with four nodes each and a common side; each of two ranks has one of them. -/
def twoSquares : Form :=
  ⟨1, fun p => match p.2 with | 0 => [0, 2] | 1 => [1, 3] | 2 => [0, 1] | _ => [2, 3],
    fun e => if e = 0 then [0, 1, 2, 3] else [1, 4, 3, 5]⟩

/-- Its degrees of freedom on the lower sides and the left side, twice local and once global: the hypothesis of
`findAll_right` holds. -/
example : findAll [[(0, 0), (0, 2)], [(1, 2)]] [(twoSquares, true), (twoSquares, false), (twoSquares, true)] =
    [some (.loc [[(0, [0, 1, 2])], [(1, [0, 1])]]), some (.glob [0, 1, 2, 4]),
      some (.loc [[(0, [0, 1, 2])], [(1, [0, 1])]])] := rfl

/-- A point on the interface of two elements, and one in the second one. -/
example : whereAll [[0], [1]] (fun e (x : ℕ) => if e = 0 then decide (x ≤ 1) else decide (1 ≤ x)) id [1, 2, 1] =
    [[0, 1], [1], [0, 1]] := rfl

example : configs (fun n : ℕ => if n < 3 then some n else none) (new ℕ) [2, 1] = (⟨true, some 2⟩, [true, false]) := rfl

end Phyem.Sections
