import Verif.Passing.Places

/-!
# Which dofs correspond
-/

namespace Phyem.Passing

variable {G K : Type} [DecidableEq K]

/-- **Specification.** A place of the dof `x` of `f1` is a part of a place of the dof `d` of `f0`. -/
def PartOf (S : Shape G K) (L0 L1 : List (ℕ × G)) (d x : ℕ) : Prop := ∃ h g, (d, h) ∈ L0 ∧ (x, g) ∈ L1 ∧ S.contains h g = true

/-- **Specification.** The first places of the two dofs have the same key, if there are keys. -/
def SameGroup (S : Shape G K) (L0 L1 : List (ℕ × G)) (d x : ℕ) : Prop :=
  ∀ k, S.key = some k → (firstAt L0 d).map k = (firstAt L1 x).map k

/-- **Specification.** Both. -/
def Match (S : Shape G K) (L0 L1 : List (ℕ × G)) (d x : ℕ) : Prop := SameGroup S L0 L1 d x ∧ PartOf S L0 L1 d x

lemma group_iff {S : Shape G K} {d e : List (ℕ × List G)} {L0 L1 : List (ℕ × G)} (hd : Has d L0) (he : Has e L1) (k x : ℕ) :
    group S (look d k) (look e x) = true ↔ SameGroup S L0 L1 k x := by
  unfold group SameGroup
  rw [hd.first, he.first]
  cases hk : S.key with
  | none => simp
  | some f => simp

lemma part_iff {S : Shape G K} {d e : List (ℕ × List G)} {L0 L1 : List (ℕ × G)} (hd : Has d L0) (he : Has e L1) (k x : ℕ) :
    partOf S (look d k) (look e x) = true ↔ PartOf S L0 L1 k x := by
  unfold partOf PartOf
  simp only [List.any_eq_true, hd.mem, he.mem]
  constructor
  · rintro ⟨g, hg, h, hh, hc⟩; exact ⟨h, g, hh, hg, hc⟩
  · rintro ⟨h, g, hh, hg, hc⟩; exact ⟨g, hg, h, hh, hc⟩

lemma part_mem {S : Shape G K} {L0 L1 : List (ℕ × G)} {d x : ℕ} (h : PartOf S L0 L1 d x) : x ∈ order L1 := by
  obtain ⟨_, g, _, hg, _⟩ := h
  exact mem_order.2 ⟨g, hg⟩

lemma findOne_mem {S : Shape G K} {d e : List (ℕ × List G)} {L0 L1 : List (ℕ × G)} (hd : Has d L0) (he : Has e L1) (taken : List ℕ) (k x : ℕ) :
    x ∈ findOne S e taken (look d k) ↔ Match S L0 L1 k x ∧ x ∉ taken := by
  unfold findOne Match
  rw [List.mem_map]
  constructor
  · rintro ⟨p, hp, rfl⟩
    obtain ⟨hp, hc⟩ := List.mem_filter.1 hp
    simp only [Bool.and_eq_true, Bool.not_eq_true', decide_eq_false_iff_not] at hc
    rw [entry he hp] at hc
    exact ⟨⟨(group_iff hd he _ _).1 hc.1.1, (part_iff hd he _ _).1 hc.2⟩, hc.1.2⟩
  · rintro ⟨⟨hg, hp⟩, ht⟩
    have hx : x ∈ e.map Prod.fst := he.keys ▸ part_mem hp
    obtain ⟨p, hpe, rfl⟩ := List.mem_map.1 hx
    refine ⟨p, List.mem_filter.2 ⟨hpe, ?_⟩, rfl⟩
    simp only [Bool.and_eq_true, Bool.not_eq_true', decide_eq_false_iff_not]
    rw [entry he hpe]
    exact ⟨⟨(group_iff hd he _ _).2 hg, ht⟩, (part_iff hd he _ _).2 hp⟩

lemma findOne_sublist {S : Shape G K} {e : List (ℕ × List G)} {L1 : List (ℕ × G)} (he : Has e L1) (taken : List ℕ) (gs : List G) :
    (findOne S e taken gs).Sublist (order L1) := by
  rw [← he.keys]
  exact List.filter_sublist.map _

lemma findAll_append (S : Shape G K) (e : List (ℕ × List G)) : ∀ (a b : List (ℕ × List G)) (t : List ℕ),
    findAll S e (a ++ b) t = findAll S e a t ++ findAll S e b (t ++ (findAll S e a t).flatMap Prod.snd)
  | [], b, t => by simp [findAll]
  | p :: a, b, t => by
    simp only [List.cons_append, findAll, findAll_append S e a b, List.flatMap_cons, List.append_assoc]

lemma findAll_keys (S : Shape G K) (e : List (ℕ × List G)) : ∀ (a : List (ℕ × List G)) (t : List ℕ), (findAll S e a t).map Prod.fst = a.map Prod.fst
  | [], _ => rfl
  | p :: a, t => by simp only [findAll, List.map_cons, findAll_keys S e a]

/-- All that is found for some dofs. -/
lemma findAll_mem {S : Shape G K} {d e : List (ℕ × List G)} {L0 L1 : List (ℕ × G)} (hd : Has d L0) (he : Has e L1) (x : ℕ) :
    ∀ (ks : List ℕ) (t : List ℕ), x ∈ (findAll S e (ks.map fun k => (k, look d k)) t).flatMap Prod.snd ↔ x ∉ t ∧ ∃ k ∈ ks, Match S L0 L1 k x
  | [], t => by simp [findAll]
  | k :: ks, t => by
    rw [List.map_cons]
    simp only [findAll, List.flatMap_cons, List.mem_append, findAll_mem hd he x ks, findOne_mem hd he, List.mem_cons, exists_eq_or_imp]
    by_cases hk : Match S L0 L1 k x <;> by_cases ht : x ∈ t <;> simp [hk, ht]

/-- What is found for one dof. -/
lemma found_at {S : Shape G K} (hS : Exact S) (ranks0 ranks1 : List (List (ℕ × G))) {pre post : List ℕ} {d : ℕ}
    (h : order ranks0.flatten = pre ++ d :: post) :
    ∃ l A B, findAll S (allGeos S ranks1) (allGeos S ranks0) [] = A ++ (d, l) :: B ∧ A.map Prod.fst = pre ∧ l.Sublist (order ranks1.flatten) ∧
      ∀ x, x ∈ l ↔ Match S ranks0.flatten ranks1.flatten d x ∧ ∀ d' ∈ pre, ¬ Match S ranks0.flatten ranks1.flatten d' x := by
  have h0 := all_has hS ranks0
  have h1 := all_has hS ranks1
  rw [entries h0, h, List.map_append, List.map_cons, findAll_append]
  refine ⟨_, _, _, rfl, ?_, findOne_sublist h1 _ _, fun x => ?_⟩
  · rw [findAll_keys, List.map_map]
    exact List.map_id pre
  · rw [findOne_mem h0 h1, List.nil_append, findAll_mem h0 h1]
    simp

/-- **C153.** For each dof of `f0` the dofs of `f1` that are found are exactly those that match it and match no dof before it, each once and in
their order; the dictionary has this list, and no entry if it is empty. -/
theorem correspondence_spec {S : Shape G K} (hS : Exact S) (ranks0 ranks1 : List (List (ℕ × G))) {pre post : List ℕ} {d : ℕ}
    (h : order ranks0.flatten = pre ++ d :: post) :
    ∃ l, l.Sublist (order ranks1.flatten) ∧
      (∀ x, x ∈ l ↔ Match S ranks0.flatten ranks1.flatten d x ∧ ∀ d' ∈ pre, ¬ Match S ranks0.flatten ranks1.flatten d' x) ∧
      ((computer S ranks0 ranks1).2.find? fun p => p.1 = d) = if l = [] then none else some (d, l) := by
  obtain ⟨l, A, B, hf, hA, hsub, hmem⟩ := found_at hS ranks0 ranks1 h
  refine ⟨l, hsub, hmem, ?_⟩
  have hnd : (pre ++ d :: post).Nodup := h ▸ order_nodup _
  have hkeys : (findAll S (allGeos S ranks1) (allGeos S ranks0) []).map Prod.fst = pre ++ d :: post := by
    rw [findAll_keys, (all_has hS ranks0).keys, h]
  rw [hf, List.map_append, List.map_cons, hA, List.append_cancel_left_eq, List.cons.injEq] at hkeys
  have hdA : ∀ p ∈ A, p.1 ≠ d := fun p hp e => by
    have : d ∈ pre := hA ▸ e ▸ List.mem_map_of_mem hp
    exact (List.nodup_append.1 hnd).2.2 d this d List.mem_cons_self rfl
  have hdB : ∀ p ∈ B, p.1 ≠ d := fun p hp e => by
    have : d ∈ post := hkeys.2 ▸ e ▸ List.mem_map_of_mem hp
    exact (List.nodup_cons.1 (List.nodup_append.1 hnd).2.1).1 this
  have hc : (computer S ranks0 ranks1).2 = (A ++ (d, l) :: B).filter fun p => !p.2.isEmpty := by rw [← hf]; rfl
  rw [hc, List.filter_append, List.find?_append,
    List.find?_eq_none.2 (fun p hp => by simpa using hdA p (List.mem_filter.1 hp).1), Option.none_or]
  by_cases hl : l = []
  · rw [if_pos hl, List.filter_cons_of_neg (by simp [hl])]
    exact List.find?_eq_none.2 (fun p hp => by simpa using hdB p (List.mem_filter.1 hp).1)
  · rw [if_neg hl, List.filter_cons_of_pos (by simpa using hl), List.find?_cons_of_pos (by simp)]

/-- **C153.** The dictionary has only dofs of `f0`. -/
theorem correspondence_keys {S : Shape G K} (hS : Exact S) (ranks0 ranks1 : List (List (ℕ × G))) :
    ((computer S ranks0 ranks1).2.map Prod.fst).Sublist (order ranks0.flatten) := by
  have h : (findAll S (allGeos S ranks1) (allGeos S ranks0) []).map Prod.fst = order ranks0.flatten := by
    rw [findAll_keys, (all_has hS ranks0).keys]
  rw [← h]
  exact List.filter_sublist.map _

/-- Splitting a list at an element. -/
lemma order_split {L : List (ℕ × G)} {d : ℕ} (h : d ∈ order L) : ∃ pre post, order L = pre ++ d :: post := List.append_of_mem h

/-- **C153.** No dof of `f1` corresponds to two dofs of `f0`. -/
theorem correspondence_disjoint {S : Shape G K} (hS : Exact S) (ranks0 ranks1 : List (List (ℕ × G))) {p q : ℕ × List ℕ}
    (hp : p ∈ (computer S ranks0 ranks1).2) (hq : q ∈ (computer S ranks0 ranks1).2) {x : ℕ} (hx : x ∈ p.2) (hx' : x ∈ q.2) : p = q := by
  have hn : ((computer S ranks0 ranks1).2.map Prod.fst).Nodup := (correspondence_keys hS ranks0 ranks1).nodup (order_nodup _)
  have huniq : ∀ {p q : ℕ × List ℕ}, p ∈ (computer S ranks0 ranks1).2 → q ∈ (computer S ranks0 ranks1).2 → p.1 = q.1 → p = q :=
    fun hp hq e => List.inj_on_of_nodup_map hn hp hq e
  have hat : ∀ {p : ℕ × List ℕ}, p ∈ (computer S ranks0 ranks1).2 → ∀ {pre post}, order ranks0.flatten = pre ++ p.1 :: post → x ∈ p.2 →
      Match S ranks0.flatten ranks1.flatten p.1 x ∧ ∀ d' ∈ pre, ¬ Match S ranks0.flatten ranks1.flatten d' x := by
    intro p hp pre post ho hx
    obtain ⟨l, _, hm, hf⟩ := correspondence_spec hS ranks0 ranks1 ho
    have : p = (p.1, l) := by
      by_cases hl : l = []
      · rw [if_pos hl] at hf
        exact absurd (by simp : decide (p.1 = p.1) = true) (List.find?_eq_none.1 hf p hp)
      · rw [if_neg hl] at hf
        exact huniq hp (List.mem_of_find?_eq_some hf) rfl
    refine (hm x).1 ?_
    have h2 : p.2 = l := congrArg Prod.snd this
    exact h2 ▸ hx
  have ho := (correspondence_keys hS ranks0 ranks1).subset
  obtain ⟨a, b, hab⟩ := order_split (ho (List.mem_map_of_mem hp))
  obtain ⟨a', b', hab'⟩ := order_split (ho (List.mem_map_of_mem hq))
  have h1 := hat hp hab hx
  have h2 := hat hq hab' hx'
  refine huniq hp hq ?_
  by_contra hne
  have hq1 : q.1 ∉ a := fun hm => h1.2 _ hm h2.1
  have hp1 : p.1 ∉ a' := fun hm => h2.2 _ hm h1.1
  have heq := hab.symm.trans hab'
  rcases List.append_eq_append_iff.1 heq with ⟨c, hc, hd⟩ | ⟨c, hc, hd⟩
  · cases c with
    | nil => simp only [List.nil_append, List.cons.injEq] at hd; exact hne hd.1
    | cons y c =>
      simp only [List.cons_append, List.cons.injEq] at hd
      exact hp1 (hc ▸ List.mem_append_right _ (hd.1 ▸ List.mem_cons_self))
  · cases c with
    | nil => simp only [List.nil_append, List.cons.injEq] at hd; exact hne hd.1.symm
    | cons y c =>
      simp only [List.cons_append, List.cons.injEq] at hd
      exact hq1 (hc ▸ List.mem_append_right _ (hd.1 ▸ List.mem_cons_self))

/-! ### Complete -/

lemma foldGeo_mem {S : Shape G K} (hS : Exact S) {x : G} : ∀ (gs l : List G), x ∈ gs.foldl (addGeo S) l ↔ x ∈ l ∨ x ∈ gs
  | [], l => by simp
  | g :: gs, l => by
    rw [List.foldl_cons, foldGeo_mem hS gs, mem_addGeo hS, List.mem_cons]
    tauto

lemma foldGeo_nodup {S : Shape G K} (hS : Exact S) : ∀ (gs l : List G), l.Nodup → (gs.foldl (addGeo S) l).Nodup
  | [], _, h => h
  | g :: gs, l, h => foldGeo_nodup hS gs (addGeo S l g) (addGeo_nodup hS h)

lemma geosOf_mem {S : Shape G K} (hS : Exact S) {e : List (ℕ × List G)} {L1 : List (ℕ × G)} (he : Has e L1) (l : List ℕ) (g : G) :
    g ∈ geosOf S e l ↔ ∃ x ∈ l, (x, g) ∈ L1 := by
  unfold geosOf
  rw [foldGeo_mem hS]
  simp only [List.not_mem_nil, false_or, List.mem_flatMap]
  exact exists_congr fun x => and_congr_right fun _ => he.mem x g

lemma geosOf_nodup {S : Shape G K} (hS : Exact S) (e : List (ℕ × List G)) (l : List ℕ) : (geosOf S e l).Nodup :=
  foldGeo_nodup hS _ _ List.nodup_nil

lemma covered_iff {S : Shape G K} {d e : List (ℕ × List G)} {L0 : List (ℕ × G)} (hd : Has d L0) (p : ℕ × List ℕ) :
    covered S d e p = true ↔ ∃ g, firstAt L0 p.1 = some g ∧ S.union g (geosOf S e p.2) = true := by
  have h : (((d.find? fun q => q.1 = p.1).map Prod.snd).bind List.head?) = (look d p.1).head? := by
    unfold look
    cases d.find? fun q => q.1 = p.1 <;> rfl
  unfold covered
  rw [h, hd.first]
  cases firstAt L0 p.1 <;> simp

/-- **C153.** The correspondence is complete exactly if something is found for each dof of `f0` and its first place is the union of some of the
places of the dofs that are found. The test must not depend on the order of the places. -/
theorem complete_iff {S : Shape G K} (hS : Exact S) (hU : ∀ g l l', l.Perm l' → S.union g l = S.union g l') (ranks0 ranks1 : List (List (ℕ × G))) :
    (computer S ranks0 ranks1).1 = true ↔
      ∀ pre d post, order ranks0.flatten = pre ++ d :: post →
        ∃ l gs g, l ≠ [] ∧
          (∀ x, x ∈ l ↔ Match S ranks0.flatten ranks1.flatten d x ∧ ∀ d' ∈ pre, ¬ Match S ranks0.flatten ranks1.flatten d' x) ∧
          gs.Nodup ∧ (∀ g, g ∈ gs ↔ ∃ x ∈ l, (x, g) ∈ ranks1.flatten) ∧ firstAt ranks0.flatten d = some g ∧ S.union g gs = true := by
  have h0 := all_has hS ranks0
  have h1 := all_has hS ranks1
  have hc : (computer S ranks0 ranks1).1 = true ↔ ∀ p ∈ findAll S (allGeos S ranks1) (allGeos S ranks0) [],
      p.2 ≠ [] ∧ covered S (allGeos S ranks0) (allGeos S ranks1) p = true := by
    unfold computer
    simp only [Bool.and_eq_true, List.all_eq_true, Bool.not_eq_true', List.isEmpty_eq_false_iff]
    exact ⟨fun h p hp => ⟨h.1 p hp, h.2 p hp⟩, fun h => ⟨fun p hp => (h p hp).1, fun p hp => (h p hp).2⟩⟩
  rw [hc]
  constructor
  · intro h pre d post ho
    obtain ⟨l, A, B, hf, -, -, hm⟩ := found_at hS ranks0 ranks1 ho
    obtain ⟨hl, hcov⟩ := h (d, l) (by rw [hf]; simp)
    obtain ⟨g, hg, hu⟩ := (covered_iff h0 _).1 hcov
    exact ⟨l, geosOf S (allGeos S ranks1) l, g, hl, hm, geosOf_nodup hS _ _, geosOf_mem hS h1 l, hg, hu⟩
  · intro h p hp
    have hk : p.1 ∈ order ranks0.flatten := by
      rw [← h0.keys, ← findAll_keys S (allGeos S ranks1) _ []]
      exact List.mem_map_of_mem hp
    obtain ⟨pre, post, ho⟩ := order_split hk
    obtain ⟨l, A, B, hf, -, -, hm⟩ := found_at hS ranks0 ranks1 ho
    have hn : ((findAll S (allGeos S ranks1) (allGeos S ranks0) []).map Prod.fst).Nodup := by
      rw [findAll_keys, h0.keys]; exact order_nodup _
    have hpl : p = (p.1, l) := List.inj_on_of_nodup_map hn hp (by rw [hf]; simp) rfl
    have hp2 : p.2 = l := congrArg Prod.snd hpl
    obtain ⟨l', gs, g, hl', hm', hgn, hgm, hg, hu⟩ := h _ _ _ ho
    have hll : ∀ x, x ∈ l ↔ x ∈ l' := fun x => (hm x).trans (hm' x).symm
    refine ⟨?_, (covered_iff h0 _).2 ⟨g, hg, ?_⟩⟩
    · rw [hp2]
      rintro rfl
      exact hl' (List.eq_nil_iff_forall_not_mem.2 fun x hx => by simpa using (hll x).2 hx)
    · rw [hp2, hU g _ gs ((List.perm_ext_iff_of_nodup (geosOf_nodup hS _ _) hgn).2 fun y => ?_)]
      · exact hu
      · rw [geosOf_mem hS h1, hgm]
        exact exists_congr fun x => and_congr_left fun _ => hll x

/-- **C153.** Where no dof of `f1` matches two dofs of `f0`, it is complete exactly if each dof of `f0` is matched by some dof and its first place is
the union of some of the places of all the dofs that match it. -/
theorem complete_nested {S : Shape G K} (hS : Exact S) (hU : ∀ g l l', l.Perm l' → S.union g l = S.union g l') (ranks0 ranks1 : List (List (ℕ × G)))
    (hone : ∀ d d' x, Match S ranks0.flatten ranks1.flatten d x → Match S ranks0.flatten ranks1.flatten d' x → d = d') :
    (computer S ranks0 ranks1).1 = true ↔
      ∀ d ∈ order ranks0.flatten, (∃ x, Match S ranks0.flatten ranks1.flatten d x) ∧
        ∃ gs g, gs.Nodup ∧ (∀ g, g ∈ gs ↔ ∃ x, Match S ranks0.flatten ranks1.flatten d x ∧ (x, g) ∈ ranks1.flatten) ∧
          firstAt ranks0.flatten d = some g ∧ S.union g gs = true := by
  rw [complete_iff hS hU]
  have hpre : ∀ {pre d post}, order ranks0.flatten = pre ++ d :: post → ∀ x,
      (Match S ranks0.flatten ranks1.flatten d x ∧ ∀ d' ∈ pre, ¬ Match S ranks0.flatten ranks1.flatten d' x) ↔
        Match S ranks0.flatten ranks1.flatten d x := by
    intro pre d post ho x
    refine ⟨And.left, fun hm => ⟨hm, fun d' hd' hm' => ?_⟩⟩
    have hnd : (pre ++ d :: post).Nodup := ho ▸ order_nodup _
    exact (List.nodup_append.1 hnd).2.2 d' hd' d List.mem_cons_self (hone _ _ _ hm' hm)
  constructor
  · intro h d hd
    obtain ⟨pre, post, ho⟩ := order_split hd
    obtain ⟨l, gs, g, hl, hm, hgn, hgm, hg, hu⟩ := h _ _ _ ho
    obtain ⟨x, hx⟩ := List.exists_mem_of_ne_nil l hl
    refine ⟨⟨x, ((hm x).1 hx).1⟩, gs, g, hgn, fun y => ?_, hg, hu⟩
    rw [hgm]
    exact exists_congr fun x => and_congr_left fun _ => (hm x).trans (hpre ho x)
  · intro h pre d post ho
    obtain ⟨⟨x, hx⟩, gs, g, hgn, hgm, hg, hu⟩ := h d (by rw [ho]; simp)
    obtain ⟨l, A, B, -, -, -, hm⟩ := found_at hS ranks0 ranks1 ho
    refine ⟨l, gs, g, ?_, hm, hgn, fun y => ?_, hg, hu⟩
    · rintro rfl
      simpa using (hm x).2 ((hpre ho x).2 hx)
    · rw [hgm]
      exact exists_congr fun x => and_congr_left fun _ => ((hm x).trans (hpre ho x)).symm

end Phyem.Passing
