import Verif.Passing.Shapes

/-!
# What is passed
-/

namespace Phyem.Passing

variable {G K : Type} [DecidableEq K]

/-- **C154.** Passing is exact: if the correspondence is complete, the values of `f1` are those of a quantity `μ` at its places, the quantity of a
union is the sum over its parts, different dofs of `f1` are at different places and each of the matching dofs of `f1` has just one place in the first place of a dof of `f0`,
then what is passed to each dof of `f0` is the quantity at its place. -/
theorem pass_exact {S : Shape G K} (hS : Exact S) (μ : G → ℚ) (ranks0 ranks1 : List (List (ℕ × G)))
    (hadd : ∀ g gs, gs.Nodup → (∃ d, (d, g) ∈ ranks0.flatten) → (∀ s ∈ gs, ∃ x, (x, s) ∈ ranks1.flatten) → S.union g gs = true →
      μ g = ((gs.filter (S.contains g)).map μ).sum)
    (hdist : ∀ x y g, (x, g) ∈ ranks1.flatten → (y, g) ∈ ranks1.flatten → x = y)
    (hone : ∀ d x h, Match S ranks0.flatten ranks1.flatten d x → firstAt ranks0.flatten d = some h →
      ∃! g, (x, g) ∈ ranks1.flatten ∧ S.contains h g = true)
    (hc : (computer S ranks0 ranks1).1 = true) {v w : ℕ → ℚ} (hv : ∀ x g, (x, g) ∈ ranks1.flatten → v x = μ g)
    (hw : ∀ d g, (d, g) ∈ ranks0.flatten → w d = μ g) {d : ℕ} {h : G} (hd : (d, h) ∈ ranks0.flatten) :
    valueAt (computer S ranks0 ranks1).2 v d = some (w d) := by
  have h1 := all_has hS ranks1
  have hdo : d ∈ order ranks0.flatten := mem_order.2 ⟨h, hd⟩
  obtain ⟨pre, post, ho⟩ := order_split hdo
  obtain ⟨l, A, B, hf, hA, hsub, hm⟩ := found_at hS ranks0 ranks1 ho
  obtain ⟨l', hsub', hm', hfind⟩ := correspondence_spec hS ranks0 ranks1 ho
  have hcc : l ≠ [] ∧ covered S (allGeos S ranks0) (allGeos S ranks1) (d, l) = true := by
    have hc' := hc
    unfold computer at hc'
    simp only [Bool.and_eq_true, List.all_eq_true, Bool.not_eq_true', List.isEmpty_eq_false_iff] at hc'
    have hmem : (d, l) ∈ findAll S (allGeos S ranks1) (allGeos S ranks0) [] := by rw [hf]; simp
    exact ⟨hc'.1 _ hmem, hc'.2 _ hmem⟩
  have hperm : l'.Perm l := (List.perm_ext_iff_of_nodup (hsub'.nodup (order_nodup _)) (hsub.nodup (order_nodup _))).2 fun x =>
    (hm' x).trans (hm x).symm
  have hl' : l' ≠ [] := fun e => hcc.1 (by rw [e] at hperm; exact hperm.symm.eq_nil)
  rw [if_neg hl'] at hfind
  unfold valueAt
  rw [hfind, Option.map_some]
  congr 1
  dsimp only
  obtain ⟨g, hg, hu⟩ := (covered_iff (all_has hS ranks0) _).1 hcc.2
  have hgp : (d, g) ∈ ranks0.flatten := by
    unfold firstAt at hg
    obtain ⟨p, hp, rfl⟩ := Option.map_eq_some_iff.1 hg
    have h2 : p.1 = d := by simpa using List.find?_some hp
    rw [← h2]
    exact List.mem_of_find?_eq_some hp
  rw [hw d g hgp, hadd g _ (geosOf_nodup hS (allGeos S ranks1) l) ⟨d, hgp⟩
    (fun s hs => by obtain ⟨x, -, hx⟩ := (geosOf_mem hS h1 _ _).1 hs; exact ⟨x, hx⟩) hu, (hperm.map v).sum_eq]
  -- the place of each dof that is found
  have hex : ∀ x : {x // x ∈ l}, ∃ s, ((x.1, s) ∈ ranks1.flatten ∧ S.contains g s = true) ∧
      ∀ t, (x.1, t) ∈ ranks1.flatten ∧ S.contains g t = true → t = s := fun x =>
    hone d x.1 g ((hm x.1).1 x.2).1 hg
  choose s hs1 hs2 using hex
  have hl : l.map v = (l.attach.map s).map μ := by
    rw [List.map_map]
    conv_lhs => rw [← List.attach_map_subtype_val l, List.map_map]
    exact List.map_congr_left fun x _ => hv _ _ (hs1 x).1
  rw [hl]
  refine ((List.perm_ext_iff_of_nodup ?_ ((geosOf_nodup hS _ _).filter _)).2 fun t => ?_).map μ |>.sum_eq
  · refine List.Nodup.map_on ?_ (List.nodup_attach.2 (hsub.nodup (order_nodup _)))
    intro x _ y _ hxy
    exact Subtype.ext (hdist _ _ _ (hs1 x).1 (hxy ▸ (hs1 y).1))
  · rw [List.mem_map, List.mem_filter, geosOf_mem hS h1]
    constructor
    · rintro ⟨x, -, rfl⟩
      exact ⟨⟨x.1, x.2, (hs1 x).1⟩, (hs1 x).2⟩
    · rintro ⟨⟨x, hx, hxt⟩, hct⟩
      exact ⟨⟨x, hx⟩, List.mem_attach _ _, (hs2 ⟨x, hx⟩ t ⟨hxt, hct⟩).symm⟩

/-! ### Dofs with one place -/

/-- **Specification.** Each dof has one place only (no periodic sides). -/
def Single (L : List (ℕ × G)) : Prop := ∀ d g h, (d, g) ∈ L → (d, h) ∈ L → g = h

lemma first_single {L : List (ℕ × G)} (h : Single L) {d : ℕ} {g : G} (hd : (d, g) ∈ L) : firstAt L d = some g := by
  unfold firstAt
  cases hf : L.find? fun p => p.1 = d with
  | none => exact absurd (by simp : decide ((d, g).1 = d) = true) (List.find?_eq_none.1 hf _ hd)
  | some p =>
    have h2 : p.1 = d := by simpa using List.find?_some hf
    have hp : (d, p.2) ∈ L := by rw [← h2]; exact List.mem_of_find?_eq_some hf
    exact congrArg some (h _ _ _ hp hd)

/-- **C153.** Where keys of a place and its parts are equal and each dof has one place, dofs match exactly if one is a part of the other: groups leave
nothing out. -/
theorem match_single {S : Shape G K} (hk : ∀ a b k, S.contains a b = true → S.key = some k → k a = k b) {L0 L1 : List (ℕ × G)} (h0 : Single L0) (h1 : Single L1)
    (d x : ℕ) : Match S L0 L1 d x ↔ PartOf S L0 L1 d x := by
  refine ⟨And.right, fun h => ⟨?_, h⟩⟩
  obtain ⟨a, b, ha, hb, hc⟩ := h
  intro k hkey
  rw [first_single h0 ha, first_single h1 hb]
  exact congrArg some (hk a b k hc hkey)

/-- **C154.** Points: if each point of the coarse grid is one of the points of the fine grid, values at points are passed exactly. -/
theorem pass_points (f : ℚ × ℚ → ℚ) (ranks0 ranks1 : List (List (ℕ × (ℚ × ℚ)))) (h0 : Single ranks0.flatten) (h1 : Single ranks1.flatten)
    (hd0 : ∀ x y g, (x, g) ∈ ranks0.flatten → (y, g) ∈ ranks0.flatten → x = y)
    (hd1 : ∀ x y g, (x, g) ∈ ranks1.flatten → (y, g) ∈ ranks1.flatten → x = y)
    (hsub : ∀ d g, (d, g) ∈ ranks0.flatten → ∃ x, (x, g) ∈ ranks1.flatten) {v : ℕ → ℚ} (hv : ∀ x g, (x, g) ∈ ranks1.flatten → v x = f g) :
    (computer (points 0) ranks0 ranks1).1 = true ∧
      ∀ d g, (d, g) ∈ ranks0.flatten → valueAt (computer (points 0) ranks0 ranks1).2 v d = some (f g) := by
  have hmatch : ∀ d x, Match (points 0) ranks0.flatten ranks1.flatten d x ↔ ∃ g, (d, g) ∈ ranks0.flatten ∧ (x, g) ∈ ranks1.flatten := fun d x => by
    rw [match_single (fun a b k h => points_key h k) h0 h1]
    constructor
    · rintro ⟨a, b, ha, hb, hc⟩
      rw [points_contains] at hc
      subst hc
      exact ⟨a, ha, hb⟩
    · rintro ⟨g, ha, hb⟩
      exact ⟨g, g, ha, hb, (points_contains _ _).2 rfl⟩
  have hcomplete : (computer (points 0) ranks0 ranks1).1 = true := by
    refine (complete_nested points_exact points_perm ranks0 ranks1 ?_).2 ?_
    · intro d d' x hm hm'
      obtain ⟨g, hg, hx⟩ := (hmatch _ _).1 hm
      obtain ⟨g', hg', hx'⟩ := (hmatch _ _).1 hm'
      obtain rfl := h1 _ _ _ hx hx'
      exact hd0 _ _ _ hg hg'
    · intro d hd
      obtain ⟨g, hg⟩ := mem_order.1 hd
      obtain ⟨x, hx⟩ := hsub d g hg
      refine ⟨⟨x, (hmatch _ _).2 ⟨g, hg, hx⟩⟩, [g], g, List.nodup_singleton _, fun s => ?_, first_single h0 hg, (points_union _ _).2 (by simp)⟩
      rw [List.mem_singleton]
      constructor
      · rintro rfl; exact ⟨x, (hmatch _ _).2 ⟨s, hg, hx⟩, hx⟩
      · rintro ⟨y, hy, hys⟩
        obtain ⟨g', hg', hyg⟩ := (hmatch _ _).1 hy
        rw [h0 _ _ _ hg hg']
        exact h1 _ _ _ hys hyg
  refine ⟨hcomplete, fun d g hg => ?_⟩
  have hw : ∃ w : ℕ → ℚ, ∀ d g, (d, g) ∈ ranks0.flatten → w d = f g :=
    ⟨fun d => ((firstAt ranks0.flatten d).map f).getD 0, fun d g hg => by dsimp only; rw [first_single h0 hg]; rfl⟩
  obtain ⟨w, hw⟩ := hw
  rw [← hw d g hg]
  refine pass_exact points_exact f ranks0 ranks1 (fun g gs hn _ _ hu => points_add f hn hu) hd1 ?_ hcomplete hv hw hg
  intro d x h hm hfirst
  obtain ⟨g, hg, hx⟩ := (hmatch _ _).1 hm
  rw [first_single h0 hg] at hfirst
  obtain rfl := Option.some.inj hfirst
  exact ⟨g, ⟨hx, (points_contains _ _).2 rfl⟩, fun t ht => ((points_contains _ _).1 ht.2).symm⟩

/-- **C154.** Segments: differences between the ends are passed exactly where the correspondence is complete. -/
theorem pass_segments (F : Bool → ℚ → ℚ → ℚ) (ranks0 ranks1 : List (List (ℕ × Seg))) (h0 : Single ranks0.flatten) (h1 : Single ranks1.flatten)
    (hd1 : ∀ x y g, (x, g) ∈ ranks1.flatten → (y, g) ∈ ranks1.flatten → x = y)
    (hl0 : ∀ d g, (d, g) ∈ ranks0.flatten → g.lo < g.hi) (hl1 : ∀ d g, (d, g) ∈ ranks1.flatten → g.lo < g.hi)
    (hc : (computer segments ranks0 ranks1).1 = true) {v : ℕ → ℚ}
    (hv : ∀ x g, (x, g) ∈ ranks1.flatten → v x = F g.upright g.line g.hi - F g.upright g.line g.lo) {d : ℕ} {g : Seg} (hg : (d, g) ∈ ranks0.flatten) :
    valueAt (computer segments ranks0 ranks1).2 v d = some (F g.upright g.line g.hi - F g.upright g.line g.lo) := by
  have hw : ∃ w : ℕ → ℚ, ∀ d g, (d, g) ∈ ranks0.flatten → w d = F g.upright g.line g.hi - F g.upright g.line g.lo :=
    ⟨fun d => ((firstAt ranks0.flatten d).map fun g => F g.upright g.line g.hi - F g.upright g.line g.lo).getD 0,
      fun d g hg => by dsimp only; rw [first_single h0 hg]; rfl⟩
  obtain ⟨w, hw⟩ := hw
  rw [← hw d g hg]
  refine pass_exact segments_exact (fun g => F g.upright g.line g.hi - F g.upright g.line g.lo) ranks0 ranks1
    (fun g gs _ hg hgs hu => ?_) hd1 ?_ hc hv hw hg
  · obtain ⟨d, hd⟩ := hg
    exact segments_add F (hl0 _ _ hd) (fun s hs => by obtain ⟨x, hx⟩ := hgs s hs; exact hl1 _ _ hx) hu
  · intro d x h hm hfirst
    obtain ⟨a, b, ha, hb, hcab⟩ := hm.2
    rw [first_single h0 ha] at hfirst
    obtain rfl := Option.some.inj hfirst
    exact ⟨b, ⟨hb, hcab⟩, fun t ht => h1 _ _ _ ht.1 hb⟩

/-! ### On a rank -/

lemma vecOf_eq {elements : List (List (ℕ × ℚ))} {v : ℕ → ℚ} (hv : ∀ p ∈ elements.flatten, p.2 = v p.1) {x : ℕ} {q : ℚ} (hx : (x, q) ∈ elements.flatten) :
    vecOf elements x = v x := by
  unfold vecOf
  cases hl : (elements.flatten.filter fun p => p.1 = x).getLast? with
  | none =>
    rw [List.getLast?_eq_none_iff] at hl
    have : (x, q) ∈ elements.flatten.filter fun p => p.1 = x := List.mem_filter.2 ⟨hx, by simp⟩
    rw [hl] at this
    cases this
  | some p =>
    have hp := List.mem_filter.1 (List.mem_of_getLast? hl)
    have h2 : p.1 = x := by simpa using hp.2
    rw [Option.map_some, Option.getD_some, hv p hp.1, h2]

lemma mapM_some {α β : Type} {f : α → Option β} {g : α → β} : ∀ (l : List α), (∀ a ∈ l, f a = some (g a)) → l.mapM f = some (l.map g)
  | [], _ => rfl
  | a :: l, h => by
    rw [List.mapM_cons, h a List.mem_cons_self, mapM_some l fun b hb => h b (List.mem_cons_of_mem _ hb)]
    rfl

lemma find_filter {α : Type} (p q : α → Bool) : ∀ l : List α, (∀ a ∈ l, p a = true → q a = true) → (l.filter q).find? p = l.find? p
  | [], _ => rfl
  | a :: l, h => by
    have ih := find_filter p q l fun b hb => h b (List.mem_cons_of_mem _ hb)
    by_cases hp : p a = true
    · rw [List.filter_cons_of_pos (h a List.mem_cons_self hp), List.find?_cons_of_pos hp, List.find?_cons_of_pos hp]
    · rw [List.find?_cons_of_neg hp]
      by_cases hq : q a = true
      · rw [List.filter_cons_of_pos hq, List.find?_cons_of_neg hp, ih]
      · rw [List.filter_cons_of_neg hq, ih]

lemma view_spec {here0 here1 : List (ℕ × G)} {cor mine : List (ℕ × List ℕ)} (h : rankView here0 here1 cor = some mine) :
    (∀ p ∈ mine, ∀ x ∈ p.2, ∃ g, (x, g) ∈ here1) ∧ ∀ d g, (d, g) ∈ here0 → (mine.find? fun p => p.1 = d) = cor.find? fun p => p.1 = d := by
  unfold rankView at h
  dsimp only at h
  split_ifs at h with ha
  obtain rfl := Option.some.inj h
  refine ⟨fun p hp x hx => ?_, fun d g hd => find_filter _ _ _ fun p _ hp => ?_⟩
  · have := List.all_eq_true.1 (List.all_eq_true.1 ha p hp) x hx
    obtain ⟨q, hq, he⟩ := List.any_eq_true.1 this
    have he : q.1 = x := by simpa using he
    exact ⟨q.2, he ▸ hq⟩
  · have : p.1 = d := by simpa using hp
    exact List.any_eq_true.2 ⟨(d, g), hd, by simp [this]⟩

/-- **C155.** On a rank: where the answer is complete, passing a cochain of local values gives for each local dof of `f0` the sum of the values of all dofs that
correspond, as a single process would: it needs no values of other ranks. Passing the global vector gives the same. -/
theorem pass_local {S : Shape G K} {isSame : Bool} {lvl0 lvl1 : ℕ} {ranks0 ranks1 : List (List (ℕ × G))} {r : ℕ} {cor : List (ℕ × List ℕ)}
    (h : correspondence S isSame lvl0 lvl1 ranks0 ranks1 r = some (.complete cor)) {v w : ℕ → ℚ} {from_ : List (List (ℕ × ℚ))} {into : List (List ℕ)}
    (hv : ∀ p ∈ from_.flatten, p.2 = v p.1) (hfrom : ∀ x g, (x, g) ∈ ranks1.getD r [] → ∃ q, (x, q) ∈ from_.flatten)
    (hinto : ∀ e ∈ into, ∀ d ∈ e, ∃ g, (d, g) ∈ ranks0.getD r [])
    (hw : ∀ e ∈ into, ∀ d ∈ e, valueAt (computer S ranks0 ranks1).2 v d = some (w d)) (completeOnly : Bool) :
    passCochain (.complete cor) completeOnly from_ into = some (.set (into.map fun e => e.map w)) ∧
      passVector cor v into = some (into.map fun e => e.map w) := by
  unfold correspondence at h
  by_cases hs : isSame = true
  · rw [if_pos hs] at h; cases h
  rw [if_neg hs] at h
  by_cases hlv : lvl1 < lvl0
  · rw [if_pos hlv] at h; cases h
  rw [if_neg hlv] at h
  obtain ⟨mine, hview, h⟩ := Option.bind_eq_some_iff.1 h
  by_cases h1 : mine = []
  · rw [if_pos h1] at h; cases h
  rw [if_neg h1] at h
  by_cases h2 : (computer S ranks0 ranks1).1 = true
  swap
  · rw [if_neg h2] at h; cases h
  rw [if_pos h2] at h
  have hmine : mine = cor := by
    split_ifs at h with h3
    injection h with h
    injection h
  subst hmine
  obtain ⟨hloc, hfind⟩ := view_spec hview
  have hval : ∀ e ∈ into, ∀ d ∈ e, valueAt mine v d = some (w d) := fun e he d hd => by
    obtain ⟨g, hg⟩ := hinto e he d hd
    rw [← hw e he d hd]
    unfold valueAt
    rw [hfind d g hg]
  have hvec : ∀ d, valueAt mine (vecOf from_) d = valueAt mine v d := fun d => by
    unfold valueAt
    cases hf : mine.find? fun p => p.1 = d with
    | none => rfl
    | some p =>
      rw [Option.map_some, Option.map_some]
      congr 2
      refine List.map_congr_left fun x hx => ?_
      obtain ⟨g, hg⟩ := hloc p (List.mem_of_find?_eq_some hf) x hx
      obtain ⟨q, hq⟩ := hfrom x g hg
      exact vecOf_eq hv hq
  have hall : into.mapM (fun e : List ℕ => e.mapM (valueAt mine v)) = some (into.map fun e => e.map w) :=
    mapM_some into fun e he => mapM_some e fun d hd => hval e he d hd
  refine ⟨?_, hall⟩
  unfold passCochain
  dsimp only
  rw [show valueAt mine (vecOf from_) = valueAt mine v from funext hvec, hall]
  rfl

/-- **Specification.** All dofs that correspond to the dofs of a rank are on this rank. -/
def Local (here0 here1 : List (ℕ × G)) (cor : List (ℕ × List ℕ)) : Prop :=
  ∀ p ∈ cor, (∃ g, (p.1, g) ∈ here0) → ∀ x ∈ p.2, ∃ g, (x, g) ∈ here1

lemma view_iff (here0 here1 : List (ℕ × G)) (cor : List (ℕ × List ℕ)) :
    (Local here0 here1 cor → rankView here0 here1 cor = some (cor.filter fun p => here0.any fun q => q.1 = p.1)) ∧
      (¬ Local here0 here1 cor → rankView here0 here1 cor = none) := by
  have hiff : ((cor.filter fun p => here0.any fun q => q.1 = p.1).all fun p => p.2.all fun d => here1.any fun q => q.1 = d) = true ↔
      Local here0 here1 cor := by
    unfold Local
    simp only [List.all_eq_true, List.mem_filter, List.any_eq_true, decide_eq_true_eq, and_imp]
    constructor
    · intro h p hp ⟨g, hg⟩ x hx
      obtain ⟨q, hq, he⟩ := h p hp ⟨_, hg, rfl⟩ x hx
      exact ⟨q.2, he ▸ hq⟩
    · intro h p hp ⟨q, hq, he⟩ x hx
      obtain ⟨g, hg⟩ := h p hp ⟨q.2, he ▸ hq⟩ x hx
      exact ⟨_, hg, rfl⟩
  unfold rankView
  dsimp only
  exact ⟨fun h => if_pos (hiff.2 h), fun h => if_neg fun h' => h (hiff.1 h')⟩

/-- **C155.** The answer on a rank for forms in different spaces, `f0` not on a finer level: it fails exactly if a dof that corresponds to one of the
rank is not there. Otherwise it is complete where the search is complete, if the rank has dofs of `f0`; a rank without any finds nothing. -/
theorem answer_spec {S : Shape G K} (hS : Exact S) {lvl0 lvl1 : ℕ} (hl : lvl0 ≤ lvl1) (ranks0 ranks1 : List (List (ℕ × G))) (r : ℕ) :
    (correspondence S false lvl0 lvl1 ranks0 ranks1 r = none ↔ ¬ Local (ranks0.getD r []) (ranks1.getD r []) (computer S ranks0 ranks1).2) ∧
    ((∃ cor, correspondence S false lvl0 lvl1 ranks0 ranks1 r = some (.complete cor)) ↔
      Local (ranks0.getD r []) (ranks1.getD r []) (computer S ranks0 ranks1).2 ∧ (computer S ranks0 ranks1).1 = true ∧ ranks0.getD r [] ≠ []) ∧
    (Local (ranks0.getD r []) (ranks1.getD r []) (computer S ranks0 ranks1).2 → ranks0.getD r [] = [] →
      correspondence S false lvl0 lvl1 ranks0 ranks1 r = some .empty) := by
  obtain ⟨hview, hnview⟩ := view_iff (ranks0.getD r []) (ranks1.getD r []) (computer S ranks0 ranks1).2
  have hc : correspondence S false lvl0 lvl1 ranks0 ranks1 r =
      (rankView (ranks0.getD r []) (ranks1.getD r []) (computer S ranks0 ranks1).2).bind fun cor =>
      if cor = [] then some .empty
      else if (computer S ranks0 ranks1).1 then
        if (ranks0.getD r []).all fun p => cor.any fun q => q.1 = p.1 then some (.complete cor) else none
      else some (.incomplete cor) := by
    unfold correspondence
    rw [if_neg Bool.false_ne_true, if_neg (not_lt.2 hl)]
  -- where the search is complete, all dofs of the rank are there
  have hall : (computer S ranks0 ranks1).1 = true → ∀ p ∈ ranks0.getD r [],
      ∃ q ∈ (computer S ranks0 ranks1).2.filter (fun p => (ranks0.getD r []).any fun q => q.1 = p.1), q.1 = p.1 := by
    intro hcomp p hp
    have hpr : p ∈ ranks0.flatten := by
      rw [List.getD_eq_getElem?_getD] at hp
      cases hr : ranks0[r]? with
      | none => rw [hr] at hp; cases hp
      | some L =>
        rw [hr] at hp
        exact List.mem_flatten.2 ⟨L, List.mem_of_getElem? hr, hp⟩
    have hk : p.1 ∈ (findAll S (allGeos S ranks1) (allGeos S ranks0) []).map Prod.fst := by
      rw [findAll_keys, (all_has hS ranks0).keys]
      exact mem_order.2 ⟨p.2, hpr⟩
    obtain ⟨q, hq, he⟩ := List.mem_map.1 hk
    unfold computer at hcomp
    simp only [Bool.and_eq_true, List.all_eq_true] at hcomp
    exact ⟨q, List.mem_filter.2 ⟨List.mem_filter.2 ⟨hq, hcomp.1 q hq⟩, List.any_eq_true.2 ⟨p, hp, by simp [he]⟩⟩, he⟩
  by_cases hL : Local (ranks0.getD r []) (ranks1.getD r []) (computer S ranks0 ranks1).2
  · rw [hc, hview hL, Option.bind_some]
    by_cases he : ranks0.getD r [] = []
    · have h0 : ((computer S ranks0 ranks1).2.filter fun p => (ranks0.getD r []).any fun q => q.1 = p.1) = [] := by
        rw [he]; simp
      rw [if_pos h0]
      have hL' := hL
      rw [he] at hL'
      simp [he, hL', -List.getD_eq_getElem?_getD]
    · by_cases hcomp : (computer S ranks0 ranks1).1 = true
      · have hne : ((computer S ranks0 ranks1).2.filter fun p => (ranks0.getD r []).any fun q => q.1 = p.1) ≠ [] := fun h0 => by
          obtain ⟨p, hp⟩ := List.exists_mem_of_ne_nil _ he
          obtain ⟨q, hq, -⟩ := hall hcomp p hp
          rw [h0] at hq
          cases hq
        rw [if_neg hne, if_pos hcomp, if_pos (List.all_eq_true.2 fun p hp => by
          obtain ⟨q, hq, he⟩ := hall hcomp p hp
          exact List.any_eq_true.2 ⟨q, hq, by simp [he]⟩)]
        simp [hL, he, hcomp, -List.getD_eq_getElem?_getD]
      · rw [if_neg hcomp]
        split_ifs <;> simp [hL, hcomp, he, -List.getD_eq_getElem?_getD]
  · rw [hc, hnview hL]
    simp [hL, -List.getD_eq_getElem?_getD]

/-! ### Where it fails -/

/-- **C153 (refuted).** A point of the fine grid that equals a point of the coarse grid within the tolerance is not found if their coordinates are on
different sides of zero: the keys of groups differ. -/
theorem zero_refuted :
    let ranks0 := [[(0, ((0 : ℚ), (0 : ℚ))), (1, (1, 0))]]
    let ranks1 := [[(0, ((-1 / 1000000000000 : ℚ), (0 : ℚ))), (1, (1 / 2, 0)), (2, (1, 0))]]
    (points (1 / 1000000000)).contains (0, 0) (-1 / 1000000000000, 0) = true ∧
      computer (points (1 / 1000000000)) ranks0 ranks1 = (false, [(1, [2])]) := by
  decide +kernel

/-- **C153 (refuted).** With periodic sides only the first places count: with elements in another order the same two grids do not correspond. -/
theorem order_refuted :
    let ranks0 := [[(0, ((0 : ℚ), (0 : ℚ))), (0, (1, 0))]]
    let left := [(1, ((0 : ℚ), (0 : ℚ))), (0, (1 / 2, 0))]
    let right := [(0, ((1 / 2 : ℚ), (0 : ℚ))), (1, (1, 0))]
    computer (points 0) ranks0 [left ++ right] = (true, [(0, [1])]) ∧ computer (points 0) ranks0 [right ++ left] = (false, []) := by
  decide +kernel

/-- **C155 (refuted).** Ranks can disagree: a rank without elements projects, or fails if only complete ones are wanted, while the other ranks pass
values. -/
theorem idle_refuted :
    let ranks0 := [[(0, ((0 : ℚ), (0 : ℚ))), (1, (1, 0))], []]
    let ranks1 := [[(0, ((0 : ℚ), (0 : ℚ))), (1, (1 / 2, 0)), (1, (1 / 2, 0)), (2, (1, 0))], []]
    let answer := correspondence (points 0) false 0 1 ranks0 ranks1
    answer 0 = some (.complete [(0, [0]), (1, [2])]) ∧ answer 1 = some .empty ∧
      passCochain (.complete [(0, [0]), (1, [2])]) true [[(0, 5), (1, 6)], [(1, 6), (2, 7)]] [[0, 1]] = some (.set [[5, 7]]) ∧
      passCochain .empty true [] [] = none ∧ passCochain .empty false [] [] = some .project := by
  decide +kernel

/-- **C155 (refuted).** A form cannot be passed to a form in the same space: this always fails. -/
theorem same_refuted (S : Shape G K) (lvl0 lvl1 : ℕ) (ranks0 ranks1 : List (List (ℕ × G))) (r : ℕ) (c : Bool) (from_ : List (List (ℕ × ℚ))) (into : List (List ℕ)) :
    ((correspondence S true lvl0 lvl1 ranks0 ranks1 r).bind fun a => passCochain a c from_ into) = none := by
  unfold correspondence
  rw [if_pos rfl]
  rfl

/-- **C155.** What is passed where the correspondence is not complete, or the target is finer: the form is projected, and with `complete_only` it fails. -/
theorem project_spec {S : Shape G K} {lvl0 lvl1 : ℕ} {ranks0 ranks1 : List (List (ℕ × G))} {r : ℕ} {a : Answer}
    (h : correspondence S false lvl0 lvl1 ranks0 ranks1 r = some a) (hn : lvl1 < lvl0 ∨ (computer S ranks0 ranks1).1 = false)
    (from_ : List (List (ℕ × ℚ))) (into : List (List ℕ)) :
    passCochain a false from_ into = some .project ∧ passCochain a true from_ into = none := by
  unfold correspondence at h
  rw [if_neg Bool.false_ne_true] at h
  by_cases hl : lvl1 < lvl0
  · rw [if_pos hl] at h
    obtain rfl := Option.some.inj h
    exact ⟨rfl, rfl⟩
  · rw [if_neg hl] at h
    obtain ⟨mine, -, h⟩ := Option.bind_eq_some_iff.1 h
    by_cases h1 : mine = []
    · rw [if_pos h1] at h
      obtain rfl := Option.some.inj h
      exact ⟨rfl, rfl⟩
    · rw [if_neg h1, hn.resolve_left hl, if_neg Bool.false_ne_true] at h
      obtain rfl := Option.some.inj h
      exact ⟨rfl, rfl⟩

/-! ### Examples -/

/-- Two elements on an interval, refined: segments of the coarse and the fine grid. -/
def coarse : List (List (ℕ × Seg)) := [[(0, ⟨false, 0, 0, 1⟩)], [(1, ⟨false, 0, 1, 2⟩), (2, ⟨true, 2, 0, 1⟩)]]
@[inherit_doc coarse] def fine : List (List (ℕ × Seg)) :=
  [[(0, ⟨false, 0, 0, 1/2⟩), (1, ⟨false, 0, 1/2, 1⟩)], [(3, ⟨false, 0, 3/2, 2⟩), (2, ⟨false, 0, 1, 3/2⟩), (4, ⟨true, 2, 0, 1/3⟩), (5, ⟨true, 2, 1/3, 1⟩)]]

example : computer segments coarse fine = (true, [(0, [0, 1]), (1, [3, 2]), (2, [4, 5])]) ∧
    correspondence segments false 0 1 coarse fine 1 = some (.complete [(1, [3, 2]), (2, [4, 5])]) := by decide +kernel

lemma coarse_single : Single coarse.flatten ∧ Single fine.flatten := by
  constructor
  · intro d g h hg hh
    simp only [coarse, List.flatten_cons, List.flatten_nil, List.cons_append, List.nil_append, List.append_nil, List.mem_cons, List.not_mem_nil, or_false,
      Prod.mk.injEq] at hg hh
    rcases hg with ⟨rfl, rfl⟩ | ⟨rfl, rfl⟩ | ⟨rfl, rfl⟩ <;> rcases hh with ⟨h, rfl⟩ | ⟨h, rfl⟩ | ⟨h, rfl⟩ <;> first | rfl | cases h
  · intro d g h hg hh
    simp only [fine, List.flatten_cons, List.flatten_nil, List.cons_append, List.nil_append, List.append_nil, List.mem_cons, List.not_mem_nil, or_false,
      Prod.mk.injEq] at hg hh
    rcases hg with ⟨rfl, rfl⟩ | ⟨rfl, rfl⟩ | ⟨rfl, rfl⟩ | ⟨rfl, rfl⟩ | ⟨rfl, rfl⟩ | ⟨rfl, rfl⟩ <;>
      rcases hh with ⟨h, rfl⟩ | ⟨h, rfl⟩ | ⟨h, rfl⟩ | ⟨h, rfl⟩ | ⟨h, rfl⟩ | ⟨h, rfl⟩ <;> first | rfl | cases h

example : (∀ p ∈ coarse.flatten, p.2.lo < p.2.hi) ∧ (∀ p ∈ fine.flatten, p.2.lo < p.2.hi) ∧
    (∀ p ∈ fine.flatten, ∀ q ∈ fine.flatten, p.2 = q.2 → p.1 = q.1) := by decide +kernel

/-- Lengths are passed. -/
example : valueAt (computer segments coarse fine).2 (fun x => [1/2, 1/2, 1/2, 1/2, 1/3, 2/3].getD x 0) 2 = some 1 := by decide +kernel

end Phyem.Passing
