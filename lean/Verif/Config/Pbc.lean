import Verif.Config.Nodes
import Verif.Dds.StreamEx
import Mathlib.Logic.Relation

/-!
# Corners of regions, and sides made the same
-/

namespace Phyem.Config

open Phyem

/-! ## Specification -/

/-- One pair of sides makes the labels `a` and `b` the same: both are the first corners of the sides, or both the second. -/
def Glue (M : List (ℕ × List ℕ)) (sides : List (Side × Side)) (a b : ℕ) : Prop :=
  ∃ p ∈ sides, (corner M p.1.reg p.1.a = some a ∧ corner M p.2.reg p.2.a = some b) ∨
    (corner M p.1.reg p.1.b = some a ∧ corner M p.2.reg p.2.b = some b)

/-- Labels that are the same after all sides are glued. -/
def Glued (M : List (ℕ × List ℕ)) (sides : List (Side × Side)) : ℕ → ℕ → Prop := Relation.EqvGen (Glue M sides)

/-- At most `n` pairs of glued corners lead from `a` to `b`. -/
def Within (R : ℕ → ℕ → Prop) : ℕ → ℕ → ℕ → Prop
  | 0, a, b => a = b
  | n + 1, a, b => ∃ c, Within R n a c ∧ (c = b ∨ R c b ∨ R b c)

/-! ## Lemmas -/

lemma link_sub (S : List ℕ) (p : ℕ × ℕ) {x : ℕ} (h : x ∈ S) : x ∈ link S p := by
  unfold link
  split
  · simp [h]
  · split
    · simp [h]
    · exact h

lemma link_new {S : List ℕ} {p : ℕ × ℕ} {x : ℕ} (h : x ∈ link S p) : x ∈ S ∨ (p.1 ∈ S ∧ x = p.2) ∨ (p.2 ∈ S ∧ x = p.1) := by
  unfold link at h
  split at h
  · rename_i hp
    rcases List.mem_append.1 h with h | h
    · exact .inl h
    · exact .inr (.inl ⟨hp.1, by simpa using h⟩)
  · split at h
    · rename_i hp
      rcases List.mem_append.1 h with h | h
      · exact .inl h
      · exact .inr (.inr ⟨hp.1, by simpa using h⟩)
    · exact .inl h

lemma link_both {S : List ℕ} {p : ℕ × ℕ} (h : p.1 ∈ S ∨ p.2 ∈ S) : p.1 ∈ link S p ∧ p.2 ∈ link S p := by
  unfold link
  by_cases h1 : p.1 ∈ S <;> by_cases h2 : p.2 ∈ S <;> simp_all

lemma pass_sub (ps : List (ℕ × ℕ)) : ∀ (S : List ℕ) {x : ℕ}, x ∈ S → x ∈ ps.foldl link S := by
  induction ps with
  | nil => exact fun S x h => h
  | cons p ps ih => exact fun S x h => ih _ (link_sub S p h)

/-- The pairs as a relation. -/
def PR (ps : List (ℕ × ℕ)) (a b : ℕ) : Prop := (a, b) ∈ ps

lemma pass_sound (ps qs : List (ℕ × ℕ)) (hq : ∀ p ∈ qs, p ∈ ps) (i : ℕ) : ∀ (S : List ℕ), (∀ x ∈ S, Relation.EqvGen (PR ps) i x) →
    ∀ x ∈ qs.foldl link S, Relation.EqvGen (PR ps) i x := by
  induction qs with
  | nil => exact fun S h => h
  | cons p qs ih =>
    intro S h
    refine ih (fun q hq' => hq q (.tail _ hq')) _ fun x hx => ?_
    have hp : PR ps p.1 p.2 := hq p (.head _)
    rcases link_new hx with hy | ⟨hy, rfl⟩ | ⟨hy, rfl⟩
    · exact h x hy
    · exact (h _ hy).trans _ _ _ (.rel _ _ hp)
    · exact (h _ hy).trans _ _ _ (.symm _ _ (.rel _ _ hp))

lemma pass_step (ps : List (ℕ × ℕ)) : ∀ (S : List ℕ) {c b : ℕ}, c ∈ S → ((c, b) ∈ ps ∨ (b, c) ∈ ps) → b ∈ ps.foldl link S := by
  induction ps with
  | nil => intro S c b _ h; simp at h
  | cons p ps ih =>
    intro S c b hc h
    simp only [List.mem_cons] at h
    have : ((c, b) = p ∨ (b, c) = p) ∨ ((c, b) ∈ ps ∨ (b, c) ∈ ps) := by tauto
    rcases this with h | h
    · refine pass_sub ps _ ?_
      rcases h with rfl | rfl
      · exact (link_both (.inl hc)).2
      · exact (link_both (.inr hc)).1
    · exact ih _ (link_sub S p hc) h

lemma same_self (ps : List (ℕ × ℕ)) (i : ℕ) : i ∈ same ps i := pass_sub _ _ (pass_sub _ _ (pass_sub _ _ (by simp)))

lemma same_sound (ps : List (ℕ × ℕ)) (i : ℕ) : ∀ x ∈ same ps i, Relation.EqvGen (PR ps) i x := by
  have hid : ∀ p ∈ ps, p ∈ ps := fun _ h => h
  refine pass_sound ps ps hid i _ (pass_sound ps ps hid i _ (pass_sound ps ps hid i _ ?_))
  intro x hx
  rw [List.mem_singleton] at hx
  subst hx
  exact .refl _

lemma same_within (ps : List (ℕ × ℕ)) (i x : ℕ) (h : Within (PR ps) 3 i x) : x ∈ same ps i := by
  have step : ∀ (S : List ℕ) (c b : ℕ), c ∈ S → (c = b ∨ PR ps c b ∨ PR ps b c) → b ∈ ps.foldl link S := by
    rintro S c b hc (rfl | h)
    · exact pass_sub _ _ hc
    · exact pass_step ps S hc h
  obtain ⟨c, ⟨d, ⟨e, rfl, h1⟩, h2⟩, h3⟩ := h
  exact step _ _ _ (step _ _ _ (step _ _ _ (by simp) h1) h2) h3

lemma mem_poolOf {ps : List (ℕ × ℕ)} {x : ℕ} : x ∈ poolOf ps ↔ ∃ y, (x, y) ∈ ps ∨ (y, x) ∈ ps := by
  unfold poolOf
  rw [List.mem_insertionSort, List.mem_dedup, List.mem_flatMap]
  constructor
  · rintro ⟨p, hp, h⟩
    simp only [List.mem_cons, List.not_mem_nil, or_false] at h
    rcases h with rfl | rfl
    · exact ⟨p.2, .inl hp⟩
    · exact ⟨p.1, .inr hp⟩
  · rintro ⟨y, h | h⟩
    · exact ⟨_, h, by simp⟩
    · exact ⟨_, h, by simp⟩

lemma poolOf_sorted (ps : List (ℕ × ℕ)) : (poolOf ps).Pairwise (· ≤ ·) := List.pairwise_insertionSort _ _

/-- What the search for the sets keeps: the sets that were there come first; new sets are those of labels of the pool; every label of the
pool is in a set. -/
lemma organize_spec (ps : List (ℕ × ℕ)) : ∀ (pool : List ℕ) (sets : List (List ℕ)),
    sets <+: organize ps pool sets ∧ (∀ S ∈ organize ps pool sets, S ∈ sets ∨ ∃ i ∈ pool, S = same ps i) ∧
    ∀ i ∈ pool, ∃ S ∈ organize ps pool sets, i ∈ S := by
  intro pool
  induction pool with
  | nil => exact fun sets => ⟨List.prefix_refl _, fun S h => .inl h, by simp⟩
  | cons i pool ih =>
    intro sets
    unfold organize
    by_cases h : ∃ S ∈ sets, i ∈ S
    · rw [if_pos h]
      obtain ⟨h1, h2, h3⟩ := ih sets
      refine ⟨h1, fun S hS => ?_, fun j hj => ?_⟩
      · rcases h2 S hS with h | ⟨j, hj, e⟩
        · exact .inl h
        · exact .inr ⟨j, .tail _ hj, e⟩
      · rcases List.mem_cons.1 hj with rfl | hj
        · obtain ⟨S, hS, hi⟩ := h
          exact ⟨S, h1.subset hS, hi⟩
        · exact h3 j hj
    · rw [if_neg h]
      obtain ⟨h1, h2, h3⟩ := ih (sets ++ [same ps i])
      refine ⟨(List.prefix_append _ _).trans h1, fun S hS => ?_, fun j hj => ?_⟩
      · rcases h2 S hS with h | ⟨j, hj, e⟩
        · rcases List.mem_append.1 h with h | h
          · exact .inl h
          · exact .inr ⟨i, .head _, by simpa using h⟩
        · exact .inr ⟨j, .tail _ hj, e⟩
      · rcases List.mem_cons.1 hj with rfl | hj
        · exact ⟨same ps j, h1.subset (by simp), same_self ps j⟩
        · exact h3 j hj

lemma organize_append (ps : List (ℕ × ℕ)) : ∀ (a b : List ℕ) (sets : List (List ℕ)),
    organize ps (a ++ b) sets = organize ps b (organize ps a sets) := by
  intro a
  induction a with
  | nil => intros; rfl
  | cons i a ih => intro b sets; exact ih b _

lemma findIdx_append_none {α : Type} {p : α → Bool} {a b : List α} (h : ∀ x ∈ a, p x = false) :
    (a ++ b).findIdx p = a.length + b.findIdx p := by
  induction a with
  | nil => simp
  | cons x a ih =>
    rw [List.cons_append, List.findIdx_cons, h x (.head _), ih fun y hy => h y (.tail _ hy), List.length_cons]
    simp only [cond_false]
    omega

lemma pr_pool {ps : List (ℕ × ℕ)} {a b : ℕ} (h : Relation.EqvGen (PR ps) a b) : a = b ∨ (a ∈ poolOf ps ∧ b ∈ poolOf ps) := by
  induction h with
  | rel a b h => exact .inr ⟨mem_poolOf.2 ⟨b, .inl h⟩, mem_poolOf.2 ⟨a, .inr h⟩⟩
  | refl => exact .inl rfl
  | symm a b _ ih =>
    rcases ih with rfl | ⟨h1, h2⟩
    · exact .inl rfl
    · exact .inr ⟨h2, h1⟩
  | trans a b c _ _ ih1 ih2 =>
    rcases ih1 with rfl | ⟨h1, h2⟩
    · exact ih2
    · rcases ih2 with rfl | ⟨h3, h4⟩
      · exact .inr ⟨h1, h2⟩
      · exact .inr ⟨h1, h4⟩

/-- Labels that become the same were linked. -/
lemma relabel_sound (ps : List (ℕ × ℕ)) (j j' : ℕ) (h : relabel ps j = relabel ps j') : Relation.EqvGen (PR ps) j j' := by
  unfold relabel at h
  by_cases hj : j ∈ poolOf ps <;> by_cases hj' : j' ∈ poolOf ps
  · rw [if_pos hj, if_pos hj'] at h
    have h := Sum.inr.inj h
    obtain ⟨-, h2, h3⟩ := organize_spec ps (poolOf ps) []
    have hlt : ∀ x ∈ poolOf ps, (organize ps (poolOf ps) []).findIdx (fun S => decide (x ∈ S)) < (organize ps (poolOf ps) []).length := by
      intro x hx
      obtain ⟨S, hS, hxS⟩ := h3 x hx
      exact List.findIdx_lt_length_of_exists ⟨S, hS, by simpa using hxS⟩
    have g1 := List.findIdx_getElem (w := hlt j hj)
    have g2 := List.findIdx_getElem (w := hlt j' hj')
    simp only [decide_eq_true_eq] at g1 g2
    simp only [← h] at g2
    rcases h2 _ (List.getElem_mem (hlt j hj)) with h0 | ⟨i, -, e⟩
    · simp at h0
    · rw [e] at g1 g2
      exact ((same_sound ps i _ g1).symm _ _).trans _ _ _ (same_sound ps i _ g2)
  · rw [if_pos hj, if_neg hj'] at h; cases h
  · rw [if_neg hj, if_pos hj'] at h; cases h
  · rw [if_neg hj, if_neg hj'] at h
    rw [Sum.inl.inj h]
    exact .refl _

/-- Labels that are linked become the same, if three steps are enough from the smallest of them. -/
lemma relabel_complete (ps : List (ℕ × ℕ)) (m : ℕ) (hm : ∀ x, Relation.EqvGen (PR ps) m x → m ≤ x ∧ Within (PR ps) 3 m x)
    (hp : m ∈ poolOf ps) : ∀ j, Relation.EqvGen (PR ps) m j → relabel ps j = relabel ps m := by
  -- the first occurrence of `m` in the pool
  obtain ⟨a, b, hab, hma⟩ : ∃ a b, poolOf ps = a ++ m :: b ∧ m ∉ a := List.eq_append_cons_of_mem hp
  have hlt : ∀ x ∈ a, x < m := by
    intro x hx
    have hs := poolOf_sorted ps
    rw [hab, List.pairwise_append] at hs
    have h1 := hs.2.2 x hx m (.head _)
    have h2 : x ≠ m := by rintro rfl; exact hma hx
    omega
  have hout : ∀ S ∈ organize ps a [], ∀ x, Relation.EqvGen (PR ps) m x → x ∉ S := by
    intro S hS x hx hxS
    rcases (organize_spec ps a []).2.1 S hS with h0 | ⟨i, hi, rfl⟩
    · simp at h0
    · have := hm i (hx.trans _ _ _ ((same_sound ps i x hxS).symm _ _))
      have := hlt i hi
      omega
  have key : ∀ j, Relation.EqvGen (PR ps) m j → relabel ps j = .inr (organize ps a []).length := by
    intro j hj
    have hjp : j ∈ poolOf ps := by
      rcases pr_pool hj with rfl | h
      · exact hp
      · exact h.2
    unfold relabel
    rw [if_pos hjp]
    congr 1
    have e : organize ps (poolOf ps) [] = organize ps b (organize ps a [] ++ [same ps m]) := by
      rw [hab, organize_append]
      show organize ps b (if _ then _ else _) = _
      rw [if_neg]
      rintro ⟨S, hS, h⟩
      exact hout S hS m (.refl _) h
    obtain ⟨t, ht⟩ := (organize_spec ps b (organize ps a [] ++ [same ps m])).1
    rw [e, ← ht, List.append_assoc, findIdx_append_none]
    · rw [List.singleton_append, List.findIdx_cons]
      have : decide (j ∈ same ps m) = true := by simpa using same_within ps m j (hm j hj).2
      rw [this]
      rfl
    · intro S hS
      simpa using hout S hS j hj
  intro j hj
  rw [key j hj, key m (.refl _)]

/-! ## Corners of regions -/

/-- **Corners of regions.** Every region gets four numbers, in the order of its corners. Corners at the same point have the same number;
corners with the same number are at most `10⁻⁷` apart in both coordinates; the numbers that occur are all numbers below some number. -/
theorem region_corners (regions : List (ℕ × RegMap)) :
    (parseRegions regions).map (fun p => (p.1, p.2.length)) = regions.map (fun p => (p.1, 4)) ∧
    (∀ (i j k l r r' n n' : ℕ) (m m' : RegMap) (p p' : ℚ × ℚ) (q q' : ℕ × List ℕ), regions[i]? = some (r, m) → regions[k]? = some (r', m') →
      (parseRegions regions)[i]? = some q → (parseRegions regions)[k]? = some q' → square[j]? = some p → square[l]? = some p' →
      q.2[j]? = some n → q'.2[l]? = some n' →
      (m p.1 p.2 = m' p'.1 p'.2 → n = n') ∧
      (n = n' → |(m p.1 p.2).1 - (m' p'.1 p'.2).1| ≤ 1 / 10000000 ∧ |(m p.1 p.2).2 - (m' p'.1 p'.2).2| ≤ 1 / 10000000)) ∧
    (∀ m n : ℕ, m ≤ n → (∃ q ∈ parseRegions regions, n ∈ q.2) → ∃ q ∈ parseRegions regions, m ∈ q.2) := by
  obtain ⟨h1, h2, h3⟩ := numberRows_numbered (regions.map fun p => (p.1, square.map (cornerKey p.2)))
  refine ⟨h1.trans (by simp [square, Function.comp_def]), ?_, h3⟩
  intro i j k l r r' n n' m m' p p' q q' hi hk hq hq' hp hp' hn hn'
  have key : n = n' ↔ cornerKey m p = cornerKey m' p' :=
    h2 i j k l (r, square.map (cornerKey m)) (r', square.map (cornerKey m')) q q' _ _ n n' (by simp [hi]) (by simp [hk]) hq hq'
      (by simp [hp]) (by simp [hp']) hn hn'
  refine ⟨fun e => key.2 (by simp [cornerKey, e]), fun e => ?_⟩
  have e := key.1 e
  simp only [cornerKey, Dds.keyOf, Prod.mk.injEq] at e
  exact ⟨Dds.fmt_close e.1, Dds.fmt_close e.2⟩

/-- The unit square moved by `(a, b)`. -/
def shifted (a b : ℚ) : RegMap := fun x y => (x + a, y + b)

/-- The corners of two squares beside each other: two are shared. -/
example : parseRegions [(0, shifted 0 0), (5, shifted 1 0)] = [(0, [0, 1, 2, 3]), (5, [1, 4, 5, 2])] := by decide +kernel

/-- **Corners at zero, refuted.** A corner at a distance of `10⁻⁹` from another one is not recognized if the two are on different sides of
zero. -/
theorem corner_zero_refuted : parseRegions [(0, shifted 0 0), (1, shifted (-1 - 1 / 1000000000) 0)] =
    [(0, [0, 1, 2, 3]), (1, [4, 5, 6, 7])] ∧
    parseRegions [(0, shifted 3 0), (1, shifted (2 - 1 / 1000000000) 0)] = [(0, [0, 1, 2, 3]), (1, [4, 0, 3, 5])] := by
  decide +kernel

/-! ## Periodic sides -/

lemma pairsOf_some {M : List (ℕ × List ℕ)} {p : Side × Side} {l : List (ℕ × ℕ)} : pairsOf M p = some l ↔
    ∃ a b c d, corner M p.1.reg p.1.a = some a ∧ corner M p.1.reg p.1.b = some b ∧ corner M p.2.reg p.2.a = some c ∧
      corner M p.2.reg p.2.b = some d ∧ a ≠ c ∧ b ≠ d ∧ l = [sort2 a c, sort2 b d] := by
  unfold pairsOf
  constructor
  · intro h
    obtain ⟨a, ha, h⟩ := Option.bind_eq_some_iff.1 h
    obtain ⟨b, hb, h⟩ := Option.bind_eq_some_iff.1 h
    obtain ⟨c, hc, h⟩ := Option.bind_eq_some_iff.1 h
    obtain ⟨d, hd, h⟩ := Option.bind_eq_some_iff.1 h
    by_cases hne : a ≠ c ∧ b ≠ d
    · rw [if_pos hne] at h
      exact ⟨a, b, c, d, ha, hb, hc, hd, hne.1, hne.2, (Option.some.inj h).symm⟩
    · rw [if_neg hne] at h; cases h
  · rintro ⟨a, b, c, d, ha, hb, hc, hd, h1, h2, rfl⟩
    simp [ha, hb, hc, hd, h1, h2]

lemma sort2_cases (a b : ℕ) : sort2 a b = (a, b) ∨ sort2 a b = (b, a) := by
  unfold sort2
  split
  · exact .inl rfl
  · exact .inr rfl

lemma pairs_glue {M : List (ℕ × List ℕ)} {sides : List (Side × Side)} {ps : List (List (ℕ × ℕ))} (h : sides.mapM (pairsOf M) = some ps) :
    ∀ a b, (PR ps.flatten a b ∨ PR ps.flatten b a) ↔ (Glue M sides a b ∨ Glue M sides b a) := by
  obtain ⟨h1, h2⟩ := mapM_some_mem h
  have fwd : ∀ a b, PR ps.flatten a b → Glue M sides a b ∨ Glue M sides b a := by
    intro a b hab
    obtain ⟨l, hl, hab⟩ := List.mem_flatten.1 hab
    obtain ⟨p, hp, e⟩ := h2 l hl
    obtain ⟨w, x, y, z, hw, hx, hy, hz, -, -, rfl⟩ := pairsOf_some.1 e
    simp only [List.mem_cons, List.not_mem_nil, or_false] at hab
    rcases hab with hab | hab
    · rcases sort2_cases w y with e' | e' <;> rw [e', Prod.mk.injEq] at hab <;> obtain ⟨rfl, rfl⟩ := hab
      · exact .inl ⟨p, hp, .inl ⟨hw, hy⟩⟩
      · exact .inr ⟨p, hp, .inl ⟨hw, hy⟩⟩
    · rcases sort2_cases x z with e' | e' <;> rw [e', Prod.mk.injEq] at hab <;> obtain ⟨rfl, rfl⟩ := hab
      · exact .inl ⟨p, hp, .inr ⟨hx, hz⟩⟩
      · exact .inr ⟨p, hp, .inr ⟨hx, hz⟩⟩
  have bwd : ∀ a b, Glue M sides a b → PR ps.flatten a b ∨ PR ps.flatten b a := by
    rintro a b ⟨p, hp, hc⟩
    obtain ⟨l, hl, e⟩ := h1 p hp
    obtain ⟨w, x, y, z, hw, hx, hy, hz, -, -, rfl⟩ := pairsOf_some.1 e
    have m1 : sort2 w y ∈ ps.flatten := List.mem_flatten.2 ⟨_, hl, by simp⟩
    have m2 : sort2 x z ∈ ps.flatten := List.mem_flatten.2 ⟨_, hl, by simp⟩
    rcases hc with ⟨c1, c2⟩ | ⟨c1, c2⟩
    · obtain rfl := Option.some.inj (hw.symm.trans c1)
      obtain rfl := Option.some.inj (hy.symm.trans c2)
      rcases sort2_cases w y with e' | e' <;> rw [e'] at m1
      · exact .inl m1
      · exact .inr m1
    · obtain rfl := Option.some.inj (hx.symm.trans c1)
      obtain rfl := Option.some.inj (hz.symm.trans c2)
      rcases sort2_cases x z with e' | e' <;> rw [e'] at m2
      · exact .inl m2
      · exact .inr m2
  intro a b
  constructor
  · rintro (h | h)
    · exact fwd a b h
    · exact (fwd b a h).symm
  · rintro (h | h)
    · exact bwd a b h
    · exact (bwd b a h).symm

lemma eqv_congr {R S : ℕ → ℕ → Prop} (h : ∀ a b, (R a b ∨ R b a) → (S a b ∨ S b a)) {a b : ℕ} (e : Relation.EqvGen R a b) :
    Relation.EqvGen S a b := by
  induction e with
  | rel a b r =>
    rcases h a b (.inl r) with h | h
    · exact .rel _ _ h
    · exact .symm _ _ (.rel _ _ h)
  | refl => exact .refl _
  | symm _ _ _ ih => exact .symm _ _ ih
  | trans _ _ _ _ _ ih1 ih2 => exact .trans _ _ _ ih1 ih2

lemma within_congr {R S : ℕ → ℕ → Prop} (h : ∀ a b, (R a b ∨ R b a) → (S a b ∨ S b a)) : ∀ {n a b : ℕ}, Within R n a b → Within S n a b := by
  intro n
  induction n with
  | zero => exact fun e => e
  | succ n ih =>
    rintro a b ⟨c, hc, e⟩
    refine ⟨c, ih hc, ?_⟩
    rcases e with e | e
    · exact .inl e
    · exact .inr (h c b e)

/-- **Periodic sides, when accepted.** Without periodic sides the numbers are kept. With periodic sides, the numbers are made exactly if all
corners named exist and no side is put on a side with which it shares the corresponding corner. -/
theorem periodic_accepted (M : List (ℕ × List ℕ)) : parsePbc M none = some M ∧
    ∀ sides, (parsePbc M (some sides)).isSome ↔ ∀ p ∈ sides, ∃ a b c d, corner M p.1.reg p.1.a = some a ∧
      corner M p.1.reg p.1.b = some b ∧ corner M p.2.reg p.2.a = some c ∧ corner M p.2.reg p.2.b = some d ∧ a ≠ c ∧ b ≠ d := by
  refine ⟨rfl, fun sides => ?_⟩
  unfold parsePbc
  rw [Option.isSome_map, mapM_isSome]
  refine forall₂_congr fun p _ => ?_
  rw [Option.isSome_iff_exists]
  constructor
  · rintro ⟨l, h⟩
    obtain ⟨a, b, c, d, ha, hb, hc, hd, h1, h2, -⟩ := pairsOf_some.1 h
    exact ⟨a, b, c, d, ha, hb, hc, hd, h1, h2⟩
  · rintro ⟨a, b, c, d, ha, hb, hc, hd, h1, h2⟩
    exact ⟨_, pairsOf_some.2 ⟨a, b, c, d, ha, hb, hc, hd, h1, h2, rfl⟩⟩

/-- **Periodic sides.** The new numbers are for the same regions and corners. Corners get the same new number only if they had the same
number, or the sides that are glued lead from one to the other. Corners from which at most three pairs of glued corners lead to the smallest
number they are glued to get the same new number as this one. The new numbers are all numbers below some number. -/
theorem periodic_partial (M M' : List (ℕ × List ℕ)) (sides : List (Side × Side)) (h : parsePbc M (some sides) = some M') :
    M'.map (fun p => (p.1, p.2.length)) = M.map (fun p => (p.1, p.2.length)) ∧
    (∀ (i j k l x x' n n' : ℕ) (p p' q q' : ℕ × List ℕ), M[i]? = some p → M[k]? = some p' → M'[i]? = some q → M'[k]? = some q' →
      p.2[j]? = some x → p'.2[l]? = some x' → q.2[j]? = some n → q'.2[l]? = some n' →
      (n = n' → Glued M sides x x') ∧ (x = x' → n = n') ∧
      ((∀ y, Glued M sides x y → x ≤ y ∧ Within (Glue M sides) 3 x y) → Glued M sides x x' → n = n')) ∧
    (∀ m n : ℕ, m ≤ n → (∃ q ∈ M', n ∈ q.2) → ∃ q ∈ M', m ∈ q.2) := by
  unfold parsePbc at h
  obtain ⟨ps, hps, rfl⟩ := Option.map_eq_some_iff.1 h
  obtain ⟨h1, h2, h3⟩ := numberRows_numbered (M.map fun r => (r.1, r.2.map (relabel ps.flatten)))
  have hg := pairs_glue hps
  refine ⟨h1.trans (by simp [Function.comp_def]), ?_, h3⟩
  intro i j k l x x' n n' p p' q q' hp hp' hq hq' hx hx' hn hn'
  have key : n = n' ↔ relabel ps.flatten x = relabel ps.flatten x' :=
    h2 i j k l (p.1, p.2.map (relabel ps.flatten)) (p'.1, p'.2.map (relabel ps.flatten)) q q' _ _ n n' (by simp [hp]) (by simp [hp']) hq hq'
      (by simp [hx]) (by simp [hx']) hn hn'
  refine ⟨fun e => eqv_congr (fun a b => (hg a b).1) (relabel_sound _ _ _ (key.1 e)), fun e => key.2 (by rw [e]), ?_⟩
  intro hw hxx
  have hxx := eqv_congr (fun a b => (hg a b).2) hxx
  rcases pr_pool hxx with rfl | ⟨hxp, -⟩
  · exact key.2 rfl
  · refine key.2 (relabel_complete _ x (fun y hy => ?_) hxp x' hxx).symm
    obtain ⟨g1, g2⟩ := hw y (eqv_congr (fun a b => (hg a b).1) hy)
    exact ⟨g1, within_congr (fun a b => (hg a b).2) g2⟩

/-- The hypothesis on three pairs: two squares, the right side of the first put on the left side of the second. -/
example : let M := parseRegions [(0, shifted 0 0), (1, shifted 2 0)]
    let sides : List (Side × Side) := [(⟨0, 1, 2⟩, ⟨1, 0, 3⟩)]
    (parsePbc M (some sides)).isSome ∧ (∀ y, Glued M sides 1 y → 1 ≤ y ∧ Within (Glue M sides) 3 1 y) ∧ Glued M sides 1 4 := by
  intro M sides
  have c1 : corner M 0 1 = some 1 := by decide +kernel
  have c2 : corner M 0 2 = some 2 := by decide +kernel
  have c3 : corner M 1 0 = some 4 := by decide +kernel
  have c4 : corner M 1 3 = some 7 := by decide +kernel
  have g : Glue M sides 1 4 := ⟨_, .head _, .inl ⟨c1, c3⟩⟩
  have hG : ∀ a b, Glue M sides a b → (a = 1 ∧ b = 4) ∨ (a = 2 ∧ b = 7) := by
    rintro a b ⟨p, hp, h⟩
    obtain rfl := List.mem_singleton.1 hp
    rcases h with ⟨h1, h2⟩ | ⟨h1, h2⟩
    · exact .inl ⟨Option.some.inj (h1.symm.trans c1), Option.some.inj (h2.symm.trans c3)⟩
    · exact .inr ⟨Option.some.inj (h1.symm.trans c2), Option.some.inj (h2.symm.trans c4)⟩
  refine ⟨by decide +kernel, fun y hy => ?_, .rel _ _ g⟩
  have inv : ∀ a b, Glued M sides a b → ((a = 1 ∨ a = 4) ↔ (b = 1 ∨ b = 4)) := by
    intro a b h
    induction h with
    | rel a b h => rcases hG a b h with ⟨rfl, rfl⟩ | ⟨rfl, rfl⟩ <;> decide
    | refl => exact Iff.rfl
    | symm _ _ _ ih => exact ih.symm
    | trans _ _ _ _ _ i1 i2 => exact i1.trans i2
  rcases (inv 1 y hy).1 (.inl rfl) with rfl | rfl
  · exact ⟨le_refl _, 1, ⟨1, ⟨1, rfl, .inl rfl⟩, .inl rfl⟩, .inl rfl⟩
  · exact ⟨by omega, 4, ⟨4, ⟨1, rfl, .inr (.inl g)⟩, .inl rfl⟩, .inl rfl⟩

/-- Nine squares, three in a row. -/
def nine : List (ℕ × RegMap) := (List.range 9).map fun i => (i, shifted ((i % 3 : ℕ) : ℚ) ((i / 3 : ℕ) : ℚ))

/-- The periodic setting of the chaotic mesh (`/repo/msehtt/static/manifold/predefined/chaotic.py:92-100`). -/
def torus : List (Side × Side) :=
  [(⟨0, 0, 1⟩, ⟨6, 3, 2⟩), (⟨1, 0, 1⟩, ⟨7, 3, 2⟩), (⟨2, 0, 1⟩, ⟨8, 3, 2⟩), (⟨0, 0, 3⟩, ⟨2, 1, 2⟩), (⟨3, 0, 3⟩, ⟨5, 1, 2⟩),
    (⟨6, 0, 3⟩, ⟨8, 1, 2⟩)]

/-- Nine squares become a torus with nine corners. -/
example : parsePbc (parseRegions nine) (some torus) = some [(0, [0, 1, 2, 3]), (1, [1, 4, 5, 2]), (2, [4, 0, 3, 5]),
    (3, [3, 2, 6, 7]), (4, [2, 5, 8, 6]), (5, [5, 3, 7, 8]), (6, [7, 6, 1, 0]), (7, [6, 8, 4, 1]), (8, [8, 7, 0, 4])] := by
  decide +kernel

/-- Six squares that are apart from each other. -/
def six : List (ℕ × RegMap) := (List.range 6).map fun i => (i, shifted (2 * i) 0)

/-- A fan: the left side of a square is put on the bottom side of the next one. The first corners of all squares are one corner. -/
def fan : List (Side × Side) :=
  [(⟨4, 0, 3⟩, ⟨5, 0, 1⟩), (⟨3, 0, 3⟩, ⟨4, 0, 1⟩), (⟨2, 0, 3⟩, ⟨3, 0, 1⟩), (⟨1, 0, 3⟩, ⟨2, 0, 1⟩), (⟨0, 0, 3⟩, ⟨1, 0, 1⟩)]

/-- **Periodic sides, refuted.** Corners that are glued may get different numbers: of the six corners in the middle of the fan, the first four
are one corner, the last two another one, although the side of square `3` is put on the side of square `4`. With the pairs in
the opposite order it is one corner. -/
theorem periodic_refuted :
    Glue (parseRegions six) fan 12 16 ∧ corner (parseRegions six) 3 0 = some 12 ∧ corner (parseRegions six) 4 0 = some 16 ∧
    (parsePbc (parseRegions six) (some fan)).map (fun M => (List.range 6).map fun i => corner M i 0) =
      some [some 0, some 0, some 0, some 0, some 10, some 10] ∧
    (parsePbc (parseRegions six) (some fan.reverse)).map (fun M => (List.range 6).map fun i => corner M i 0) =
      some [some 0, some 0, some 0, some 0, some 0, some 0] := by
  refine ⟨⟨(⟨3, 0, 3⟩, ⟨4, 0, 1⟩), by decide, .inl (by decide +kernel)⟩, by decide +kernel, by decide +kernel, ?_, ?_⟩
  · decide +kernel
  · decide +kernel

end Phyem.Config
