import Verif.Passing.Model
import Mathlib.Data.List.Induction
import Mathlib.Data.List.Nodup

/-!
# The geometries of dofs, gathered from all ranks
-/

namespace Phyem.Passing

variable {G K : Type} [DecidableEq K]

/-- Geometries are only equal if they are the same: no tolerance. -/
def Exact (S : Shape G K) : Prop := ∀ a b, S.eq a b = true ↔ a = b

/-- One key more, if it is new. -/
def addKey (l : List ℕ) (d : ℕ) : List ℕ := if d ∈ l then l else l ++ [d]

/-- **Specification.** The dofs in the order in which they first occur, rank by rank and place by place. -/
def order (places : List (ℕ × G)) : List ℕ := places.foldl (fun l p => addKey l p.1) []

/-- **Specification.** The first place of a dof. -/
def firstAt (places : List (ℕ × G)) (d : ℕ) : Option G := (places.find? fun p => p.1 = d).map Prod.snd

/-- What a dictionary has for a dof. -/
def look (d : List (ℕ × List G)) (k : ℕ) : List G := ((d.find? fun p => p.1 = k).map Prod.snd).getD []

lemma addKey_nodup {l : List ℕ} {d : ℕ} (h : l.Nodup) : (addKey l d).Nodup := by
  unfold addKey
  split_ifs with hd
  · exact h
  · exact List.nodup_append.2 ⟨h, List.nodup_singleton _, fun a ha b hb => by
      rw [List.mem_singleton] at hb; subst hb; exact fun e => hd (e ▸ ha)⟩

lemma mem_addKey {l : List ℕ} {d x : ℕ} : x ∈ addKey l d ↔ x ∈ l ∨ x = d := by
  unfold addKey
  split_ifs with hd
  · exact ⟨Or.inl, fun h => h.elim id fun e => e ▸ hd⟩
  · simp

lemma foldKeys_nodup : ∀ (ds l : List ℕ), l.Nodup → (ds.foldl addKey l).Nodup
  | [], _, h => h
  | d :: ds, l, h => foldKeys_nodup ds (addKey l d) (addKey_nodup h)

lemma mem_foldKeys {x : ℕ} : ∀ (ds l : List ℕ), x ∈ ds.foldl addKey l ↔ x ∈ l ∨ x ∈ ds
  | [], l => by simp
  | d :: ds, l => by
    rw [List.foldl_cons, mem_foldKeys ds, mem_addKey, List.mem_cons]
    tauto

lemma order_eq (L : List (ℕ × G)) : order L = (L.map Prod.fst).foldl addKey [] := by
  unfold order
  rw [List.foldl_map]

lemma order_nodup (L : List (ℕ × G)) : (order L).Nodup := by
  rw [order_eq]; exact foldKeys_nodup _ _ List.nodup_nil

lemma mem_order {L : List (ℕ × G)} {d : ℕ} : d ∈ order L ↔ ∃ g, (d, g) ∈ L := by
  rw [order_eq, mem_foldKeys]
  simp

/-- Keys that were found once add nothing. -/
lemma foldKeys_twice (ds l : List ℕ) : (ds.foldl addKey []).foldl addKey l = ds.foldl addKey l := by
  induction ds using List.reverseRecOn with
  | nil => rfl
  | append_singleton ds d ih =>
    rw [List.foldl_append, List.foldl_append, List.foldl_cons, List.foldl_nil, List.foldl_cons, List.foldl_nil, ← ih]
    by_cases hd : d ∈ ds
    · have h1 : addKey (ds.foldl addKey []) d = ds.foldl addKey [] := if_pos ((mem_foldKeys _ _).2 (Or.inr hd))
      have h2 : addKey ((ds.foldl addKey []).foldl addKey l) d = (ds.foldl addKey []).foldl addKey l := by
        rw [ih]; exact if_pos ((mem_foldKeys _ _).2 (Or.inr hd))
      rw [h1, h2]
    · have h1 : addKey (ds.foldl addKey []) d = ds.foldl addKey [] ++ [d] := if_neg (by
        rw [mem_foldKeys]; simpa using hd)
      rw [h1, List.foldl_append, List.foldl_cons, List.foldl_nil]

/-! ### One rank -/

lemma addTo_keys (S : Shape G K) (p : ℕ × G) : ∀ d : List (ℕ × List G), (addTo S d p).map Prod.fst = addKey (d.map Prod.fst) p.1
  | [] => rfl
  | q :: d => by
    unfold addTo
    by_cases hq : q.1 = p.1
    · rw [if_pos hq]
      simp [addKey, hq]
    · rw [if_neg hq, List.map_cons, addTo_keys S p d, List.map_cons]
      unfold addKey
      by_cases hm : p.1 ∈ d.map Prod.fst
      · rw [if_pos hm, if_pos (List.mem_cons_of_mem _ hm)]
      · rw [if_neg hm, if_neg (by rw [List.mem_cons]; rintro (h | h); exacts [hq h.symm, hm h]), List.cons_append]

lemma look_cons (q : ℕ × List G) (d : List (ℕ × List G)) (k : ℕ) : look (q :: d) k = if q.1 = k then q.2 else look d k := by
  unfold look
  by_cases h : q.1 = k
  · rw [if_pos h, List.find?_cons_of_pos (by simpa using h)]; rfl
  · rw [if_neg h, List.find?_cons_of_neg (by simpa using h)]

lemma look_nil (k : ℕ) : look ([] : List (ℕ × List G)) k = [] := rfl

lemma addTo_look (S : Shape G K) (p : ℕ × G) (k : ℕ) :
    ∀ d : List (ℕ × List G), look (addTo S d p) k = if k = p.1 then addGeo S (look d k) p.2 else look d k
  | [] => by
    unfold addTo
    rw [look_cons, look_nil]
    by_cases h : p.1 = k
    · rw [if_pos h, if_pos h.symm]; rfl
    · rw [if_neg h, if_neg (Ne.symm h)]
  | q :: d => by
    unfold addTo
    by_cases hq : q.1 = p.1
    · rw [if_pos hq, look_cons, look_cons]
      dsimp only
      by_cases hk : q.1 = k
      · rw [if_pos hk, if_pos hk, if_pos (hk.symm.trans hq)]
      · rw [if_neg hk, if_neg hk, if_neg (fun e => hk (hq.trans e.symm))]
    · rw [if_neg hq, look_cons, look_cons, addTo_look S p k d]
      by_cases hk : q.1 = k
      · rw [if_pos hk, if_pos hk, if_neg (fun e => hq (hk.trans e))]
      · rw [if_neg hk, if_neg hk]

lemma mergeOne_keys (S : Shape G K) (p : ℕ × List G) :
    ∀ d : List (ℕ × List G), (mergeOne S d p).map Prod.fst = addKey (d.map Prod.fst) p.1
  | [] => rfl
  | q :: d => by
    unfold mergeOne
    by_cases hq : q.1 = p.1
    · rw [if_pos hq]
      simp [addKey, hq]
    · rw [if_neg hq, List.map_cons, mergeOne_keys S p d, List.map_cons]
      unfold addKey
      by_cases hm : p.1 ∈ d.map Prod.fst
      · rw [if_pos hm, if_pos (List.mem_cons_of_mem _ hm)]
      · rw [if_neg hm, if_neg (by rw [List.mem_cons]; rintro (h | h); exacts [hq h.symm, hm h]), List.cons_append]

lemma mergeOne_look (S : Shape G K) (p : ℕ × List G) (k : ℕ) :
    ∀ d : List (ℕ × List G), look (mergeOne S d p) k
      = if k = p.1 then look d k ++ p.2.filter (fun g => !(look d k).any (S.eq g)) else look d k
  | [] => by
    unfold mergeOne
    rw [look_cons, look_nil]
    by_cases h : p.1 = k
    · rw [if_pos h, if_pos h.symm]; simp
    · rw [if_neg h, if_neg (Ne.symm h)]
  | q :: d => by
    unfold mergeOne
    by_cases hq : q.1 = p.1
    · rw [if_pos hq, look_cons, look_cons]
      dsimp only
      by_cases hk : q.1 = k
      · rw [if_pos hk, if_pos hk, if_pos (hk.symm.trans hq)]
      · rw [if_neg hk, if_neg hk, if_neg (fun e => hk (hq.trans e.symm))]
    · rw [if_neg hq, look_cons, look_cons, mergeOne_look S p k d]
      by_cases hk : q.1 = k
      · rw [if_pos hk, if_pos hk, if_neg (fun e => hq (hk.trans e))]
      · rw [if_neg hk, if_neg hk]

lemma look_of_not_mem {d : List (ℕ × List G)} {k : ℕ} (h : k ∉ d.map Prod.fst) : look d k = [] := by
  unfold look
  rw [List.find?_eq_none.2 (fun p hp => by
    simp only [decide_eq_true_eq]
    exact fun e => h (e ▸ List.mem_map_of_mem hp))]
  rfl

lemma merge_look (S : Shape G K) (k : ℕ) : ∀ (e d : List (ℕ × List G)), (e.map Prod.fst).Nodup →
    look (e.foldl (mergeOne S) d) k = look d k ++ (look e k).filter (fun g => !(look d k).any (S.eq g))
  | [], d, _ => by simp [look_nil]
  | p :: e, d, hn => by
    rw [List.map_cons, List.nodup_cons] at hn
    rw [List.foldl_cons, merge_look S k e _ hn.2, mergeOne_look, look_cons]
    by_cases hk : k = p.1
    · rw [if_pos hk, if_pos hk.symm, look_of_not_mem (d := e) (hk ▸ hn.1)]
      simp
    · rw [if_neg hk, if_neg (Ne.symm hk)]

lemma merge_keys (S : Shape G K) : ∀ (e d : List (ℕ × List G)),
    (e.foldl (mergeOne S) d).map Prod.fst = (e.map Prod.fst).foldl addKey (d.map Prod.fst)
  | [], _ => rfl
  | p :: e, d => by rw [List.foldl_cons, merge_keys S e, mergeOne_keys, List.map_cons, List.foldl_cons]

/-- What a dictionary of geometries has, for places that were added so far. -/
structure Has (d : List (ℕ × List G)) (L : List (ℕ × G)) : Prop where
  keys : d.map Prod.fst = order L
  mem : ∀ k g, g ∈ look d k ↔ (k, g) ∈ L
  first : ∀ k, (look d k).head? = firstAt L k
  nodup : ∀ k, (look d k).Nodup

lemma has_nil : Has ([] : List (ℕ × List G)) [] := ⟨rfl, fun k g => by simp [look_nil], fun _ => rfl, fun _ => List.nodup_nil⟩

lemma mem_addGeo {S : Shape G K} (hS : Exact S) {l : List G} {g x : G} : x ∈ addGeo S l g ↔ x ∈ l ∨ x = g := by
  unfold addGeo
  split_ifs with h
  · obtain ⟨y, hy, he⟩ := List.any_eq_true.1 h
    rw [hS] at he
    subst he
    exact ⟨Or.inl, fun h => h.elim id fun e => e ▸ hy⟩
  · simp

lemma addGeo_nodup {S : Shape G K} (hS : Exact S) {l : List G} {g : G} (h : l.Nodup) : (addGeo S l g).Nodup := by
  unfold addGeo
  split_ifs with hg
  · exact h
  · refine List.nodup_append.2 ⟨h, List.nodup_singleton _, fun a ha b hb => ?_⟩
    rw [List.mem_singleton] at hb
    subst hb
    exact fun e => hg (List.any_eq_true.2 ⟨a, ha, (hS _ _).2 e.symm⟩)

lemma head_addGeo {S : Shape G K} (l : List G) (g : G) : (addGeo S l g).head? = l.head?.or (some g) := by
  unfold addGeo
  cases l with
  | nil => rfl
  | cons a l => split_ifs <;> rfl

lemma firstAt_append (L M : List (ℕ × G)) (k : ℕ) : firstAt (L ++ M) k = (firstAt L k).or (firstAt M k) := by
  unfold firstAt
  rw [List.find?_append]
  cases L.find? fun p => p.1 = k <;> rfl

lemma rank_has {S : Shape G K} (hS : Exact S) (L : List (ℕ × G)) : Has (rankGeos S L) L := by
  induction L using List.reverseRecOn with
  | nil => exact has_nil
  | append_singleton L p ih =>
    have hr : rankGeos S (L ++ [p]) = addTo S (rankGeos S L) p := by
      unfold rankGeos; rw [List.foldl_append]; rfl
    rw [hr]
    refine ⟨?_, fun k g => ?_, fun k => ?_, fun k => ?_⟩
    · rw [addTo_keys, ih.keys]
      unfold order
      rw [List.foldl_append]; rfl
    · rw [addTo_look]
      by_cases hk : k = p.1
      · rw [if_pos hk, mem_addGeo hS, ih.mem]
        simp only [List.mem_append, List.mem_singleton, Prod.ext_iff, hk, true_and]
      · rw [if_neg hk, ih.mem]
        simp only [List.mem_append, List.mem_singleton, Prod.ext_iff, hk, false_and, or_false]
    · rw [addTo_look, firstAt_append, ← ih.first]
      by_cases hk : k = p.1
      · rw [if_pos hk, head_addGeo]
        simp [firstAt, hk]
      · rw [if_neg hk]
        simp [firstAt, Ne.symm hk]
    · rw [addTo_look]
      split_ifs
      · exact addGeo_nodup hS (ih.nodup k)
      · exact ih.nodup k

lemma merge_has {S : Shape G K} (hS : Exact S) {d e : List (ℕ × List G)} {L M : List (ℕ × G)} (hd : Has d L) (he : Has e M) :
    Has (e.foldl (mergeOne S) d) (L ++ M) := by
  have hn : (e.map Prod.fst).Nodup := he.keys ▸ order_nodup M
  have hmem : ∀ k g, ((fun g => !(look d k).any (S.eq g)) g = true) ↔ g ∉ look d k := fun k g => by
    rw [Bool.not_eq_true', Bool.eq_false_iff, ne_eq, List.any_eq_true]
    simp [hS _ _]
  refine ⟨?_, fun k g => ?_, fun k => ?_, fun k => ?_⟩
  · rw [merge_keys, hd.keys, he.keys, order_eq, order_eq, foldKeys_twice, order_eq, List.map_append, List.foldl_append]
  · rw [merge_look S k e d hn, List.mem_append, List.mem_filter, hmem, List.mem_append, hd.mem, he.mem]
    tauto
  · rw [merge_look S k e d hn, firstAt_append, ← hd.first, ← he.first]
    cases hl : look d k with
    | nil => simp
    | cons a l => rfl
  · rw [merge_look S k e d hn]
    refine List.nodup_append.2 ⟨hd.nodup k, (he.nodup k).filter _, fun a ha b hb => ?_⟩
    have := (hmem k b).1 (List.mem_filter.1 hb).2
    exact fun e => this (e ▸ ha)

lemma all_has {S : Shape G K} (hS : Exact S) (ranks : List (List (ℕ × G))) : Has (allGeos S ranks) ranks.flatten := by
  have key : ∀ (rs : List (List (ℕ × G))) (d : List (ℕ × List G)) (L : List (ℕ × G)), Has d L →
      Has (rs.foldl (fun d places => (rankGeos S places).foldl (mergeOne S) d) d) (L ++ rs.flatten) := by
    intro rs
    induction rs with
    | nil => intro d L h; simpa using h
    | cons r rs ih =>
      intro d L h
      rw [List.foldl_cons, List.flatten_cons, ← List.append_assoc]
      exact ih _ _ (merge_has hS h (rank_has hS r))
  exact key ranks [] [] has_nil

/-- The entries of a dictionary are what it has for their dofs. -/
lemma entry {d : List (ℕ × List G)} {L : List (ℕ × G)} (h : Has d L) {p : ℕ × List G} (hp : p ∈ d) : p.2 = look d p.1 := by
  have hn : (d.map Prod.fst).Nodup := h.keys ▸ order_nodup L
  clear h
  induction d with
  | nil => cases hp
  | cons q d ih =>
    rw [List.map_cons, List.nodup_cons] at hn
    rw [look_cons]
    rcases List.mem_cons.1 hp with e | hp'
    · subst e; rw [if_pos rfl]
    · rw [if_neg (fun e : q.1 = p.1 => hn.1 (by rw [e]; exact List.mem_map_of_mem hp'))]
      exact ih hp' hn.2

lemma entries {d : List (ℕ × List G)} {L : List (ℕ × G)} (h : Has d L) : d = (order L).map fun k => (k, look d k) := by
  rw [← h.keys, List.map_map]
  conv_lhs => rw [← List.map_id d]
  refine List.map_congr_left fun p hp => ?_
  exact Prod.ext rfl (entry h hp)

end Phyem.Passing
