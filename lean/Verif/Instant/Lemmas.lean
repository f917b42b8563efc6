import Verif.Instant.Spec
import Verif.Chaining.Vec
import Mathlib.Data.List.GetD

/-!
Lemmas on cochains.
-/

namespace Phyem.Instant

open Phyem Phyem.Chaining

lemma mapM_iff {α β : Type} {f : α → Option β} {l : List α} {l' : List β} :
    l.mapM f = some l' ↔ List.Forall₂ (fun x y => f x = some y) l l' := by
  induction l generalizing l' with
  | nil => simp [eq_comm]
  | cons x l ih =>
    rw [List.mapM_cons]
    cases hx : f x with
    | none =>
      simp only [Option.bind_eq_bind, Option.bind_none, reduceCtorEq, false_iff]
      intro h; cases h with
      | cons h1 _ => rw [hx] at h1; cases h1
    | some y =>
      cases hl : l.mapM f with
      | none =>
        simp only [Option.bind_eq_bind, Option.bind_some, Option.bind_none, reduceCtorEq, false_iff]
        intro h; cases h with
        | cons _ h2 => rw [← ih, hl] at h2; cases h2
      | some l₁ =>
        simp only [Option.bind_eq_bind, Option.bind_some, Option.pure_def, Option.some.injEq]
        constructor
        · rintro rfl; exact .cons hx (ih.1 hl)
        · intro h; cases h with
          | cons h1 h2 => rw [hx] at h1; rw [← ih, hl] at h2; cases h1; cases h2; rfl

lemma mapM_ex {α β : Type} {f : α → Option β} {l : List α} :
    (∃ l', l.mapM f = some l') ↔ ∀ x ∈ l, ∃ y, f x = some y := by
  induction l with
  | nil => simp
  | cons x l ih =>
    rw [List.mapM_cons]
    constructor
    · rintro ⟨l', h⟩
      have h := mapM_iff.1 ((List.mapM_cons ..).trans h : (x :: l).mapM f = some l')
      cases h with
      | cons h1 h2 =>
        intro z hz
        rcases List.mem_cons.1 hz with rfl | hz
        · exact ⟨_, h1⟩
        · exact ih.1 ⟨_, mapM_iff.2 h2⟩ z hz
    · intro h
      obtain ⟨y, hy⟩ := h x (by simp)
      obtain ⟨l', hl⟩ := ih.2 fun z hz => h z (by simp [hz])
      exact ⟨y :: l', by simp [hy, hl]⟩

lemma mapM_getElem {α β : Type} {f : α → Option β} {l : List α} {l' : List β} (h : l.mapM f = some l') :
    l'.length = l.length ∧ ∀ (i : ℕ) x, l[i]? = some x → ∃ y, l'[i]? = some y ∧ f x = some y := by
  have h' := mapM_iff.1 h
  clear h
  refine ⟨h'.length_eq.symm, ?_⟩
  induction h' with
  | nil => simp
  | @cons a b l l' h1 _ ih =>
    intro i x hx
    cases i with
    | zero => simp at hx; subst hx; exact ⟨b, by simp, h1⟩
    | succ i => simpa using ih i x (by simpa using hx)

lemma keys_mapM {d : Dict ℕ (List ℕ)} {f : ℕ × List ℕ → Option (List ℚ)} {c : Dict ℕ (List ℚ)}
    (h : (d.mapM fun p => (f p).map fun v => (p.1, v)) = some c) :
    Dict.keys c = Dict.keys d ∧ ∀ p ∈ d, ∃ v, f p = some v ∧ (p.1, v) ∈ c := by
  have h' := mapM_iff.1 h
  clear h
  unfold Dict.keys
  induction h' with
  | nil => simp
  | @cons a b l l' h1 _ ih =>
    rw [Option.map_eq_some_iff] at h1
    obtain ⟨v, h2, rfl⟩ := h1
    refine ⟨by simp [ih.1], ?_⟩
    intro p hp
    rcases List.mem_cons.1 hp with rfl | hp
    · exact ⟨v, h2, by simp⟩
    · obtain ⟨v', h3, h4⟩ := ih.2 p hp
      exact ⟨v', h3, by simp [h4]⟩

/-- What `overAll` gives. -/
lemma overAll_spec {g : DGM} {f : ℕ → ℕ × List ℕ → Option (List ℚ)} {cs : List (Dict ℕ (List ℚ))}
    (h : overAll g f = some cs) : cs.length = g.length ∧ ∀ (r : ℕ) d, g[r]? = some d → ∃ c, cs[r]? = some c ∧
      Dict.keys c = Dict.keys d ∧ ∀ p ∈ d, ∃ v, f r p = some v ∧ (p.1, v) ∈ c := by
  unfold overAll at h
  obtain ⟨h1, h2⟩ := mapM_getElem h
  refine ⟨by simpa using h1, ?_⟩
  intro r d hd
  obtain ⟨c, hc, he⟩ := h2 r (d, r) (by simp [List.getElem?_zipIdx, hd])
  exact ⟨c, hc, keys_mapM he⟩

lemma overAll_ex {g : DGM} {f : ℕ → ℕ × List ℕ → Option (List ℚ)} :
    (∃ cs, overAll g f = some cs) ↔ ∀ r e ns, Has g r e ns → ∃ v, f r (e, ns) = some v := by
  unfold overAll
  rw [mapM_ex]
  constructor
  · rintro h r e ns ⟨d, hd, hp⟩
    have h1 := mapM_ex.1 (h (d, r) (by
      rw [List.mem_zipIdx_iff_getElem?]; exact hd))
    obtain ⟨y, hy⟩ := h1 (e, ns) hp
    rw [Option.map_eq_some_iff] at hy
    obtain ⟨v, hv, _⟩ := hy
    exact ⟨v, hv⟩
  · rintro h ⟨d, r⟩ hq
    rw [List.mem_zipIdx_iff_getElem?] at hq
    rw [mapM_ex]
    rintro ⟨e, ns⟩ hp
    obtain ⟨v, hv⟩ := h r e ns ⟨d, hq, hp⟩
    exact ⟨(e, v), by simp [hv]⟩

lemma nodup_rank {g : DGM} (hd : Distinct g) {r : ℕ} {d : Dict ℕ (List ℕ)} (h : g[r]? = some d) :
    (Dict.keys d).Nodup := by
  unfold Distinct DGM.keys at hd
  exact (List.nodup_flatten.1 hd).1 _ (List.mem_map.2 ⟨d, List.mem_of_getElem? h, rfl⟩)

lemma rank_unique {g : DGM} (hd : Distinct g) {r r' : ℕ} {d d' : Dict ℕ (List ℕ)} (h : g[r]? = some d)
    (h' : g[r']? = some d') {e : ℕ} (he : e ∈ Dict.keys d) (he' : e ∈ Dict.keys d') : r = r' := by
  unfold Distinct DGM.keys at hd
  have hp := (List.nodup_flatten.1 hd).2
  rw [List.pairwise_iff_getElem] at hp
  rw [List.getElem?_eq_some_iff] at h h'
  obtain ⟨l1, h⟩ := h
  obtain ⟨l2, h'⟩ := h'
  rcases Nat.lt_trichotomy r r' with hl | hl | hl
  · exact absurd he' (hp r r' (by simpa using l1) (by simpa using l2) hl (by simpa [h] using he) ∘ by
      intro hx; simpa [h'] using hx)
  · exact hl
  · exact absurd he (hp r' r (by simpa using l2) (by simpa using l1) hl (by simpa [h'] using he') ∘ by
      intro hx; simpa [h] using hx)

lemma has_keys {g : DGM} {r e : ℕ} {ns : List ℕ} (h : Has g r e ns) : ∃ d, g[r]? = some d ∧ e ∈ Dict.keys d := by
  obtain ⟨d, h1, h2⟩ := h
  exact ⟨d, h1, List.mem_map.2 ⟨_, h2, rfl⟩⟩

lemma keys_has {g : DGM} {r e : ℕ} {d : Dict ℕ (List ℕ)} (h : g[r]? = some d) (he : e ∈ Dict.keys d) :
    ∃ ns, Has g r e ns := by
  obtain ⟨p, hp, rfl⟩ := List.mem_map.1 he
  exact ⟨p.2, d, h, hp⟩

lemma has_unique {g : DGM} (hd : Distinct g) {r r' e : ℕ} {ns ns' : List ℕ} (h : Has g r e ns) (h' : Has g r' e ns') :
    r = r' ∧ ns = ns' := by
  obtain ⟨d, h1, h2⟩ := h
  obtain ⟨d', h1', h2'⟩ := h'
  have hr := rank_unique hd h1 h1' (List.mem_map.2 ⟨_, h2, rfl⟩) (List.mem_map.2 ⟨_, h2', rfl⟩)
  subst hr
  rw [h1] at h1'; cases h1'
  have a := Dict.get_of_mem d (nodup_rank hd h1) e ns h2
  have b := Dict.get_of_mem d (nodup_rank hd h1) e ns' h2'
  rw [a] at b; cases b
  exact ⟨rfl, rfl⟩

lemma item_has {I : Inst} {r e : ℕ} {v : List ℚ} (h : I.item r e = some v) : ∃ ns, Has I.gm r e ns := by
  unfold Inst.item at h
  cases hd : I.gm[r]? with
  | none => rw [hd] at h; cases h
  | some d =>
    rw [hd, Option.bind_some] at h
    by_cases he : e ∈ Dict.keys d
    · exact keys_has hd he
    · rw [if_neg he] at h; cases h

lemma has_item {I : Inst} {r e : ℕ} {ns : List ℕ} (h : Has I.gm r e ns) : ∃ v, I.item r e = some v := by
  obtain ⟨d, h1, h2⟩ := has_keys h
  unfold Inst.item
  rw [h1, Option.bind_some, if_pos h2]
  exact ⟨_, rfl⟩

/-- Reading what `overAll` made. -/
lemma item_overAll {g : DGM} (hd : Distinct g) {f : ℕ → ℕ × List ℕ → Option (List ℚ)} {cs : List (Dict ℕ (List ℚ))}
    (h : overAll g f = some cs) {r e : ℕ} {ns : List ℕ} (hh : Has g r e ns) :
    (Inst.mk g (.dict cs)).item r e = f r (e, ns) := by
  obtain ⟨d, h1, h2⟩ := hh
  obtain ⟨c, hc, hk, hv⟩ := (overAll_spec h).2 r d h1
  obtain ⟨v, h3, h4⟩ := hv _ h2
  unfold Inst.item
  have he : e ∈ Dict.keys d := List.mem_map.2 ⟨_, h2, rfl⟩
  have hg : Dict.get c e = some v := Dict.get_of_mem c (by rw [hk]; exact nodup_rank hd h1) e v h4
  dsimp only
  rw [h1, Option.bind_some, if_pos he, hc, Option.bind_some, hg, h3]
  rfl

lemma data_item {I : Inst} (hd : Distinct I.gm) {r e : ℕ} {ns : List ℕ} (h : Has I.gm r e ns) :
    I.item r e = some (I.data e) := by
  obtain ⟨v, hv⟩ := has_item h
  have : (List.range I.gm.length).findSome? (fun r => I.item r e) = some v := by
    cases hf : (List.range I.gm.length).findSome? (fun r => I.item r e) with
    | none =>
      rw [List.findSome?_eq_none_iff] at hf
      obtain ⟨d, h1, _⟩ := h
      have := hf r (List.mem_range.2 (List.getElem?_eq_some_iff.1 h1).1)
      rw [hv] at this; cases this
    | some w =>
      obtain ⟨r', _, hr'⟩ := List.exists_of_findSome?_eq_some hf
      obtain ⟨ns', h'⟩ := item_has hr'
      obtain ⟨rfl, _⟩ := has_unique hd h h'
      rw [hv] at hr'; rw [hr']
  unfold Inst.data
  rw [this, hv]; rfl

lemma mem_rank_iff {g : DGM} {e : ℕ} {ns : List ℕ} : (∃ d ∈ g, (e, ns) ∈ d) ↔ ∃ r, Has g r e ns := by
  constructor
  · rintro ⟨d, hd, hp⟩
    obtain ⟨r, hr⟩ := List.getElem?_of_mem hd
    exact ⟨r, d, hr, hp⟩
  · rintro ⟨r, d, hd, hp⟩
    exact ⟨d, List.mem_of_getElem? hd, hp⟩

lemma pickM_ok {V : List ℚ} {ns : List ℕ} (h : ∀ n ∈ ns, n < V.length) : pickM V ns = some (ns.map fun n => V.getD n 0) := by
  unfold pickM
  rw [mapM_iff]
  induction ns with
  | nil => exact .nil
  | cons n ns ih =>
    rw [List.map_cons]
    refine .cons ?_ (ih fun m hm => h m (by simp [hm]))
    have hn := h n (by simp)
    rw [List.getElem?_eq_getElem hn]
    congr 1
    exact (List.getD_eq_getElem _ _ hn).symm

lemma has_lt {g : DGM} {r e : ℕ} {ns : List ℕ} (h : Has g r e ns) {n : ℕ} (hn : n ∈ ns) : n < g.num := by
  have : n ∈ g.nums := by
    obtain ⟨d, h1, h2⟩ := h
    exact List.mem_flatMap.2 ⟨d, List.mem_of_getElem? h1, List.mem_flatMap.2 ⟨_, h2, hn⟩⟩
  exact (num_le g.nums).1 n this

/-! ### The last value -/

lemma lastValue_append (a b : List (ℕ × ℚ)) (n : ℕ) :
    lastValue (a ++ b) n = (lastValue b n).or (lastValue a n) := by
  unfold lastValue
  rw [List.filter_append, List.getLast?_append]
  cases (b.filter fun x => x.1 = n).getLast? <;> simp

lemma writeVec_last (ns : List ℕ) : ∀ (vs : List ℚ) (vec : ℕ → ℚ) (m : ℕ),
    writeVec vec ns vs m = (lastValue (ns.zip vs) m).getD (vec m) := by
  induction ns with
  | nil => intro vs vec m; simp [writeVec, lastValue]
  | cons n ns ih =>
    intro vs vec m
    cases vs with
    | nil => simp [writeVec, lastValue]
    | cons v vs =>
      rw [writeVec, ih, List.zip_cons_cons, ← List.singleton_append, lastValue_append]
      cases lastValue (ns.zip vs) m with
      | some x => simp
      | none =>
        by_cases h : m = n
        · subst h; simp [lastValue]
        · have : ¬ n = m := fun e => h e.symm
          simp [lastValue, h, this]

lemma fold_last {α : Type} (l : List α) (W : α → List (ℕ × ℚ)) (step : (ℕ → ℚ) → α → ℕ → ℚ)
    (h : ∀ a ∈ l, ∀ vec m, step vec a m = (lastValue (W a) m).getD (vec m)) (vec : ℕ → ℚ) (m : ℕ) :
    l.foldl step vec m = (lastValue (l.flatMap W) m).getD (vec m) := by
  induction l generalizing vec with
  | nil => simp [lastValue]
  | cons a l ih =>
    rw [List.foldl_cons, ih (fun b hb => h b (by simp [hb])), h a (by simp), List.flatMap_cons, lastValue_append]
    cases lastValue (l.flatMap W) m <;> simp

lemma places_eq {I : Inst} (hd : Distinct I.gm) :
    places I = I.gm.flatMap fun d => d.flatMap fun p => p.2.zip (I.data p.1) := by
  unfold places
  have : (I.gm.flatMap fun d => d.flatMap fun p => p.2.zip (I.data p.1)) =
      I.gm.zipIdx.flatMap fun q => q.1.flatMap fun p => p.2.zip (I.data p.1) := by
    conv_lhs => rw [← List.zipIdx_map_fst 0 I.gm, List.flatMap_map]
  rw [this]
  apply List.flatMap_congr
  rintro ⟨d, r⟩ hq
  rw [List.mem_zipIdx_iff_getElem?] at hq
  apply List.flatMap_congr
  rintro ⟨e, ns⟩ hp
  dsimp only
  rw [data_item hd ⟨d, hq, hp⟩]
  rfl

lemma full_iff {I : Inst} (hd : Distinct I.gm) :
    Full I ↔ ∀ d ∈ I.gm, ∀ p ∈ d, p.2.length = (I.data p.1).length := by
  constructor
  · intro h d hdm p hp
    obtain ⟨r, hr⟩ := List.getElem?_of_mem hdm
    obtain ⟨v, h1, h2⟩ := h r p.1 p.2 ⟨d, hr, hp⟩
    rw [data_item hd ⟨d, hr, hp⟩] at h1
    cases h1; exact h2.symm
  · rintro h r e ns ⟨d, h1, h2⟩
    exact ⟨_, data_item hd ⟨d, h1, h2⟩, (h d (List.mem_of_getElem? h1) _ h2).symm⟩

/-- The assembled vector. -/
lemma assemble_last {I : Inst} (hd : Distinct I.gm) (hf : Full I) :
    assemble I.gm I.data = some ((List.range I.gm.num).map fun n => (lastValue (places I) n).getD 0) := by
  unfold assemble
  rw [if_pos ((full_iff hd).1 hf)]
  congr 1
  apply List.map_congr_left
  intro m _
  rw [places_eq hd]
  rw [fold_last I.gm (fun d => d.flatMap fun p => p.2.zip (I.data p.1))]
  intro d _ vec m
  rw [fold_last d (fun p => p.2.zip (I.data p.1))]
  intro p _ vec m
  exact writeVec_last _ _ _ _

lemma assemble_none {I : Inst} (hd : Distinct I.gm) (hf : ¬ Full I) : assemble I.gm I.data = none := by
  unfold assemble
  rw [if_neg fun h => hf ((full_iff hd).2 h)]

lemma mem_places {I : Inst} {x : ℕ × ℚ} : x ∈ places I ↔ ∃ (r e : ℕ) (ns : List ℕ) (v : List ℚ) (l : ℕ), Has I.gm r e ns ∧ I.item r e = some v ∧
    ns[l]? = some x.1 ∧ v[l]? = some x.2 := by
  unfold places
  simp only [List.mem_flatMap, Prod.exists]
  constructor
  · rintro ⟨d, r, hq, e, ns, hp, hx⟩
    rw [List.mem_zipIdx_iff_getElem?] at hq
    obtain ⟨v, hv⟩ := has_item (I := I) (r := r) (e := e) (ns := ns) ⟨d, hq, hp⟩
    rw [hv, Option.getD_some] at hx
    obtain ⟨l, hl⟩ := List.getElem?_of_mem hx
    rw [List.getElem?_zip_eq_some] at hl
    exact ⟨r, e, ns, v, l, ⟨d, hq, hp⟩, hv, hl.1, hl.2⟩
  · rintro ⟨r, e, ns, v, l, ⟨d, hq, hp⟩, hv, h1, h2⟩
    refine ⟨d, r, ?_, e, ns, hp, ?_⟩
    · rw [List.mem_zipIdx_iff_getElem?]; exact hq
    · rw [hv, Option.getD_some]
      exact List.mem_of_getElem? (i := l) (List.getElem?_zip_eq_some.2 ⟨h1, h2⟩)

lemma lastValue_mem {l : List (ℕ × ℚ)} {n : ℕ} {x : ℚ} (h : lastValue l n = some x) : (n, x) ∈ l := by
  unfold lastValue at h
  rw [Option.map_eq_some_iff] at h
  obtain ⟨y, h1, h2⟩ := h
  have := List.mem_of_getLast? h1
  rw [List.mem_filter] at this
  obtain ⟨h3, h4⟩ := this
  simp only [decide_eq_true_eq] at h4
  rw [← h4, ← h2]; exact h3

lemma lastValue_some {l : List (ℕ × ℚ)} {n : ℕ} {x : ℚ} (h : (n, x) ∈ l) : ∃ y, lastValue l n = some y := by
  unfold lastValue
  have : (n, x) ∈ l.filter fun x => x.1 = n := by simp [h]
  cases hg : (l.filter fun x => x.1 = n).getLast? with
  | none => rw [List.getLast?_eq_none_iff] at hg; rw [hg] at this; cases this
  | some y => exact ⟨y.2, rfl⟩

end Phyem.Instant
