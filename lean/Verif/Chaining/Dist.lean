import Verif.Chaining.Lemmas

/-!
Lemmas on distributed gathering matrices.
-/

namespace Phyem.Chaining

/-! ### Pools -/

section pool
variable {κ : Type} [DecidableEq κ]

/-- The numbers of a pool are `0 … cur - 1`, each for one key. -/
structure PInv (p : Pool κ) : Prop where
  nodup : (Dict.keys p.dict).Nodup
  len : p.dict.length = p.cur
  lt : ∀ k v, Dict.get p.dict k = some v → v < p.cur
  inj : ∀ k k' v, Dict.get p.dict k = some v → Dict.get p.dict k' = some v → k = k'
  onto : ∀ v < p.cur, ∃ k, Dict.get p.dict k = some v

theorem put_length_new (d : Dict κ ℕ) (k : κ) (v : ℕ) (h : Dict.get d k = none) :
    (Dict.put d k v).length = d.length + 1 := by
  induction d with
  | nil => rfl
  | cons p d ih =>
    obtain ⟨a, w⟩ := p
    simp only [Dict.get] at h
    split_ifs at h with ha
    simp only [Dict.put, if_neg ha, List.length_cons, ih h]

theorem visit_inv {p : Pool κ} (h : PInv p) (k : κ) : PInv (visit p k) ∧
    (∃ v, Dict.get (visit p k).dict k = some v) ∧
    (∀ k' v, Dict.get p.dict k' = some v → Dict.get (visit p k).dict k' = some v) ∧
    (∀ k' v, Dict.get (visit p k).dict k' = some v → k' = k ∨ Dict.get p.dict k' = some v) := by
  unfold visit
  cases hk : Dict.get p.dict k with
  | some v => exact ⟨h, ⟨v, hk⟩, fun _ _ h => h, fun _ _ h => Or.inr h⟩
  | none =>
    simp only
    refine ⟨⟨Dict.nodup_put _ _ _ h.nodup, by rw [put_length_new _ _ _ hk, h.len], ?_, ?_, ?_⟩, ?_, ?_, ?_⟩
    · intro k' v hv
      rw [Dict.get_put] at hv
      split_ifs at hv with he
      · simp only [Option.some.injEq] at hv; change v < p.cur + 1; omega
      · have := h.lt k' v hv; change v < p.cur + 1; omega
    · intro k1 k2 v h1 h2
      rw [Dict.get_put] at h1 h2
      split_ifs at h1 h2 with e1 e2 e2
      · rw [e1, e2]
      · simp only [Option.some.injEq] at h1
        have := h.lt k2 v h2; omega
      · simp only [Option.some.injEq] at h2
        have := h.lt k1 v h1; omega
      · exact h.inj k1 k2 v h1 h2
    · intro v hv
      by_cases hc : v < p.cur
      · obtain ⟨k', hk'⟩ := h.onto v hc
        refine ⟨k', ?_⟩
        rw [Dict.get_put, if_neg, hk']
        rintro rfl
        rw [hk] at hk'; simp at hk'
      · change v < p.cur + 1 at hv
        exact ⟨k, by rw [Dict.get_put, if_pos rfl]; congr 1; omega⟩
    · exact ⟨p.cur, by rw [Dict.get_put, if_pos rfl]⟩
    · intro k' v hv
      rw [Dict.get_put, if_neg, hv]
      rintro rfl
      rw [hk] at hv; simp at hv
    · intro k' v hv
      rw [Dict.get_put] at hv
      split_ifs at hv with he
      · exact Or.inl he
      · exact Or.inr hv

/-- The number of a key. -/
def ren (p : Pool κ) (k : κ) : ℕ := (Dict.get p.dict k).getD 0

/-- `q` extends `p`. -/
def Ext (p q : Pool κ) : Prop := ∀ k v, Dict.get p.dict k = some v → Dict.get q.dict k = some v

theorem number_spec : ∀ (ks : List κ) (p : Pool κ), PInv p →
    PInv (number p ks).2 ∧ Ext p (number p ks).2 ∧
    (∀ k ∈ ks, ∃ v, Dict.get (number p ks).2.dict k = some v) ∧
    (∀ k v, Dict.get (number p ks).2.dict k = some v → k ∈ ks ∨ Dict.get p.dict k = some v) ∧
    ∀ q, Ext (number p ks).2 q → (number p ks).1 = ks.map (ren q) := by
  intro ks
  induction ks with
  | nil => intro p h; exact ⟨h, fun _ _ h => h, by simp, fun _ _ h => Or.inr h, fun _ _ => rfl⟩
  | cons k ks ih =>
    intro p h
    obtain ⟨v1, ⟨v, v2⟩, v3, v4⟩ := visit_inv h k
    obtain ⟨i1, i2, i3, i4, i5⟩ := ih (visit p k) v1
    simp only [number]
    refine ⟨i1, fun k' v hv => i2 _ _ (v3 _ _ hv), ?_, ?_, ?_⟩
    · intro k' hk'
      rcases List.mem_cons.mp hk' with rfl | hk'
      · exact ⟨v, i2 _ _ v2⟩
      · exact i3 k' hk'
    · intro k' v hv
      rcases i4 k' v hv with hh | hh
      · exact Or.inl (List.mem_cons_of_mem _ hh)
      · rcases v4 k' v hh with rfl | hh
        · exact Or.inl List.mem_cons_self
        · exact Or.inr hh
    · intro q hq
      rw [i5 q hq, List.map_cons]
      congr 1
      unfold ren
      rw [v2, hq _ _ (i2 _ _ v2)]

theorem numberRank_spec (cell : ℕ → List κ) : ∀ (es : List ℕ) (p : Pool κ), PInv p →
    PInv (numberRank cell p es).2 ∧ Ext p (numberRank cell p es).2 ∧
    (∀ e ∈ es, ∀ k ∈ cell e, ∃ v, Dict.get (numberRank cell p es).2.dict k = some v) ∧
    (∀ k v, Dict.get (numberRank cell p es).2.dict k = some v →
      (∃ e ∈ es, k ∈ cell e) ∨ Dict.get p.dict k = some v) ∧
    ∀ q, Ext (numberRank cell p es).2 q → (numberRank cell p es).1 = es.map fun e => (e, (cell e).map (ren q)) := by
  intro es
  induction es with
  | nil => intro p h; exact ⟨h, fun _ _ h => h, by simp, fun _ _ h => Or.inr h, fun _ _ => rfl⟩
  | cons e es ih =>
    intro p h
    obtain ⟨n1, n2, n3, n4, n5⟩ := number_spec (cell e) p h
    obtain ⟨i1, i2, i3, i4, i5⟩ := ih _ n1
    simp only [numberRank]
    refine ⟨i1, fun k' v hv => i2 _ _ (n2 _ _ hv), ?_, ?_, ?_⟩
    · intro e' he' k hk
      rcases List.mem_cons.mp he' with rfl | he'
      · obtain ⟨v, hv⟩ := n3 k hk; exact ⟨v, i2 _ _ hv⟩
      · exact i3 e' he' k hk
    · intro k v hv
      rcases i4 k v hv with ⟨e', he', hh⟩ | hh
      · exact Or.inl ⟨e', List.mem_cons_of_mem _ he', hh⟩
      · rcases n4 k v hh with hh | hh
        · exact Or.inl ⟨e, List.mem_cons_self, hh⟩
        · exact Or.inr hh
    · intro q hq
      rw [i5 q hq, List.map_cons, n5 q (fun k v hv => hq _ _ (i2 _ _ hv))]

theorem numberAll_spec (cell : ℕ → List κ) : ∀ (ranks : List (List ℕ)) (p : Pool κ), PInv p →
    PInv (numberAll cell p ranks).2 ∧ Ext p (numberAll cell p ranks).2 ∧
    (∀ e ∈ ranks.flatten, ∀ k ∈ cell e, ∃ v, Dict.get (numberAll cell p ranks).2.dict k = some v) ∧
    (∀ k v, Dict.get (numberAll cell p ranks).2.dict k = some v →
      (∃ e ∈ ranks.flatten, k ∈ cell e) ∨ Dict.get p.dict k = some v) ∧
    ∀ q, Ext (numberAll cell p ranks).2 q →
      (numberAll cell p ranks).1 = ranks.map fun es => es.map fun e => (e, (cell e).map (ren q)) := by
  intro ranks
  induction ranks with
  | nil => intro p h; exact ⟨h, fun _ _ h => h, by simp, fun _ _ h => Or.inr h, fun _ _ => rfl⟩
  | cons es ranks ih =>
    intro p h
    obtain ⟨n1, n2, n3, n4, n5⟩ := numberRank_spec cell es p h
    obtain ⟨i1, i2, i3, i4, i5⟩ := ih _ n1
    simp only [numberAll]
    refine ⟨i1, fun k' v hv => i2 _ _ (n2 _ _ hv), ?_, ?_, ?_⟩
    · intro e' he' k hk
      rw [List.flatten_cons] at he'
      rcases List.mem_append.mp he' with he' | he'
      · obtain ⟨v, hv⟩ := n3 e' he' k hk; exact ⟨v, i2 _ _ hv⟩
      · exact i3 e' he' k hk
    · intro k v hv
      rw [List.flatten_cons]
      rcases i4 k v hv with ⟨e', he', hh⟩ | hh
      · exact Or.inl ⟨e', List.mem_append.mpr (Or.inr he'), hh⟩
      · rcases n4 k v hh with ⟨e', he', hh⟩ | hh
        · exact Or.inl ⟨e', List.mem_append.mpr (Or.inl he'), hh⟩
        · exact Or.inr hh
    · intro q hq
      rw [i5 q hq, List.map_cons, n5 q (fun k v hv => hq _ _ (i2 _ _ hv))]

end pool

/-! ### Renaming of keys -/

section rename
variable {κ μ : Type} [DecidableEq κ] [DecidableEq μ]

/-- The pools agree up to the renaming `f` of keys in `U`. -/
structure Rel (U : κ → Prop) (f : κ → μ) (p : Pool κ) (q : Pool μ) : Prop where
  cur : p.cur = q.cur
  get : ∀ k, U k → Dict.get q.dict (f k) = Dict.get p.dict k

theorem visit_rel {U : κ → Prop} {f : κ → μ} (hf : ∀ k k', U k → U k' → f k = f k' → k = k') {p : Pool κ}
    {q : Pool μ} (h : Rel U f p q) {k : κ} (hk : U k) : Rel U f (visit p k) (visit q (f k)) := by
  unfold visit
  rw [h.get k hk]
  cases hg : Dict.get p.dict k with
  | some v => exact h
  | none =>
    simp only
    refine ⟨by simp [h.cur], ?_⟩
    intro k' hk'
    simp only
    rw [Dict.get_put, Dict.get_put, h.get k' hk', h.cur]
    by_cases he : k' = k
    · subst he; simp
    · rw [if_neg he, if_neg (fun e => he (hf k' k hk' hk e))]

theorem number_rel {U : κ → Prop} {f : κ → μ} (hf : ∀ k k', U k → U k' → f k = f k' → k = k') :
    ∀ (ks : List κ) (p : Pool κ) (q : Pool μ), (∀ k ∈ ks, U k) → Rel U f p q →
      (number q (ks.map f)).1 = (number p ks).1 ∧ Rel U f (number p ks).2 (number q (ks.map f)).2 := by
  intro ks
  induction ks with
  | nil => intro p q _ h; exact ⟨rfl, h⟩
  | cons k ks ih =>
    intro p q hU h
    have hk := hU k (by simp)
    have hv := visit_rel hf h hk
    obtain ⟨i1, i2⟩ := ih _ _ (fun k' hk' => hU k' (by simp [hk'])) hv
    simp only [List.map_cons, number]
    exact ⟨by rw [i1, hv.get k hk], i2⟩

theorem numberRank_rel {U : κ → Prop} {f : κ → μ} (hf : ∀ k k', U k → U k' → f k = f k' → k = k')
    {cell : ℕ → List κ} {cell' : ℕ → List μ} :
    ∀ (es : List ℕ) (p : Pool κ) (q : Pool μ), (∀ e ∈ es, cell' e = (cell e).map f ∧ ∀ k ∈ cell e, U k) →
      Rel U f p q → (numberRank cell' q es).1 = (numberRank cell p es).1 ∧
        Rel U f (numberRank cell p es).2 (numberRank cell' q es).2 := by
  intro es
  induction es with
  | nil => intro p q _ h; exact ⟨rfl, h⟩
  | cons e es ih =>
    intro p q hU h
    obtain ⟨h1, h2⟩ := hU e (by simp)
    obtain ⟨n1, n2⟩ := number_rel hf (cell e) p q h2 h
    simp only [numberRank]
    rw [h1]
    obtain ⟨i1, i2⟩ := ih _ _ (fun e' he' => hU e' (by simp [he'])) n2
    exact ⟨by rw [i1, n1], i2⟩

theorem numberAll_rel {U : κ → Prop} {f : κ → μ} (hf : ∀ k k', U k → U k' → f k = f k' → k = k')
    {cell : ℕ → List κ} {cell' : ℕ → List μ} :
    ∀ (ranks : List (List ℕ)) (p : Pool κ) (q : Pool μ),
      (∀ e ∈ ranks.flatten, cell' e = (cell e).map f ∧ ∀ k ∈ cell e, U k) →
      Rel U f p q → (numberAll cell' q ranks).1 = (numberAll cell p ranks).1 ∧
        Rel U f (numberAll cell p ranks).2 (numberAll cell' q ranks).2 := by
  intro ranks
  induction ranks with
  | nil => intro p q _ h; exact ⟨rfl, h⟩
  | cons es ranks ih =>
    intro p q hU h
    rw [List.flatten_cons] at hU
    obtain ⟨n1, n2⟩ := numberRank_rel hf es p q (fun e he => hU e (List.mem_append.mpr (Or.inl he))) h
    obtain ⟨i1, i2⟩ := ih _ _ (fun e he => hU e (List.mem_append.mpr (Or.inr he))) n2
    simp only [numberAll]
    exact ⟨by rw [i1, n1], i2⟩

end rename

/-! ### Distributed matrices -/

theorem all_get_aux (d0 : Dict ℕ (List ℕ)) (l : Dict ℕ (List ℕ)) (e : ℕ) :
    Dict.get (l.foldl (fun d p => Dict.put d p.1 p.2) d0) e =
      match (l.reverse.find? fun p => decide (p.1 = e)) with
      | some p => some p.2
      | none => Dict.get d0 e := by
  induction l generalizing d0 with
  | nil => rfl
  | cons p l ih =>
    rw [List.foldl_cons, ih, List.reverse_cons, List.find?_append]
    cases hf : l.reverse.find? fun p => decide (p.1 = e) with
    | some q => simp
    | none =>
      simp only [Option.none_or]
      rw [Dict.get_put]
      by_cases he : e = p.1
      · subst he; simp [List.find?]
      · have : ¬ p.1 = e := fun h => he h.symm
        simp [List.find?, he, this]

theorem all_eq (g : DGM) : g.all = g.flatten.foldl (fun d p => Dict.put d p.1 p.2) [] := by
  unfold DGM.all
  rw [List.foldl_flatten]

theorem keys_flatten (g : DGM) : g.keys.flatten = (g.flatten).map Prod.fst := by
  unfold DGM.keys Dict.keys
  rw [List.map_flatten]

theorem at_eq {g : DGM} (h : Distinct g) {d : Dict ℕ (List ℕ)} (hd : d ∈ g) {p : ℕ × List ℕ} (hp : p ∈ d) :
    g.at p.1 = p.2 := by
  unfold DGM.at
  rw [all_eq, all_get_aux]
  have hm : p ∈ g.flatten := List.mem_flatten.mpr ⟨d, hd, hp⟩
  have hnd : (g.flatten.map Prod.fst).Nodup := by rw [← keys_flatten]; exact h
  cases hf : g.flatten.reverse.find? fun q => decide (q.1 = p.1) with
  | none =>
    rw [List.find?_eq_none] at hf
    exact absurd (decide_eq_true (Eq.refl p.1)) (hf p (List.mem_reverse.mpr hm))
  | some q =>
    have h1 := List.find?_some hf
    have h2 := List.mem_reverse.mp (List.mem_of_find?_eq_some hf)
    simp only [decide_eq_true_eq] at h1
    have : q = p := List.inj_on_of_nodup_map hnd h2 hm h1
    rw [this]; rfl

theorem elem_iff {g : DGM} {e : ℕ} : Elem g e ↔ ∃ d ∈ g, ∃ p ∈ d, p.1 = e := by
  unfold Elem
  rw [keys_flatten]
  simp only [List.mem_map, List.mem_flatten]
  constructor
  · rintro ⟨p, ⟨d, hd, hp⟩, rfl⟩; exact ⟨d, hd, p, hp, rfl⟩
  · rintro ⟨d, hd, p, hp, rfl⟩; exact ⟨p, ⟨d, hd, hp⟩, rfl⟩

theorem mem_nums {g : DGM} (h : Distinct g) {v : ℕ} : v ∈ g.nums ↔ ∃ e, Elem g e ∧ v ∈ g.at e := by
  unfold DGM.nums
  simp only [List.mem_flatMap]
  constructor
  · rintro ⟨d, hd, p, hp, hv⟩
    exact ⟨p.1, elem_iff.mpr ⟨d, hd, p, hp, rfl⟩, by rw [at_eq h hd hp]; exact hv⟩
  · rintro ⟨e, he, hv⟩
    obtain ⟨d, hd, p, hp, rfl⟩ := elem_iff.mp he
    exact ⟨d, hd, p, hp, by rw [at_eq h hd hp] at hv; exact hv⟩

theorem num_le (l : List ℕ) : (∀ v ∈ l, v < l.foldr (fun n m => max (n + 1) m) 0) ∧
    (l ≠ [] → l.foldr (fun n m => max (n + 1) m) 0 - 1 ∈ l ∧ 0 < l.foldr (fun n m => max (n + 1) m) 0) := by
  induction l with
  | nil => simp
  | cons x l ih =>
    obtain ⟨h1, h2⟩ := ih
    simp only [List.foldr_cons]
    constructor
    · intro v hv
      rcases List.mem_cons.mp hv with rfl | hv
      · exact lt_of_lt_of_le (Nat.lt_succ_self _) (le_max_left _ _)
      · exact lt_of_lt_of_le (h1 v hv) (le_max_right _ _)
    · intro _
      rcases Nat.le_total (l.foldr (fun n m => max (n + 1) m) 0) (x + 1) with hc | hc
      · rw [max_eq_left hc]; simp
      · rw [max_eq_right hc]
        by_cases hl : l = []
        · subst hl; simp at hc
        · exact ⟨List.mem_cons_of_mem _ (h2 hl).1, (h2 hl).2⟩

theorem num_eq {g : DGM} {n : ℕ} (h : Contiguous g.nums n) : g.num = n := by
  obtain ⟨h1, h2⟩ := num_le g.nums
  have e : g.num = g.nums.foldr (fun n m => max (n + 1) m) 0 := rfl
  rw [e]
  by_cases hn : g.nums = []
  · rw [hn] at h ⊢
    simp only [List.foldr_nil]
    by_contra hc
    have := (h 0).mpr (by omega)
    simp at this
  · have a := (h _).mp (h2 hn).1
    have b := (h2 hn).2
    have c := h1 (n - 1) ((h _).mpr (by omega))
    omega

theorem cells_eq (gms : List DGM) (e : ℕ) : cells gms e = dofsOf (gms.map fun g => g.at e) := by
  unfold cells dofsOf
  rw [List.zipIdx_map, List.flatMap_map]
  rfl

theorem mem_cells {gms : List DGM} {e : ℕ} {x : ℕ × ℕ} :
    x ∈ cells gms e ↔ ∃ g, gms[x.1]? = some g ∧ x.2 ∈ g.at e := by
  rw [cells_eq, mem_dofsOf]
  constructor
  · rintro ⟨r, hr, hx⟩
    rw [List.getElem?_map] at hr
    cases hg : gms[x.1]? with
    | none => rw [hg] at hr; simp at hr
    | some g => rw [hg] at hr; simp at hr; exact ⟨g, rfl, by rw [hr]; exact hx⟩
  · rintro ⟨g, hg, hx⟩
    exact ⟨g.at e, by rw [List.getElem?_map, hg]; rfl, hx⟩

theorem pinv_empty {κ : Type} [DecidableEq κ] : PInv (⟨[], 0⟩ : Pool κ) :=
  ⟨by simp [Dict.keys], rfl, by simp [Dict.get], by simp [Dict.get], by simp⟩

/-- The result of the loops. -/
structure Chained (gms : List DGM) (base c : DGM) (rn : ℕ × ℕ → ℕ) (cur : ℕ) : Prop where
  keys : c.keys = base.keys
  row : ∀ e, Elem base e → c.at e = (cells gms e).map rn
  inj : ∀ e e' x y, Elem base e → Elem base e' → x ∈ cells gms e → y ∈ cells gms e' → rn x = rn y → x = y
  onto : ∀ v, (∃ e x, Elem base e ∧ x ∈ cells gms e ∧ rn x = v) ↔ v < cur

theorem numberAll_chained (gms : List DGM) (base : DGM) (hb : Distinct base) :
    Chained gms base (numberAll (cells gms) ⟨[], 0⟩ base.keys).1
      (ren (numberAll (cells gms) ⟨[], 0⟩ base.keys).2) (numberAll (cells gms) ⟨[], 0⟩ base.keys).2.cur := by
  obtain ⟨h1, _, h3, h4, h5⟩ := numberAll_spec (cells gms) base.keys ⟨[], 0⟩ pinv_empty
  have h6 := h5 _ (fun _ _ h => h)
  generalize hp : (numberAll (cells gms) ⟨[], 0⟩ base.keys).2 = p at *
  generalize hc : (numberAll (cells gms) ⟨[], 0⟩ base.keys).1 = c at *
  have hk : c.keys = base.keys := by
    rw [h6]
    unfold DGM.keys Dict.keys
    simp [List.map_map, Function.comp_def]
  have hget : ∀ e x, Elem base e → x ∈ cells gms e → Dict.get p.dict x = some (ren p x) := by
    intro e x he hx
    obtain ⟨v, hv⟩ := h3 e he x hx
    unfold ren; rw [hv]; rfl
  refine ⟨hk, ?_, ?_, ?_⟩
  · intro e he
    have hd : Distinct c := by unfold Distinct; rw [hk]; exact hb
    unfold Elem at he
    obtain ⟨es, hes, he⟩ := List.mem_flatten.mp he
    have := at_eq hd (d := es.map fun e => (e, (cells gms e).map (ren p)))
      (by rw [h6]; exact List.mem_map.mpr ⟨es, hes, rfl⟩) (p := (e, (cells gms e).map (ren p)))
      (List.mem_map.mpr ⟨e, he, rfl⟩)
    exact this
  · intro e e' x y he he' hx hy hxy
    have := hget e x he hx
    rw [hxy] at this
    exact h1.inj x y _ this (hget e' y he' hy)
  · intro v
    constructor
    · rintro ⟨e, x, he, hx, rfl⟩
      exact h1.lt x _ (hget e x he hx)
    · intro hv
      obtain ⟨k, hk⟩ := h1.onto v hv
      rcases h4 k v hk with ⟨e, he, hx⟩ | hh
      · exact ⟨e, k, he, hx, by unfold ren; rw [hk]; rfl⟩
      · simp [Dict.get] at hh

theorem keysOK_iff {g h : DGM} : keysOK g h = true ↔ g.length = h.length ∧
    ∀ (r : ℕ) (a b : List ℕ), g.keys[r]? = some a → h.keys[r]? = some b → ∀ e, e ∈ a ↔ e ∈ b := by
  unfold keysOK
  simp only [Bool.and_eq_true, decide_eq_true_eq, List.all_eq_true]
  refine and_congr Iff.rfl ?_
  constructor
  · intro hh r a b ha hb e
    have hm : (a, b) ∈ g.keys.zip h.keys := List.mem_of_getElem? (i := r) (by
      rw [List.getElem?_zip_eq_some]; exact ⟨ha, hb⟩)
    obtain ⟨h1, h2⟩ := hh _ hm
    exact ⟨h1 e, h2 e⟩
  · rintro hh ⟨a, b⟩ hq
    obtain ⟨r, hr⟩ := List.mem_iff_getElem?.mp hq
    rw [List.getElem?_zip_eq_some] at hr
    exact ⟨fun e he => (hh r a b hr.1 hr.2 e).mp he, fun e he => (hh r a b hr.1 hr.2 e).mpr he⟩

theorem keys_length (g : DGM) : g.keys.length = g.length := by simp [DGM.keys]

theorem keysOK_symm {g h : DGM} (hh : keysOK g h = true) : keysOK h g = true := by
  rw [keysOK_iff] at *
  exact ⟨hh.1.symm, fun r a b ha hb e => (hh.2 r b a hb ha e).symm⟩

theorem keysOK_trans {g h k : DGM} (h1 : keysOK g h = true) (h2 : keysOK h k = true) : keysOK g k = true := by
  rw [keysOK_iff] at *
  refine ⟨h1.1.trans h2.1, ?_⟩
  intro r a b ha hb e
  have hr : r < h.keys.length := by
    have := (List.getElem?_eq_some_iff.mp ha).1
    rw [keys_length] at *
    omega
  have hm := List.getElem?_eq_getElem hr
  exact (h1.2 r a _ ha hm e).trans (h2.2 r _ b hm hb e)

theorem keysOK_of_keys {g h : DGM} (hk : g.keys = h.keys) : keysOK g h = true := by
  rw [keysOK_iff]
  refine ⟨by rw [← keys_length g, ← keys_length h, hk], ?_⟩
  intro r a b ha hb e
  rw [hk, hb] at ha
  simp only [Option.some.injEq] at ha
  rw [ha]

theorem keysOK_elem {g h : DGM} (hh : keysOK g h = true) (e : ℕ) : Elem g e ↔ Elem h e := by
  have key : ∀ {g h : DGM}, keysOK g h = true → Elem g e → Elem h e := by
    intro g h hh he
    rw [keysOK_iff] at hh
    unfold Elem at *
    obtain ⟨a, ha, he⟩ := List.mem_flatten.mp he
    obtain ⟨r, hr⟩ := List.mem_iff_getElem?.mp ha
    have hlt : r < h.keys.length := by
      have := (List.getElem?_eq_some_iff.mp hr).1
      rw [keys_length] at *
      omega
    exact List.mem_flatten.mpr ⟨_, List.getElem_mem hlt,
      (hh.2 r a _ hr (List.getElem?_eq_getElem hlt) e).mp he⟩
  exact ⟨key hh, key (keysOK_symm hh)⟩

/-- What a successful chaining means. -/
theorem chain_some {gms : List DGM} {c : DGM} (h : chain gms = some c) :
    ∃ base rest, gms = base :: rest ∧ rest ≠ [] ∧ (∀ g ∈ gms, keysOK base g = true) ∧
      (numberAll (cells gms) ⟨[], 0⟩ base.keys).2.cur = (gms.map DGM.num).sum ∧
      c = (numberAll (cells gms) ⟨[], 0⟩ base.keys).1 := by
  match gms, h with
  | [], h => simp [chain] at h
  | [_], h => simp [chain] at h
  | g :: g' :: gs, h =>
    unfold chain at h
    simp only at h
    split_ifs at h with h1 h2
    simp only [Option.some.injEq] at h
    exact ⟨g, g' :: gs, rfl, by simp, by simpa [List.all_eq_true] using h1, h2, h.symm⟩

theorem chain_def {base : DGM} {rest : List DGM} (hr : rest ≠ [])
    (hk : ∀ g ∈ base :: rest, keysOK base g = true) :
    chain (base :: rest) =
      if (numberAll (cells (base :: rest)) ⟨[], 0⟩ base.keys).2.cur = ((base :: rest).map DGM.num).sum then
        some (numberAll (cells (base :: rest)) ⟨[], 0⟩ base.keys).1 else none := by
  match rest, hr with
  | g' :: gs, _ =>
    unfold chain
    simp only
    rw [if_pos]
    simpa [List.all_eq_true] using hk

/-- All pairs `(i, n)` with `n` below the number of dofs of matrix `i`. -/
def pairs (gms : List DGM) : List (ℕ × ℕ) :=
  gms.zipIdx.flatMap fun q => (List.range q.1.num).map fun n => (q.2, n)

theorem mem_pairs {gms : List DGM} {x : ℕ × ℕ} : x ∈ pairs gms ↔ ∃ g, gms[x.1]? = some g ∧ x.2 < g.num := by
  unfold pairs
  simp only [List.mem_flatMap, List.mem_zipIdx_iff_getElem?, List.mem_map, List.mem_range]
  constructor
  · rintro ⟨q, hq, n, hn, rfl⟩; exact ⟨q.1, hq, hn⟩
  · rintro ⟨g, hg, hx⟩; exact ⟨(g, x.1), hg, x.2, hx, rfl⟩

theorem pairs_aux : ∀ (gms : List DGM) (off : ℕ),
    ((gms.zipIdx off).flatMap fun q => (List.range q.1.num).map fun n => (q.2, n)).Nodup ∧
    ((gms.zipIdx off).flatMap fun q => (List.range q.1.num).map fun n => (q.2, n)).length = (gms.map DGM.num).sum := by
  intro gms
  induction gms with
  | nil => intro off; simp
  | cons g gs ih =>
    intro off
    obtain ⟨h1, h2⟩ := ih (off + 1)
    rw [List.zipIdx_cons, List.flatMap_cons]
    constructor
    · rw [List.nodup_append]
      refine ⟨?_, h1, ?_⟩
      · exact List.Nodup.map_on (by intro a _ b _ hab; simpa using hab) List.nodup_range
      · rintro ⟨a, b⟩ ha ⟨a', b'⟩ hb he
        simp only [List.mem_map, List.mem_range] at ha
        obtain ⟨n, _, hn⟩ := ha
        simp only [List.mem_flatMap] at hb
        obtain ⟨q, hq, hb⟩ := hb
        have := List.le_snd_of_mem_zipIdx hq
        simp only [List.mem_map, List.mem_range] at hb
        obtain ⟨m, _, hm⟩ := hb
        simp only [Prod.mk.injEq] at hn hm he
        omega
    · rw [List.length_append, h2]
      simp

/-- The number of numbers of the pool is at most the sum of the numbers of dofs, with equality exactly for
contiguous matrices. -/
theorem cur_eq_iff {gms : List DGM} {base : DGM} (hd : ∀ g ∈ gms, Distinct g)
    (hk : ∀ g ∈ gms, keysOK base g = true) :
    (numberAll (cells gms) ⟨[], 0⟩ base.keys).2.cur = (gms.map DGM.num).sum ↔
      ∀ g ∈ gms, Contiguous g.nums g.num := by
  obtain ⟨h1, _, h3, h4, _⟩ := numberAll_spec (cells gms) base.keys ⟨[], 0⟩ pinv_empty
  generalize (numberAll (cells gms) ⟨[], 0⟩ base.keys).2 = p at *
  have hkeys : ∀ x, x ∈ Dict.keys p.dict ↔ ∃ g, gms[x.1]? = some g ∧ x.2 ∈ g.nums := by
    intro x
    rw [← Dict.get_isSome, Option.isSome_iff_exists]
    constructor
    · rintro ⟨v, hv⟩
      rcases h4 x v hv with ⟨e, he, hx⟩ | hh
      · obtain ⟨g, hg, hx⟩ := mem_cells.mp hx
        have hgm := List.mem_of_getElem? hg
        exact ⟨g, hg, (mem_nums (hd g hgm)).mpr ⟨e, (keysOK_elem (hk g hgm) e).mp he, hx⟩⟩
      · simp [Dict.get] at hh
    · rintro ⟨g, hg, hx⟩
      have hgm := List.mem_of_getElem? hg
      obtain ⟨e, he, hx⟩ := (mem_nums (hd g hgm)).mp hx
      exact h3 e ((keysOK_elem (hk g hgm) e).mpr he) x (mem_cells.mpr ⟨g, hg, hx⟩)
  have hlen : (Dict.keys p.dict).length = p.cur := by rw [Dict.keys_length, h1.len]
  obtain ⟨pn, pl⟩ := pairs_aux gms 0
  have hsub : Dict.keys p.dict ⊆ pairs gms := by
    intro x hx
    obtain ⟨g, hg, hx⟩ := (hkeys x).mp hx
    exact mem_pairs.mpr ⟨g, hg, (num_le g.nums).1 _ hx⟩
  rw [← hlen, ← pl]
  change (Dict.keys p.dict).length = (pairs gms).length ↔ _
  constructor
  · intro he g hg v
    constructor
    · intro hv; exact (num_le g.nums).1 _ hv
    · intro hv
      have hperm : (Dict.keys p.dict).Perm (pairs gms) :=
        (List.subperm_of_subset h1.nodup hsub).perm_of_length_le (le_of_eq he.symm)
      obtain ⟨i, hi⟩ := List.mem_iff_getElem?.mp hg
      have : (i, v) ∈ pairs gms := mem_pairs.mpr ⟨g, hi, hv⟩
      obtain ⟨g', hg', hx⟩ := (hkeys (i, v)).mp (hperm.mem_iff.mpr this)
      simp only at hg'
      rw [hi] at hg'
      simp only [Option.some.injEq] at hg'
      rw [hg']; exact hx
  · intro hc
    refine List.Perm.length_eq ?_
    refine (List.perm_ext_iff_of_nodup h1.nodup pn).mpr ?_
    intro x
    constructor
    · exact fun h => hsub h
    · intro hx
      obtain ⟨g, hg, hx⟩ := mem_pairs.mp hx
      exact (hkeys x).mpr ⟨g, hg, (hc g (List.mem_of_getElem? hg) _).mpr hx⟩

/-! ### Nested chains -/

/-- The cells of matrices numbered from `off` on. -/
def cellsFrom (off : ℕ) (gms : List DGM) (e : ℕ) : List (ℕ × ℕ) :=
  (gms.zipIdx off).flatMap fun q => (q.1.at e).map fun n => (q.2, n)

theorem cellsFrom_append (off : ℕ) (a b : List DGM) (e : ℕ) :
    cellsFrom off (a ++ b) e = cellsFrom off a e ++ cellsFrom (off + a.length) b e := by
  unfold cellsFrom
  rw [List.zipIdx_append, List.flatMap_append]

theorem cellsFrom_shift (off k : ℕ) (a : List DGM) (e : ℕ) :
    cellsFrom (off + k) a e = (cellsFrom off a e).map fun x => (x.1 + k, x.2) := by
  unfold cellsFrom
  induction a generalizing off with
  | nil => rfl
  | cons g a ih =>
    rw [List.zipIdx_cons, List.zipIdx_cons, List.flatMap_cons, List.flatMap_cons, List.map_append, List.map_map]
    have := ih (off + 1)
    rw [show off + 1 + k = off + k + 1 by omega] at this
    rw [this]
    rfl

theorem mem_cellsFrom {off : ℕ} {a : List DGM} {e : ℕ} {x : ℕ × ℕ} (h : x ∈ cellsFrom off a e) :
    off ≤ x.1 ∧ x.1 < off + a.length := by
  unfold cellsFrom at h
  obtain ⟨q, hq, hx⟩ := List.mem_flatMap.mp h
  obtain ⟨n, _, rfl⟩ := List.mem_map.mp hx
  have h1 := List.le_snd_of_mem_zipIdx hq
  have h2 := List.snd_lt_add_of_mem_zipIdx hq
  exact ⟨h1, h2⟩

/-- Chaining a chain is chaining flat. -/
theorem nested_aux {pre gs post : List DGM} {c : DGM} (hd : ∀ g ∈ gs, Distinct g) (hc : chain gs = some c)
    (hne : pre ++ post ≠ []) : chain (pre ++ c :: post) = chain (pre ++ gs ++ post) := by
  obtain ⟨g0, rest, hgs, hrest, hkg, hcur, hcdef⟩ := chain_some hc
  have hch := numberAll_chained gs g0 (hd g0 (by simp [hgs]))
  rw [← hcdef] at hch
  generalize hrn : ren (numberAll (cells gs) ⟨[], 0⟩ g0.keys).2 = rn at hch
  rw [hcur] at hch
  have hcd : Distinct c := by unfold Distinct; rw [hch.keys]; exact hd g0 (by simp [hgs])
  have hce : ∀ e, Elem c e ↔ Elem g0 e := fun e => keysOK_elem (keysOK_of_keys hch.keys) e
  have hnum : c.num = (gs.map DGM.num).sum := by
    apply num_eq
    intro v
    rw [mem_nums hcd, ← hch.onto v]
    constructor
    · rintro ⟨e, he, hv⟩
      rw [hce] at he
      rw [hch.row e he] at hv
      obtain ⟨x, hx, hv⟩ := List.mem_map.mp hv
      exact ⟨e, x, he, hx, hv⟩
    · rintro ⟨e, x, he, hx, rfl⟩
      exact ⟨e, (hce e).mpr he, by rw [hch.row e he]; exact List.mem_map.mpr ⟨x, hx, rfl⟩⟩
  -- the bases
  obtain ⟨b1, r1, e1, b2, r2, e2, hb⟩ : ∃ b1 r1, pre ++ c :: post = b1 :: r1 ∧ ∃ b2 r2,
      pre ++ gs ++ post = b2 :: r2 ∧ b1.keys = b2.keys := by
    cases pre with
    | nil => exact ⟨c, post, rfl, g0, rest ++ post, by simp [hgs], hch.keys⟩
    | cons p pre => exact ⟨p, pre ++ c :: post, rfl, p, pre ++ gs ++ post, by simp, rfl⟩
  have hr1 : r1 ≠ [] := by
    rintro rfl
    have := congrArg List.length e1
    simp at this
    apply hne
    simp [List.length_eq_zero_iff.mp (show pre.length = 0 by omega), List.length_eq_zero_iff.mp (show post.length = 0 by omega)]
  have hr2 : r2 ≠ [] := by
    rintro rfl
    have := congrArg List.length e2
    simp [hgs] at this
    have : 0 < rest.length := List.length_pos_of_ne_nil hrest
    omega
  have hkc : keysOK g0 c = true := keysOK_of_keys hch.keys.symm
  have hbb : keysOK b2 b1 = true := keysOK_of_keys hb.symm
  have hkk : (∀ g ∈ b1 :: r1, keysOK b1 g = true) ↔ ∀ g ∈ b2 :: r2, keysOK b2 g = true := by
    rw [← e1, ← e2]
    constructor
    · intro h g hg
      simp only [List.mem_append] at hg
      refine keysOK_trans hbb ?_
      rcases hg with (hg | hg) | hg
      · exact h g (by simp [hg])
      · exact keysOK_trans (h c (by simp)) (keysOK_trans (keysOK_symm hkc) (hkg g hg))
      · exact h g (by simp [hg])
    · intro h g hg
      simp only [List.mem_append, List.mem_cons] at hg
      refine keysOK_trans (keysOK_symm hbb) ?_
      rcases hg with hg | rfl | hg
      · exact h g (by simp [hg])
      · exact keysOK_trans (h g0 (by simp [hgs])) hkc
      · exact h g (by simp [hg])
  by_cases hok : ∀ g ∈ b1 :: r1, keysOK b1 g = true
  case neg =>
    have n1 : chain (pre ++ c :: post) = none := by
      cases hx : chain (pre ++ c :: post) with
      | none => rfl
      | some y =>
        obtain ⟨b, r, hbr, _, hk, _⟩ := chain_some hx
        rw [e1] at hbr hk
        simp only [List.cons.injEq] at hbr
        exact absurd (by rw [hbr.1]; rw [hbr.1] at hk; exact hk) hok
    have n2 : chain (pre ++ gs ++ post) = none := by
      cases hx : chain (pre ++ gs ++ post) with
      | none => rfl
      | some y =>
        obtain ⟨b, r, hbr, _, hk, _⟩ := chain_some hx
        rw [e2] at hbr hk
        simp only [List.cons.injEq] at hbr
        exact absurd (hkk.mpr (by rw [hbr.1]; rw [hbr.1] at hk; exact hk)) hok
    rw [n1, n2]
  case pos =>
    have hok2 := hkk.mp hok
    rw [e1, e2, chain_def hr1 hok, chain_def hr2 hok2, ← e1, ← e2, hb]
    -- the renaming
    let f : ℕ × ℕ → ℕ × ℕ := fun x =>
      if x.1 < pre.length then x
      else if x.1 < pre.length + gs.length then (pre.length, rn (x.1 - pre.length, x.2))
      else (x.1 - gs.length + 1, x.2)
    let U : ℕ × ℕ → Prop := fun x => ∃ e, Elem b2 e ∧ x ∈ cells (pre ++ gs ++ post) e
    have hel : ∀ e, Elem b2 e → Elem g0 e := fun e he =>
      (keysOK_elem (hok2 g0 (by rw [← e2]; simp [hgs])) e).mp he
    have split : ∀ e, cells (pre ++ gs ++ post) e =
        cellsFrom 0 pre e ++ (cellsFrom 0 gs e).map (fun x => (x.1 + pre.length, x.2)) ++
          (cellsFrom (pre.length + gs.length) post e) := by
      intro e
      change cellsFrom 0 (pre ++ gs ++ post) e = _
      rw [cellsFrom_append, cellsFrom_append, ← cellsFrom_shift]
      simp
    have hcell : ∀ e, Elem b2 e → cells (pre ++ c :: post) e = (cells (pre ++ gs ++ post) e).map f := by
      intro e he
      rw [split e]
      change cellsFrom 0 (pre ++ c :: post) e = _
      rw [cellsFrom_append, List.map_append, List.map_append, List.append_assoc]
      congr 1
      · symm
        rw [List.map_congr_left (g := id)]
        · simp
        · intro x hx
          have := (mem_cellsFrom hx).2
          simp only [f]
          rw [if_pos (by omega)]; rfl
      · rw [show c :: post = [c] ++ post from rfl, cellsFrom_append]
        congr 1
        · have : cellsFrom (0 + pre.length) [c] e = (c.at e).map fun n => (pre.length, n) := by
            simp [cellsFrom]
          rw [this, hch.row e (hel e he), List.map_map, List.map_map]
          apply List.map_congr_left
          intro x hx
          have := (mem_cellsFrom (off := 0) (a := gs) (e := e) hx).2
          simp only [Function.comp, f]
          rw [if_neg (by omega), if_pos (by omega)]
          congr 2
          simp
        · rw [show 0 + pre.length + [c].length = (pre.length + 1) by simp]
          rw [Nat.add_comm pre.length gs.length, ← Nat.zero_add (gs.length + pre.length), cellsFrom_shift 0 _ post e,
            ← Nat.zero_add (pre.length + 1), cellsFrom_shift 0 _ post e, List.map_map]
          apply List.map_congr_left
          intro x _
          simp only [Function.comp, f]
          rw [if_neg (by omega), if_neg (by omega)]
          congr 1
          omega
    have hmid : ∀ x, U x → pre.length ≤ x.1 → x.1 < pre.length + gs.length →
        ∃ e, Elem g0 e ∧ (x.1 - pre.length, x.2) ∈ cells gs e := by
      rintro x ⟨e, he, hx⟩ h1 h2
      refine ⟨e, hel e he, ?_⟩
      obtain ⟨g, hg, hm⟩ := mem_cells.mp hx
      refine mem_cells.mpr ⟨g, ?_, hm⟩
      rw [List.append_assoc, List.getElem?_append_right h1, List.getElem?_append_left (by omega)] at hg
      exact hg
    have hf : ∀ k k', U k → U k' → f k = f k' → k = k' := by
      rintro ⟨i, n⟩ ⟨i', n'⟩ hk hk' hff
      simp only [f] at hff
      split_ifs at hff with a1 a2 a3 a4 a5 a6 a7 a8 <;> simp only [Prod.mk.injEq] at hff ⊢
      · omega
      · omega
      · omega
      · omega
      · obtain ⟨e, he, hx⟩ := hmid _ hk (by simpa using a1) a4
        obtain ⟨e', he', hx'⟩ := hmid _ hk' (by simpa using a5) a6
        have := hch.inj e e' _ _ he he' hx hx' hff.2
        simp only [Prod.mk.injEq] at this
        omega
      · omega
      · omega
      · omega
      · omega
    obtain ⟨hrow, hrel⟩ := numberAll_rel hf (cell := cells (pre ++ gs ++ post)) (cell' := cells (pre ++ c :: post))
      b2.keys ⟨[], 0⟩ ⟨[], 0⟩ (fun e he => ⟨hcell e he, fun k hk => ⟨e, he, hk⟩⟩) ⟨rfl, fun _ _ => rfl⟩
    have hsum : ((pre ++ c :: post).map DGM.num).sum = ((pre ++ gs ++ post).map DGM.num).sum := by
      simp [hnum]
    rw [hrow, ← hrel.cur, hsum]

end Phyem.Chaining
