import Verif.Dds.OpsSpec
import Mathlib.Data.List.GetD
import Mathlib.Data.List.Nodup
import Mathlib.Algebra.BigOperators.Intervals
import Mathlib.Tactic.Ring
import Mathlib.Tactic.Linarith

/-!
# Computing with data at points
-/

namespace Phyem.Dds

section
variable {K : Type} {R : List ℕ} {S : ℕ → List ℕ}

lemma mem_lookup {l : List (ℕ × Arr K)} (hn : (l.map Prod.fst).Nodup) {r : ℕ} {a : Arr K} :
    l.lookup r = some a ↔ (r, a) ∈ l := by
  induction l with
  | nil => simp
  | cons p l ih =>
    obtain ⟨k, b⟩ := p
    rw [List.map_cons, List.nodup_cons] at hn
    rw [List.lookup_cons]
    by_cases h : r = k
    · subst h
      simp only [BEq.rfl, Option.some.injEq, List.mem_cons, Prod.mk.injEq, true_and]
      constructor
      · rintro rfl; exact Or.inl rfl
      · rintro (rfl | hm)
        · rfl
        · exact absurd (List.mem_map_of_mem hm) hn.1
    · have e : (r == k) = false := by simpa using h
      rw [e]
      simp only [List.mem_cons, Prod.mk.injEq, h, false_and, false_or]
      exact ih hn.2

lemma Full.lookup {d : Dict K} (h : Full R S d) {r : ℕ} (hr : r ∈ R) :
    ∃ a, d.lookup r = some a ∧ a.shape = S r ∧ a.data.length = (S r).prod := by
  obtain ⟨p, hp, rfl⟩ := List.mem_map.1 ((h.keys r).2 hr)
  exact ⟨p.2, (mem_lookup h.nodup).2 hp, h.shape p hp⟩

lemma Full.lookup_none {d : Dict K} (h : Full R S d) {r : ℕ} (hr : r ∉ R) : d.lookup r = none := by
  cases hl : d.lookup r with
  | none => rfl
  | some a => exact absurd ((h.keys r).1 (List.mem_map_of_mem ((mem_lookup h.nodup).1 hl))) hr

lemma mapM_some_iff {α β : Type} {f : α → Option β} {l : List α} {l' : List β} :
    l.mapM f = some l' ↔ List.Forall₂ (fun x y => f x = some y) l l' := by
  induction l generalizing l' with
  | nil => simp [eq_comm]
  | cons x l ih =>
    rw [List.mapM_cons]
    constructor
    · intro h
      simp only [bind, Option.bind_eq_some_iff, pure, Option.some.injEq] at h
      obtain ⟨y, hy, t, ht, rfl⟩ := h
      exact List.Forall₂.cons hy (ih.1 ht)
    · intro h
      cases h with
      | cons hy ht =>
        simp only [bind, Option.bind_eq_some_iff, pure, Option.some.injEq]
        exact ⟨_, hy, _, ih.2 ht, rfl⟩

lemma mapM_exists {α β : Type} {f : α → Option β} {l : List α} (h : ∀ x ∈ l, ∃ y, f x = some y) :
    ∃ l', l.mapM f = some l' := by
  induction l with
  | nil => exact ⟨[], rfl⟩
  | cons x l ih =>
    obtain ⟨y, hy⟩ := h x (by simp)
    obtain ⟨t, ht⟩ := ih fun z hz => h z (by simp [hz])
    exact ⟨y :: t, mapM_some_iff.2 (List.Forall₂.cons hy (mapM_some_iff.1 ht))⟩

lemma mapM_get {α β : Type} {f : α → Option β} {l : List α} {l' : List β} (h : l.mapM f = some l') :
    l'.length = l.length ∧ ∀ c a b, c < l.length → f (l.getD c a) = some (l'.getD c b) := by
  have h' := mapM_some_iff.1 h
  refine ⟨h'.length_eq.symm, fun c a b hc => ?_⟩
  have e1 : l.getD c a = l[c] := List.getD_eq_getElem _ _ hc
  have hc' : c < l'.length := by rw [← h'.length_eq]; exact hc
  have e2 : l'.getD c b = l'[c] := List.getD_eq_getElem _ _ hc'
  rw [e1, e2]
  exact h'.get hc hc'

lemma along_good {d : Dict K} (h : Full R S d) {g : ℕ → Option (Arr K)}
    (hg : ∀ r ∈ R, ∃ z, g r = some z ∧ z.shape = S r ∧ z.data.length = (S r).prod) :
    ∃ o, along d g = some o ∧ Full R S o ∧ ∀ r ∈ R, o.lookup r = g r := by
  unfold along
  have hk : ∀ p ∈ d, p.1 ∈ R := fun p hp => (h.keys _).1 (List.mem_map_of_mem hp)
  obtain ⟨o, ho⟩ := mapM_exists (f := fun p : ℕ × Arr K => (g p.1).map fun z => (p.1, z)) (l := d) (by
    intro p hp
    obtain ⟨z, hz, -⟩ := hg p.1 (hk p hp)
    exact ⟨(p.1, z), by rw [hz]; rfl⟩)
  have hF := mapM_some_iff.1 ho
  have hkeys : o.map Prod.fst = d.map Prod.fst := by
    have : ∀ {l : Dict K} {l' : Dict K},
        List.Forall₂ (fun p q => (g p.1).map (fun z => (p.1, z)) = some q) l l' →
        l'.map Prod.fst = l.map Prod.fst := by
      intro l l' hl
      induction hl with
      | nil => rfl
      | cons hx _ ih =>
        rw [Option.map_eq_some_iff] at hx
        obtain ⟨z, _, rfl⟩ := hx
        simp [ih]
    exact this hF
  have hmem : ∀ q ∈ o, g q.1 = some q.2 := by
    have : ∀ {l : Dict K} {l' : Dict K},
        List.Forall₂ (fun p q => (g p.1).map (fun z => (p.1, z)) = some q) l l' →
        ∀ q ∈ l', g q.1 = some q.2 := by
      intro l l' hl
      induction hl with
      | nil => simp
      | cons hx _ ih =>
        rw [Option.map_eq_some_iff] at hx
        obtain ⟨z, hz, rfl⟩ := hx
        intro q hq
        rcases List.mem_cons.1 hq with rfl | hq
        · exact hz
        · exact ih q hq
    exact this hF
  have hn : (o.map Prod.fst).Nodup := by rw [hkeys]; exact h.nodup
  refine ⟨o, ho, ⟨hn, fun r => by rw [hkeys]; exact h.keys r, fun q hq => ?_⟩, fun r hr => ?_⟩
  · have hq' : q.1 ∈ R := by rw [← h.keys, ← hkeys]; exact List.mem_map_of_mem hq
    obtain ⟨z, hz, h1, h2⟩ := hg q.1 hq'
    rw [hmem q hq] at hz
    obtain rfl : q.2 = z := by simpa using hz
    exact ⟨h1, h2⟩
  · have : r ∈ o.map Prod.fst := by rw [hkeys]; exact (h.keys r).2 hr
    obtain ⟨q, hq, rfl⟩ := List.mem_map.1 this
    rw [(mem_lookup hn).2 hq, hmem q hq]

lemma sameKeys_iff {R' : List ℕ} {S' : ℕ → List ℕ} {d e : Dict K} (h : Full R S d) (h' : Full R' S' e) :
    sameKeys d e = true ↔ ∀ r, r ∈ R ↔ r ∈ R' := by
  unfold sameKeys
  simp only [Bool.and_eq_true, List.all_eq_true]
  constructor
  · rintro ⟨h1, h2⟩ r
    constructor
    · intro hr
      obtain ⟨p, hp, rfl⟩ := List.mem_map.1 ((h.keys r).2 hr)
      by_contra hn
      have := h1 p hp
      rw [h'.lookup_none hn] at this
      cases this
    · intro hr
      obtain ⟨p, hp, rfl⟩ := List.mem_map.1 ((h'.keys r).2 hr)
      by_contra hn
      have := h2 p hp
      rw [h.lookup_none hn] at this
      cases this
  · intro hR
    constructor
    · intro p hp
      obtain ⟨a, ha, -⟩ := h'.lookup ((hR p.1).1 ((h.keys _).1 (List.mem_map_of_mem hp)))
      rw [ha]; rfl
    · intro p hp
      obtain ⟨a, ha, -⟩ := h.lookup ((hR p.1).2 ((h'.keys _).1 (List.mem_map_of_mem hp)))
      rw [ha]; rfl

lemma make_good {coo val : List (Dict K)} (hc : coo ≠ []) (hv : val ≠ []) (h : ∀ d ∈ coo ++ val, Full R S d) :
    make coo val = some ⟨coo, val⟩ := by
  unfold make
  cases coo with
  | nil => exact absurd rfl hc
  | cons x cs =>
    dsimp only
    have hx : Full R S x := h x (by simp)
    have hsh : ∀ d ∈ x :: cs ++ val, ∀ p ∈ x, shapeIs d p.1 p.2.shape = true := by
      intro d hd p hp
      obtain ⟨a, ha, h1, -⟩ := (h d hd).lookup ((hx.keys _).1 (List.mem_map_of_mem hp))
      unfold shapeIs
      rw [ha]
      simp [h1, (hx.shape p hp).1]
    rw [if_pos]
    · cases val with
      | nil => exact absurd rfl hv
      | cons _ _ => rfl
    · simp only [Bool.and_eq_true, List.all_eq_true]
      refine ⟨fun d hd => (sameKeys_iff (h d (by simp [hd])) hx).2 fun _ => Iff.rfl, fun p hp => ⟨fun d hd => ?_, fun d hd => ?_⟩⟩
      · exact hsh d (by simp [hd]) p hp
      · exact hsh d (by simp [hd]) p hp

lemma getD_mem {α : Type} {l : List α} {c : ℕ} {a : α} (h : c < l.length) : l.getD c a ∈ l := by
  have e1 : l.getD c a = l[c] := List.getD_eq_getElem _ _ h
  rw [e1]; exact List.getElem_mem h

lemma getD_zip {α β : Type} {l : List α} {m : List β} {c : ℕ} {a : α} {b : β} (h : c < l.length) (h' : c < m.length) :
    (l.zip m).getD c (a, b) = (l.getD c a, m.getD c b) := by
  have h2 : c < (l.zip m).length := by rw [List.length_zip]; omega
  have e0 : (l.zip m).getD c (a, b) = (l.zip m)[c] := List.getD_eq_getElem _ _ h2
  have e1 : l.getD c a = l[c] := List.getD_eq_getElem _ _ h
  have e2 : m.getD c b = m[c] := List.getD_eq_getElem _ _ h'
  rw [e0, e1, e2, List.getElem_zip]

lemma zip_good {op : K → K → K} {x y : Arr K} {s : List ℕ} (h1 : x.shape = s) (h2 : x.data.length = s.prod)
    (h3 : y.shape = s) (h4 : y.data.length = s.prod) :
    ∃ z, x.zip op y = some z ∧ z.shape = s ∧ z.data.length = s.prod ∧ z.data = List.zipWith op x.data y.data := by
  refine ⟨⟨x.shape, List.zipWith op x.data y.data⟩, ?_, h1, ?_, rfl⟩
  · unfold Arr.zip
    rw [if_pos (by rw [h1, h3])]
  · rw [List.length_zipWith, h2, h4, min_self]

lemma zipWith_getD [Zero K] {op : K → K → K} {x y : List K} {p : ℕ} (hx : p < x.length) (hy : p < y.length) :
    (List.zipWith op x y).getD p 0 = op (x.getD p 0) (y.getD p 0) := by
  have h2 : p < (List.zipWith op x y).length := by rw [List.length_zipWith]; omega
  have e0 : (List.zipWith op x y).getD p 0 = (List.zipWith op x y)[p] := List.getD_eq_getElem _ _ h2
  have e1 : x.getD p 0 = x[p] := List.getD_eq_getElem _ _ hx
  have e2 : y.getD p 0 = y[p] := List.getD_eq_getElem _ _ hy
  rw [e0, e1, e2, List.getElem_zipWith]

lemma entry_of [Zero K] {d : Dict K} {r p : ℕ} {a : Arr K} (h : d.lookup r = some a) : entry d r p = a.data.getD p 0 := by
  unfold entry; rw [h]; rfl

/-- An operation on all numbers: the result is on the same points and each number is changed. -/
theorem unary_is [Zero K] (φ : K → K) {f : Fld K} (h : Good R S f) :
    ∃ out, unary φ f = some out ∧ Is R S f out f.val.length fun c r p => φ (f.value c r p) := by
  have hval : ∀ d ∈ f.val, Full R S d := fun d hd => h.full d (by simp [hd])
  have key : ∀ d ∈ f.val, ∃ o, along d (fun r => (d.lookup r).map (Arr.map φ)) = some o ∧ Full R S o ∧
      ∀ r ∈ R, o.lookup r = (d.lookup r).map (Arr.map φ) := by
    intro d hd
    apply along_good (hval d hd)
    intro r hr
    obtain ⟨a, ha, h1, h2⟩ := (hval d hd).lookup hr
    exact ⟨a.map φ, by rw [ha]; rfl, h1, by simp [Arr.map, h2]⟩
  obtain ⟨v, hv⟩ := mapM_exists (l := f.val) (f := fun d : Dict K => along d fun r => (d.lookup r).map (Arr.map φ))
    fun d hd => ⟨_, (key d hd).choose_spec.1⟩
  obtain ⟨hlen, hget⟩ := mapM_get hv
  have hfull : ∀ c < f.val.length, Full R S (v.getD c []) ∧
      ∀ r ∈ R, (v.getD c []).lookup r = ((f.val.getD c []).lookup r).map (Arr.map φ) := by
    intro c hc
    obtain ⟨o, h1, h2, h3⟩ := key _ (getD_mem (a := []) hc)
    have := hget c [] [] hc
    rw [h1] at this
    obtain rfl : o = v.getD c [] := by simpa using this
    exact ⟨h2, h3⟩
  have hvne : v ≠ [] := by
    intro e
    rw [e] at hlen
    exact h.val (List.length_eq_zero_iff.1 hlen.symm)
  have hall : ∀ d ∈ f.coo ++ v, Full R S d := by
    intro d hd
    rcases List.mem_append.1 hd with hd | hd
    · exact h.full d (by simp [hd])
    · obtain ⟨c, hc, rfl⟩ := List.getElem_of_mem hd
      have := (hfull c (by omega)).1
      have e1 : v.getD c [] = v[c] := List.getD_eq_getElem _ _ hc
      rwa [e1] at this
  refine ⟨⟨f.coo, v⟩, ?_, ⟨h.coo, hvne, hall⟩, rfl, hlen, fun c hc r hr p hp => ?_⟩
  · unfold unary
    rw [hv]
    exact make_good h.coo hvne hall
  · have hf := getD_mem (a := []) hc
    obtain ⟨a, ha, h1, h2⟩ := (hval _ hf).lookup hr
    have := (hfull c hc).2 r hr
    rw [ha] at this
    unfold Fld.value
    dsimp only
    rw [entry_of ha, entry_of this]
    simp only [Arr.map]
    have e1 : (a.data.map φ).getD p 0 = (a.data.map φ)[p]'(by simp [h2, hp]) := List.getD_eq_getElem _ _ _
    have e2 : a.data.getD p 0 = a.data[p]'(by rw [h2]; exact hp) := List.getD_eq_getElem _ _ _
    rw [e1, e2, List.getElem_map]

end

section
variable {K : Type} [Field K] [LinearOrder K] {R R' : List ℕ} {S S' : ℕ → List ℕ}

lemma allclose_iff {x y : Arr K} (hx : x.data.length = x.shape.prod) (hy : y.data.length = y.shape.prod) :
    allclose x y = true ↔ x.shape = y.shape ∧ ∀ p < x.shape.prod,
      |x.data.getD p 0 - y.data.getD p 0| ≤ 1 / 100000000 + 1 / 100000 * |y.data.getD p 0| := by
  unfold allclose
  rw [decide_eq_true_eq]
  refine and_congr_right fun hs => ?_
  rw [List.all_eq_true]
  have hlen : y.data.length = x.data.length := by rw [hx, hy, hs]
  constructor
  · intro h p hp
    have hp1 : p < x.data.length := by omega
    have e1 : x.data.getD p 0 = x.data[p] := List.getD_eq_getElem _ _ hp1
    have e2 : y.data.getD p 0 = y.data[p]'(by omega) := List.getD_eq_getElem _ _ _
    have := h _ (List.getElem_mem (l := List.zipWith (fun x y =>
      decide (|x - y| ≤ 1 / 100000000 + 1 / 100000 * |y|)) x.data y.data) (n := p)
      (by rw [List.length_zipWith]; omega))
    rw [List.getElem_zipWith, id, decide_eq_true_eq] at this
    rw [e1, e2]; exact this
  · intro h b hb
    obtain ⟨p, hp, rfl⟩ := List.getElem_of_mem hb
    rw [List.length_zipWith] at hp
    have hp1 : p < x.data.length := by omega
    have := h p (by omega)
    have e1 : x.data.getD p 0 = x.data[p] := List.getD_eq_getElem _ _ hp1
    have e2 : y.data.getD p 0 = y.data[p]'(by omega) := List.getD_eq_getElem _ _ _
    rw [e1, e2] at this
    rw [List.getElem_zipWith, id, decide_eq_true_eq]
    exact this

/-- The coordinates are compared point by point. -/
theorem checkCoo_iff {f g : Fld K} (h : Good R S f) (h' : Good R' S' g) :
    checkCoo f g = true ↔ SamePoints R R' S S' f g := by
  have hf0 : Full R S (f.coo.headD []) := by
    cases hc : f.coo with
    | nil => exact absurd hc h.coo
    | cons x cs => exact h.full x (by simp [hc])
  have hg0 : Full R' S' (g.coo.headD []) := by
    cases hc : g.coo with
    | nil => exact absurd hc h'.coo
    | cons x cs => exact h'.full x (by simp [hc])
  unfold checkCoo SamePoints
  by_cases hl : f.coo.length = g.coo.length
  swap
  · rw [if_pos hl]; simp [hl]
  have e1 : ¬ (f.coo.length ≠ g.coo.length) := by simp [hl]
  rw [if_neg e1]
  by_cases hk : sameKeys (f.coo.headD []) (g.coo.headD []) = true
  swap
  · rw [if_pos hk]
    simp only [Bool.false_eq_true, false_iff]
    rintro ⟨-, hR, -⟩
    exact hk ((sameKeys_iff hf0 hg0).2 hR)
  have e2 : ¬ ¬ (sameKeys (f.coo.headD []) (g.coo.headD []) = true) := by simpa using hk
  rw [if_neg e2]
  have hR := (sameKeys_iff hf0 hg0).1 hk
  have step : ∀ i < f.coo.length, ∀ r ∈ R, ((match (f.coo.getD i []).lookup r, (g.coo.getD i []).lookup r with
      | some x, some y => allclose x y
      | _, _ => false) = true ↔ S r = S' r ∧ ∀ p < (S r).prod,
        |f.point i r p - g.point i r p| ≤ 1 / 100000000 + 1 / 100000 * |g.point i r p|) := by
    intro i hi r hr
    obtain ⟨a, ha, h1, h2⟩ := (h.full _ (List.mem_append_left _ (getD_mem (a := []) hi))).lookup hr
    obtain ⟨b, hb, h3, h4⟩ :=
      (h'.full _ (List.mem_append_left _ (getD_mem (a := []) (hl ▸ hi)))).lookup ((hR r).1 hr)
    rw [ha, hb]
    dsimp only
    rw [allclose_iff (by rw [h1, h2]) (by rw [h3, h4]), h1, h3]
    unfold Fld.point
    simp only [entry_of ha, entry_of hb]
  rw [List.all_eq_true]
  have hpos : 0 < f.coo.length := List.length_pos_iff.2 h.coo
  constructor
  · intro hall
    have hget : ∀ i < f.coo.length, ∀ r ∈ R, S r = S' r ∧ ∀ p < (S r).prod,
        |f.point i r p - g.point i r p| ≤ 1 / 100000000 + 1 / 100000 * |g.point i r p| := by
      intro i hi r hr
      rw [← step i hi r hr]
      have hz : i < (f.coo.zip g.coo).length := by rw [List.length_zip]; omega
      have := hall _ (getD_mem (a := ([], [])) hz)
      rw [getD_zip hi (hl ▸ hi), List.all_eq_true] at this
      obtain ⟨q, hq, rfl⟩ := List.mem_map.1 ((hf0.keys r).2 hr)
      exact this q hq
    exact ⟨hl, hR, fun r hr => (hget 0 hpos r hr).1, fun i hi r hr => (hget i hi r hr).2⟩
  · rintro ⟨-, -, hS, hp⟩ pq hpq
    obtain ⟨i, hi, rfl⟩ := List.getElem_of_mem hpq
    have hi' : i < f.coo.length := by rw [List.length_zip] at hi; omega
    have e3 : (f.coo.zip g.coo)[i] = (f.coo.zip g.coo).getD i ([], []) := (List.getD_eq_getElem _ _ hi).symm
    rw [e3, getD_zip hi' (hl ▸ hi'), List.all_eq_true]
    intro q hq
    have hqR : q.1 ∈ R := (hf0.keys _).1 (List.mem_map_of_mem hq)
    exact (step i hi' q.1 hqR).2 ⟨hS _ hqR, hp i hi' _ hqR⟩

lemma Good.same {g : Fld K} (h : Good R' S' g) (hR : ∀ r, r ∈ R ↔ r ∈ R') (hS : ∀ r ∈ R, S r = S' r) : Good R S g := by
  refine ⟨h.coo, h.val, fun d hd => ?_⟩
  have := h.full d hd
  refine ⟨this.nodup, fun r => (this.keys r).trans (hR r).symm, fun p hp => ?_⟩
  have hpR : p.1 ∈ R := (hR _).2 ((this.keys _).1 (List.mem_map_of_mem hp))
  rw [hS _ hpR]
  exact this.shape p hp

/-- Adding and subtracting: it is done exactly if the points are nearly the same and there are equally many components;
the result is on the points of the first one, and is what the numbers say. -/
theorem binary_is (op : K → K → K) {f g : Fld K} (h : Good R S f) (h' : Good R' S' g) :
    ((binary op f g).isSome ↔ SamePoints R R' S S' f g ∧ f.val.length = g.val.length) ∧
    ∀ out, binary op f g = some out →
      Is R S f out f.val.length fun c r p => op (f.value c r p) (g.value c r p) := by
  by_cases hc : checkCoo f g = true
  swap
  · have e : binary op f g = none := by unfold binary; rw [if_neg hc]
    rw [e]
    refine ⟨⟨fun x => (by cases x), fun x => absurd ((checkCoo_iff h h').2 x.1) hc⟩, fun out x => by cases x⟩
  by_cases hl : f.val.length = g.val.length
  swap
  · have e : binary op f g = none := by unfold binary; rw [if_pos hc, if_neg hl]
    rw [e]
    refine ⟨⟨fun x => (by cases x), fun x => absurd x.2 hl⟩, fun out x => by cases x⟩
  have hsp := (checkCoo_iff h h').1 hc
  have hg := h'.same (R := R) (S := S) hsp.2.1 hsp.2.2.1
  have hfv : ∀ d ∈ f.val, Full R S d := fun d hd => h.full d (by simp [hd])
  have hgv : ∀ d ∈ g.val, Full R S d := fun d hd => hg.full d (by simp [hd])
  have hzl : (f.val.zip g.val).length = f.val.length := by rw [List.length_zip, hl, min_self]
  have key : ∀ pq ∈ f.val.zip g.val, ∃ o, along pq.1 (fun r =>
        (pq.1.lookup r).bind fun x => (pq.2.lookup r).bind fun y => x.zip op y) = some o ∧ Full R S o ∧
      ∀ r ∈ R, o.lookup r = (pq.1.lookup r).bind fun x => (pq.2.lookup r).bind fun y => x.zip op y := by
    intro pq hpq
    have hm := List.of_mem_zip (a := pq.1) (b := pq.2) hpq
    apply along_good (hfv _ hm.1)
    intro r hr
    obtain ⟨a, ha, h1, h2⟩ := (hfv _ hm.1).lookup hr
    obtain ⟨b, hb, h3, h4⟩ := (hgv _ hm.2).lookup hr
    obtain ⟨z, hz, h5, h6, -⟩ := zip_good (op := op) h1 h2 h3 h4
    exact ⟨z, by rw [ha, hb]; exact hz, h5, h6⟩
  obtain ⟨v, hv⟩ := mapM_exists (l := f.val.zip g.val) (f := fun p : Dict K × Dict K => along p.1 fun r =>
        (p.1.lookup r).bind fun x => (p.2.lookup r).bind fun y => x.zip op y)
    fun d hd => ⟨_, (key d hd).choose_spec.1⟩
  obtain ⟨hlen, hget⟩ := mapM_get hv
  rw [hzl] at hlen hget
  have hfull : ∀ c < f.val.length, Full R S (v.getD c []) ∧
      ∀ r ∈ R, (v.getD c []).lookup r = ((f.val.getD c []).lookup r).bind fun x =>
        ((g.val.getD c []).lookup r).bind fun y => x.zip op y := by
    intro c hc'
    obtain ⟨o, h1, h2, h3⟩ := key _ (getD_mem (a := ([], [])) (hzl ▸ hc'))
    have := hget c ([], []) [] hc'
    rw [h1] at this
    rw [getD_zip hc' (hl ▸ hc')] at h3
    obtain rfl : o = v.getD c [] := by simpa using this
    exact ⟨h2, h3⟩
  have hvne : v ≠ [] := by
    intro e
    rw [e] at hlen
    exact h.val (List.length_eq_zero_iff.1 hlen.symm)
  have hall : ∀ d ∈ f.coo ++ v, Full R S d := by
    intro d hd
    rcases List.mem_append.1 hd with hd | hd
    · exact h.full d (by simp [hd])
    · obtain ⟨c, hc, rfl⟩ := List.getElem_of_mem hd
      have := (hfull c (by omega)).1
      have e1 : v.getD c [] = v[c] := List.getD_eq_getElem _ _ hc
      rwa [e1] at this
  have hres : binary op f g = some ⟨f.coo, v⟩ := by
    unfold binary
    rw [if_pos hc, if_pos hl, hv]
    exact make_good h.coo hvne hall
  rw [hres]
  refine ⟨⟨fun _ => ⟨hsp, hl⟩, fun _ => rfl⟩, fun out ho => ?_⟩
  simp only [Option.some.injEq] at ho
  subst ho
  refine ⟨⟨h.coo, hvne, hall⟩, rfl, hlen, fun c hc' r hr p hp => ?_⟩
  obtain ⟨a, ha, h1, h2⟩ := (hfv _ (getD_mem (a := []) hc')).lookup hr
  obtain ⟨b, hb, h3, h4⟩ := (hgv _ (getD_mem (a := []) (hl ▸ hc'))).lookup hr
  obtain ⟨z, hz, h5, h6, h7⟩ := zip_good (op := op) h1 h2 h3 h4
  have := (hfull c hc').2 r hr
  rw [ha, hb] at this
  simp only [Option.bind_some] at this
  rw [hz] at this
  unfold Fld.value
  dsimp only
  rw [entry_of ha, entry_of hb, entry_of this, h7]
  exact zipWith_getD (by omega) (by omega)

lemma sumArr_good {s : List ℕ} : ∀ (l : List (Arr K)), l ≠ [] →
    (∀ x ∈ l, x.shape = s ∧ x.data.length = s.prod) →
    ∃ z, sumArr l = some z ∧ z.shape = s ∧ z.data.length = s.prod ∧
      ∀ p < s.prod, z.data.getD p 0 = (l.map fun x => x.data.getD p 0).sum := by
  intro l hne hl
  cases l with
  | nil => exact absurd rfl hne
  | cons x xs =>
    unfold sumArr
    have hgen : ∀ (xs : List (Arr K)) (a : Arr K), a.shape = s → a.data.length = s.prod →
        (∀ x ∈ xs, x.shape = s ∧ x.data.length = s.prod) →
        ∃ z, xs.foldlM (fun s y => s.zip (· + ·) y) a = some z ∧ z.shape = s ∧ z.data.length = s.prod ∧
          ∀ p < s.prod, z.data.getD p 0 = a.data.getD p 0 + (xs.map fun x => x.data.getD p 0).sum := by
      intro xs
      induction xs with
      | nil => intro a h1 h2 _; exact ⟨a, rfl, h1, h2, fun p _ => by simp⟩
      | cons y xs ih =>
        intro a h1 h2 h3
        obtain ⟨h4, h5⟩ := h3 y (by simp)
        obtain ⟨z, hz, h6, h7, h8⟩ := zip_good (op := (· + ·)) h1 h2 h4 h5
        obtain ⟨w, hw, h9, h10, h11⟩ := ih z h6 h7 fun x hx => h3 x (by simp [hx])
        refine ⟨w, ?_, h9, h10, fun p hp => ?_⟩
        · rw [List.foldlM_cons, hz]; exact hw
        · rw [h11 p hp, h8, zipWith_getD (by omega) (by omega)]
          simp only [List.map_cons, List.sum_cons]
          ring
    obtain ⟨h1, h2⟩ := hl x (by simp)
    have hm : x.map (0 + ·) = x := by
      unfold Arr.map
      cases x
      simp
    dsimp only
    rw [hm]
    obtain ⟨z, hz, h3, h4, h5⟩ := hgen xs x h1 h2 fun y hy => hl y (by simp [hy])
    exact ⟨z, hz, h3, h4, fun p hp => by rw [h5 p hp]; simp⟩

lemma list_sum_range (l : List K) : l.sum = ∑ c ∈ Finset.range l.length, l.getD c 0 := by
  induction l with
  | nil => simp
  | cons x l ih =>
    rw [List.length_cons, Finset.sum_range_succ', List.sum_cons, ih, add_comm]
    rfl

lemma head_mem {α : Type} {l : List α} {a : α} (h : l ≠ []) : l.headD a ∈ l := by
  cases l with
  | nil => exact absurd rfl h
  | cons x xs => simp

/-- A field with one component is made on the points of another one. -/
lemma single_is {f : Fld K} (h : Good R S f) {d : Dict K} (hd : Full R S d) {g : ℕ → Option (Arr K)}
    {v : ℕ → ℕ → K}
    (hg : ∀ r ∈ R, ∃ z, g r = some z ∧ z.shape = S r ∧ z.data.length = (S r).prod ∧
      ∀ p < (S r).prod, z.data.getD p 0 = v r p) :
    ∃ out, ((along d g).bind fun o => make f.coo [o]) = some out ∧ Is R S f out 1 fun _ r p => v r p := by
  obtain ⟨o, ho, h1, h2⟩ := along_good hd (g := g) fun r hr => by
    obtain ⟨z, hz, a, b, -⟩ := hg r hr
    exact ⟨z, hz, a, b⟩
  have hall : ∀ d ∈ f.coo ++ [o], Full R S d := by
    intro d hd
    rcases List.mem_append.1 hd with hd | hd
    · exact h.full d (by simp [hd])
    · simp only [List.mem_singleton] at hd
      subst hd; exact h1
  refine ⟨⟨f.coo, [o]⟩, ?_, ⟨h.coo, by simp, hall⟩, rfl, rfl, fun c hc r hr p hp => ?_⟩
  · rw [ho]
    exact make_good h.coo (by simp) hall
  · obtain rfl : c = 0 := by omega
    obtain ⟨z, hz, _, _, hv⟩ := hg r hr
    unfold Fld.value
    have : ([o] : List (Dict K)).getD 0 [] = o := rfl
    dsimp only
    rw [this, entry_of ((h2 r hr).trans hz)]
    exact hv p hp

/-- The dot product: it is done exactly if the points are nearly the same and there are equally many components; it is the
sum of the products of the components. -/
theorem dot_is {f g : Fld K} (h : Good R S f) (h' : Good R' S' g) :
    ((dot f g).isSome ↔ SamePoints R R' S S' f g ∧ f.val.length = g.val.length) ∧
    ∀ out, dot f g = some out →
      Is R S f out 1 fun _ r p => ∑ c ∈ Finset.range f.val.length, f.value c r p * g.value c r p := by
  by_cases hc : checkCoo f g = true
  swap
  · have e : dot f g = none := by unfold dot; rw [if_neg hc]
    rw [e]
    refine ⟨⟨fun x => (by cases x), fun x => absurd ((checkCoo_iff h h').2 x.1) hc⟩, fun out x => by cases x⟩
  by_cases hl : f.val.length = g.val.length
  swap
  · have e : dot f g = none := by unfold dot; rw [if_pos hc, if_neg hl]
    rw [e]
    refine ⟨⟨fun x => (by cases x), fun x => absurd x.2 hl⟩, fun out x => by cases x⟩
  have hsp := (checkCoo_iff h h').1 hc
  have hg := h'.same (R := R) (S := S) hsp.2.1 hsp.2.2.1
  have hfv : ∀ d ∈ f.val, Full R S d := fun d hd => h.full d (by simp [hd])
  have hgv : ∀ d ∈ g.val, Full R S d := fun d hd => hg.full d (by simp [hd])
  have hzl : (f.val.zip g.val).length = f.val.length := by rw [List.length_zip, hl, min_self]
  obtain ⟨out, h1, h2⟩ := single_is h (hfv _ (head_mem (a := []) h.val))
    (v := fun r p => ∑ c ∈ Finset.range f.val.length, f.value c r p * g.value c r p)
    (g := fun r => ((f.val.zip g.val).mapM fun (p : Dict K × Dict K) =>
      (p.1.lookup r).bind fun x => (p.2.lookup r).bind fun y => x.zip (· * ·) y).bind sumArr) (by
    intro r hr
    have hex : ∀ pq ∈ f.val.zip g.val, ∃ z, ((pq.1.lookup r).bind fun x => (pq.2.lookup r).bind fun y =>
        x.zip (· * ·) y) = some z ∧ z.shape = S r ∧ z.data.length = (S r).prod ∧
        ∀ p < (S r).prod, z.data.getD p 0 = entry pq.1 r p * entry pq.2 r p := by
      intro pq hpq
      have hm := List.of_mem_zip (a := pq.1) (b := pq.2) hpq
      obtain ⟨a, ha, h1, h2⟩ := (hfv _ hm.1).lookup hr
      obtain ⟨b, hb, h3, h4⟩ := (hgv _ hm.2).lookup hr
      obtain ⟨z, hz, h5, h6, h7⟩ := zip_good (op := (· * ·)) h1 h2 h3 h4
      refine ⟨z, by rw [ha, hb]; exact hz, h5, h6, fun p hp => ?_⟩
      rw [h7, entry_of ha, entry_of hb]
      exact zipWith_getD (by omega) (by omega)
    obtain ⟨zs, hzs⟩ := mapM_exists (l := f.val.zip g.val) (f := fun pq : Dict K × Dict K =>
      (pq.1.lookup r).bind fun x => (pq.2.lookup r).bind fun y => x.zip (· * ·) y)
      fun pq hpq => ⟨_, (hex pq hpq).choose_spec.1⟩
    obtain ⟨hlen, hget⟩ := mapM_get hzs
    rw [hzl] at hlen hget
    have hz : ∀ c (hc : c < zs.length), zs[c].shape = S r ∧ zs[c].data.length = (S r).prod ∧
        ∀ p < (S r).prod, zs[c].data.getD p 0 = f.value c r p * g.value c r p := by
      intro c hc'
      have hcf : c < f.val.length := by omega
      obtain ⟨z, h1, h2, h3, h4⟩ := hex _ (getD_mem (a := ([], [])) (hzl ▸ hcf))
      have h5 := hget c ([], []) ⟨[], []⟩ hcf
      rw [h1] at h5
      have e1 : zs.getD c ⟨[], []⟩ = zs[c] := List.getD_eq_getElem _ _ hc'
      rw [e1] at h5
      obtain rfl : z = zs[c] := by simpa using h5
      rw [getD_zip hcf (hl ▸ hcf)] at h4
      exact ⟨h2, h3, h4⟩
    have hne : zs ≠ [] := by
      intro e
      rw [e] at hlen
      exact h.val (List.length_eq_zero_iff.1 hlen.symm)
    obtain ⟨z, h1, h2, h3, h4⟩ := sumArr_good (s := S r) zs hne (by
      intro x hx
      obtain ⟨c, hc', rfl⟩ := List.getElem_of_mem hx
      exact ⟨(hz c hc').1, (hz c hc').2.1⟩)
    refine ⟨z, by rw [hzs]; exact h1, h2, h3, fun p hp => ?_⟩
    rw [h4 p hp, ← hlen, list_sum_range, List.length_map]
    apply Finset.sum_congr rfl
    · intro c hc'
      rw [Finset.mem_range] at hc'
      have e1 : (zs.map fun x => x.data.getD p 0).getD c 0 = (zs.map fun x => x.data.getD p 0)[c]'(by simpa using hc') :=
        List.getD_eq_getElem _ _ _
      rw [e1, List.getElem_map]
      exact (hz c hc').2.2 p hp)
  have hres : dot f g = some out := by
    unfold dot
    rw [if_pos hc, if_pos hl]
    exact h1
  rw [hres]
  refine ⟨⟨fun _ => ⟨hsp, hl⟩, fun _ => rfl⟩, fun o ho => ?_⟩
  simp only [Option.some.injEq] at ho
  subst ho
  exact h2

/-- Data with one component are a scalar; with more than one component, a vector if there are as many as coordinates, a tensor if as many as
pairs of coordinates. -/
theorem kind_spec (f : Fld K) :
    (kind f = some .scalar ↔ f.val.length = 1) ∧
    (kind f = some .vector ↔ f.val.length ≠ 1 ∧ f.val.length = f.coo.length) ∧
    (kind f = some .tensor ↔ f.val.length ≠ 1 ∧ f.val.length ≠ f.coo.length ∧ f.val.length = f.coo.length * f.coo.length) := by
  unfold kind
  rw [pow_two]
  by_cases h1 : f.val.length = 1
  · simp [h1]
  · by_cases h2 : f.coo.length = f.val.length
    · rw [if_neg h1, if_pos h2]
      simp [h1, h2]
    · by_cases h3 : f.val.length = f.coo.length * f.coo.length
      · have h2' : ¬ f.val.length = f.coo.length := fun h => h2 h.symm
        rw [if_neg h1, if_neg h2, if_pos h3]
        simp [h1, h2', h3.symm]
      · have h2' : ¬ f.val.length = f.coo.length := fun h => h2 h.symm
        rw [if_neg h1, if_neg h2, if_neg h3]
        simp [h1, h2', h3]

/-- Nine components in three coordinates are a tensor. -/
example : kind (⟨List.replicate 3 [], List.replicate 9 []⟩ : Fld ℚ) = some .tensor := by decide

lemma isVector2_iff (f : Fld K) : isVector2 f = true ↔ f.coo.length = 2 ∧ f.val.length = 2 := by
  unfold isVector2
  rw [decide_eq_true_eq]
  refine and_congr_right fun h => ?_
  unfold kind
  rw [h]
  by_cases h1 : f.val.length = 1
  · rw [if_pos h1, h1]; simp
  · rw [if_neg h1]
    by_cases h2 : 2 = f.val.length
    · rw [if_pos h2]; simp [h2.symm]
    · rw [if_neg h2]
      constructor
      · intro h3
        split_ifs at h3
        simp at h3
      · intro h3; exact absurd h3.symm h2

/-- The cross product of vectors in the plane. -/
theorem cross_is {f g : Fld K} (h : Good R S f) (h' : Good R' S' g) :
    ((cross f g).isSome ↔ SamePoints R R' S S' f g ∧ f.coo.length = 2 ∧ f.val.length = 2 ∧ g.val.length = 2) ∧
    ∀ out, cross f g = some out →
      Is R S f out 1 fun _ r p => f.value 0 r p * g.value 1 r p - f.value 1 r p * g.value 0 r p := by
  by_cases hc : checkCoo f g = true
  swap
  · have e : cross f g = none := by unfold cross; rw [if_neg hc]
    rw [e]
    refine ⟨⟨fun x => (by cases x), fun x => absurd ((checkCoo_iff h h').2 x.1) hc⟩, fun out x => by cases x⟩
  have hsp := (checkCoo_iff h h').1 hc
  by_cases hl : isVector2 f ∧ isVector2 g
  swap
  · have e : cross f g = none := by unfold cross; rw [if_pos hc, if_neg hl]
    rw [e]
    refine ⟨⟨fun x => (by cases x), fun x => absurd ?_ hl⟩, fun out x => by cases x⟩
    exact ⟨(isVector2_iff f).2 ⟨x.2.1, x.2.2.1⟩, (isVector2_iff g).2 ⟨hsp.1 ▸ x.2.1, x.2.2.2⟩⟩
  obtain ⟨⟨hf1, hf2⟩, -, hg2⟩ := (⟨(isVector2_iff f).1 hl.1, (isVector2_iff g).1 hl.2⟩ : _ ∧ _)
  have hg := h'.same (R := R) (S := S) hsp.2.1 hsp.2.2.1
  obtain ⟨wx, wy, ef⟩ := List.length_eq_two.1 hf2
  obtain ⟨u, v, eg⟩ := List.length_eq_two.1 hg2
  have hwx : Full R S wx := h.full _ (by simp [ef])
  have hwy : Full R S wy := h.full _ (by simp [ef])
  have hu : Full R S u := hg.full _ (by simp [eg])
  have hv : Full R S v := hg.full _ (by simp [eg])
  obtain ⟨out, h1, h2⟩ := single_is h hwx (g := crossAt wx wy u v)
    (v := fun r p => f.value 0 r p * g.value 1 r p - f.value 1 r p * g.value 0 r p) (by
    intro r hr
    obtain ⟨a, ha, a1, a2⟩ := hwx.lookup hr
    obtain ⟨b, hb, b1, b2⟩ := hwy.lookup hr
    obtain ⟨c, hc, c1, c2⟩ := hu.lookup hr
    obtain ⟨d, hd, d1, d2⟩ := hv.lookup hr
    obtain ⟨p, hp, p1, p2, p3⟩ := zip_good (op := (· * ·)) a1 a2 d1 d2
    obtain ⟨q, hq, q1, q2, q3⟩ := zip_good (op := (· * ·)) b1 b2 c1 c2
    obtain ⟨z, hz, z1, z2, z3⟩ := zip_good (op := (· - ·)) p1 p2 q1 q2
    refine ⟨z, ?_, z1, z2, fun k hk => ?_⟩
    · unfold crossAt
      rw [ha, hb, hc, hd]
      simp only [Option.bind_some]
      rw [hp, hq]
      exact hz
    · have e0 : f.value 0 r k = a.data.getD k 0 := by unfold Fld.value; rw [ef]; exact entry_of ha
      have e1 : f.value 1 r k = b.data.getD k 0 := by unfold Fld.value; rw [ef]; exact entry_of hb
      have e2 : g.value 0 r k = c.data.getD k 0 := by unfold Fld.value; rw [eg]; exact entry_of hc
      have e3 : g.value 1 r k = d.data.getD k 0 := by unfold Fld.value; rw [eg]; exact entry_of hd
      rw [e0, e1, e2, e3, z3, zipWith_getD (by omega) (by omega), p3, q3, zipWith_getD (by omega) (by omega),
        zipWith_getD (by omega) (by omega)])
  have hres : cross f g = some out := by
    unfold cross
    rw [if_pos hc, if_pos hl, ef, eg]
    exact h1
  rw [hres]
  refine ⟨⟨fun _ => ⟨hsp, hf1, hf2, hg2⟩, fun _ => rfl⟩, fun o ho => ?_⟩
  simp only [Option.some.injEq] at ho
  subst ho
  exact h2

end

end Phyem.Dds
