import Verif.PoolGM.Spec

/-!
The invariant of the loop over blocks and elements.
-/

namespace Phyem.PoolGM

variable {rev : Bool}

theorem Same.refl (x : Place) : Same rev x x := Or.inl rfl

theorem Same.symm {x y : Place} (h : Same rev x y) : Same rev y x := by
  rcases h with rfl | ⟨hr, ent, len, t, s, hne, hl, rfl, rfl⟩
  · exact Or.inl rfl
  · refine Or.inr ⟨hr, ent.reverse, len, s, t, ?_, by omega, rfl, by rw [List.reverse_reverse]⟩
    rw [List.reverse_reverse]; exact fun e => hne e.symm

theorem Same.trans {x y z : Place} (h : Same rev x y) (h' : Same rev y z) : Same rev x z := by
  rcases h with rfl | ⟨hr, ent, len, t, s, hne, hl, rfl, rfl⟩
  · exact h'
  · rcases h' with rfl | ⟨_, ent', len', t', s', hne', hl', e, rfl⟩
    · exact Or.inr ⟨hr, ent, len, t, s, hne, hl, rfl, rfl⟩
    · simp only [Place.on.injEq] at e
      obtain ⟨rfl, rfl, rfl⟩ := e
      left
      rw [List.reverse_reverse]
      congr 1
      omega

theorem not_same_node {v : ℕ} {x : Place} : Same rev (.node v) x ↔ x = .node v := by
  constructor
  · rintro (rfl | ⟨_, _, _, _, _, _, _, e, _⟩)
    · rfl
    · exact Place.noConfusion e
  · rintro rfl; exact Or.inl rfl

theorem not_same_inside {e : ℕ} {c : Cell} {x : Place} :
    Same rev (.inside e c) x ↔ x = .inside e c := by
  constructor
  · rintro (rfl | ⟨_, _, _, _, _, _, _, e, _⟩)
    · rfl
    · exact Place.noConfusion e
  · rintro rfl; exact Or.inl rfl

/-- What has been numbered so far: numbers agree exactly for the same place and fill an initial segment. -/
structure Core (rev : Bool) (log : Place → ℕ → Prop) (cur : ℕ) : Prop where
  lt : ∀ k n, log k n → n < cur
  onto : ∀ n, n < cur → ∃ k, log k n
  same : ∀ k n k' n', log k n → log k' n' → (n = n' ↔ Same rev k k')

/-- Numbers looked up for a place that is already numbered. -/
theorem Core.again {log P : Place → ℕ → Prop} {cur : ℕ} (h : Core rev log cur)
    (hP : ∀ k n, P k n → ∃ k0, log k0 n ∧ Same rev k k0) :
    Core rev (fun k n => log k n ∨ P k n) cur := by
  have rep : ∀ k n, (log k n ∨ P k n) → ∃ k0, log k0 n ∧ Same rev k k0 := by
    rintro k n (hk | hk)
    · exact ⟨k, hk, .refl k⟩
    · exact hP k n hk
  refine ⟨?_, ?_, ?_⟩
  · intro k n hk
    obtain ⟨k0, h0, _⟩ := rep k n hk
    exact h.lt k0 n h0
  · intro n hn
    obtain ⟨k, hk⟩ := h.onto n hn
    exact ⟨k, Or.inl hk⟩
  · intro k n k' n' hk hk'
    obtain ⟨k0, h0, s0⟩ := rep k n hk
    obtain ⟨k1, h1, s1⟩ := rep k' n' hk'
    rw [h.same k0 n k1 n' h0 h1]
    exact ⟨fun s => (s0.trans s).trans s1.symm, fun s => (s0.symm.trans s).trans s1⟩

/-- Fresh numbers for places not numbered before. -/
theorem Core.fresh {log P : Place → ℕ → Prop} {cur m : ℕ} (h : Core rev log cur) (g : ℕ → Place)
    (hP : ∀ k n, P k n ↔ ∃ t < m, n = cur + t ∧ k = g t)
    (hg : ∀ t < m, ∀ t' < m, Same rev (g t) (g t') → t = t')
    (hnew : ∀ t < m, ∀ k n, log k n → ¬ Same rev k (g t)) :
    Core rev (fun k n => log k n ∨ P k n) (cur + m) := by
  refine ⟨?_, ?_, ?_⟩
  · rintro k n (hk | hk)
    · have := h.lt k n hk; omega
    · obtain ⟨t, ht, rfl, -⟩ := (hP k n).1 hk; omega
  · intro n hn
    by_cases hc : n < cur
    · obtain ⟨k, hk⟩ := h.onto n hc
      exact ⟨k, Or.inl hk⟩
    · exact ⟨g (n - cur), Or.inr ((hP _ _).2 ⟨n - cur, by omega, by omega, rfl⟩)⟩
  · rintro k n k' n' (hk | hk) (hk' | hk')
    · exact h.same k n k' n' hk hk'
    · obtain ⟨t, ht, rfl, rfl⟩ := (hP k' n').1 hk'
      have := h.lt k n hk
      exact ⟨fun e => by omega, fun s => absurd s (hnew t ht k n hk)⟩
    · obtain ⟨t, ht, rfl, rfl⟩ := (hP k n).1 hk
      have := h.lt k' n' hk'
      exact ⟨fun e => by omega, fun s => absurd s.symm (hnew t ht k' n' hk')⟩
    · obtain ⟨t, ht, rfl, rfl⟩ := (hP k n).1 hk
      obtain ⟨t', ht', rfl, rfl⟩ := (hP k' n').1 hk'
      constructor
      · intro e
        obtain rfl : t = t' := by omega
        exact .refl _
      · intro s
        rw [hg t ht t' ht' s]

/-- The invariant: the pools know exactly the nodes and edges numbered so far. `F` gives the shape of the
array on each edge or face; `done` the inner places used. -/
structure PInv (rev : Bool) (F : List ℕ → ℕ × ℕ) (done : ℕ → Cell → Prop) (st : St)
    (log : Place → ℕ → Prop) : Prop where
  core : Core rev log st.cur
  nodeGet : ∀ v n, Dict.get st.nodes v = some n → log (.node v) n
  nodeLog : ∀ v n, log (.node v) n → (Dict.get st.nodes v).isSome = true
  poolGet : ∀ k x, Dict.get st.pool k = some x →
    x.1 = F k ∧ x.2.length = (F k).1 * (F k).2 ∧ ∀ (t n : ℕ), x.2[t]? = some n →
      log (.on k ((F k).1 * (F k).2) t) n
  poolLog : ∀ k len t n, log (.on k len t) n →
    (Dict.get st.pool k).isSome = true ∨ rev = true ∧ (Dict.get st.pool k.reverse).isSome = true
  insideLog : ∀ e c n, log (.inside e c) n → done e c

theorem bcIndex_self {sh : ℕ × ℕ} {t : ℕ} (ht : t < sh.1 * sh.2) : bcIndex sh sh t = t := by
  have h1 : 0 < sh.1 := by
    rcases Nat.eq_zero_or_pos sh.1 with h | h
    · rw [h, Nat.zero_mul] at ht; omega
    · exact h
  unfold bcIndex
  by_cases ha : sh.1 = 1
  · rw [if_pos ha]
    by_cases hb : sh.2 = 1
    · rw [ha, hb] at ht; rw [if_pos hb]; omega
    · rw [if_neg hb, ha, Nat.div_one]; omega
  · rw [if_neg ha]
    by_cases hb : sh.2 = 1
    · rw [if_pos hb]
      rw [hb, Nat.mul_one] at ht
      rw [Nat.mod_eq_of_lt ht]; omega
    · rw [if_neg hb]; exact Nat.mod_add_div t sh.1

theorem mem_assign {cut : Bool} {sh : ℕ × ℕ} {l : List ℕ} {cells : List Cell} {w : List (Cell × ℕ)}
    (hl : l.length = sh.1 * sh.2) (hc : cells.length = sh.1 * sh.2) (h : assign cut sh l sh cells = some w)
    (c : Cell) (n : ℕ) : (c, n) ∈ w ↔ ∃ t : ℕ, cells[t]? = some c ∧ l[t]? = some n := by
  unfold assign at h
  rw [if_pos ⟨Or.inl rfl, Or.inl rfl⟩] at h
  simp only [Option.some.injEq] at h
  subst h
  simp only [List.mem_filterMap, Option.map_eq_some_iff, Prod.mk.injEq]
  constructor
  · rintro ⟨⟨c', t⟩, hm, n', hn, rfl, rfl⟩
    rw [List.mem_zipIdx_iff_getElem?] at hm
    have ht : t < cells.length := (List.getElem?_eq_some_iff.1 hm).1
    rw [bcIndex_self (by omega)] at hn
    exact ⟨t, hm, hn⟩
  · rintro ⟨t, h1, h2⟩
    have ht : t < cells.length := (List.getElem?_eq_some_iff.1 h1).1
    exact ⟨(c, t), List.mem_zipIdx_iff_getElem?.2 h1, n, by rw [bcIndex_self (by omega)]; exact h2, rfl, rfl⟩

/-- What is asked of a block: its cells are the places they should be. -/
def Fits (rev : Bool) (F : List ℕ → ℕ × ℕ) (label : ℕ) (pl : Cell → Place) : Block → Prop
  | .node v cells => cells ≠ [] ∧ ∀ c ∈ cells, pl c = .node v
  | .ent _ key shape cells => shape = F key ∧ (rev = true → F key.reverse = F key) ∧
      cells.length = shape.1 * shape.2 ∧
      ∀ (t : ℕ) (c : Cell), cells[t]? = some c → pl c = .on key (shape.1 * shape.2) t
  | .inner cells => cells.Nodup ∧ ∀ c ∈ cells, pl c = .inside label c

/-- The inner cells of a block. -/
def innerCells : Block → List Cell
  | .inner cells => cells
  | _ => []

theorem arange_get (cur m t n : ℕ) : (arange cur m)[t]? = some n ↔ t < m ∧ n = cur + t := by
  unfold arange
  simp only [List.getElem?_map, Option.map_eq_some_iff, List.getElem?_range']
  constructor
  · rintro ⟨a, ha, rfl⟩
    rw [List.getElem?_eq_some_iff] at ha
    obtain ⟨h, e⟩ := ha
    simp only [List.length_range, List.getElem_range] at h e
    exact ⟨h, by rw [e]⟩
  · rintro ⟨h, rfl⟩
    exact ⟨t, by simp [List.getElem?_range h], rfl⟩

theorem arange_length (cur m : ℕ) : (arange cur m).length = m := by simp [arange]

/-- The log after a block's writes. -/
def logWith (log : Place → ℕ → Prop) (pl : Cell → Place) (w : List (Cell × ℕ)) (k : Place) (n : ℕ) : Prop :=
  log k n ∨ ∃ c, (c, n) ∈ w ∧ pl c = k

theorem block_inv {F : List ℕ → ℕ × ℕ} {done : ℕ → Cell → Prop} {st st' : St} {log : Place → ℕ → Prop}
    {label : ℕ} {pl : Cell → Place} {b : Block} {w : List (Cell × ℕ)} (h : PInv rev F done st log)
    (hb : Fits rev F label pl b) (hd : ∀ c ∈ innerCells b, ¬ done label c)
    (hr : runBlock rev st b = some (w, st')) :
    PInv rev F (fun e c => done e c ∨ e = label ∧ c ∈ innerCells b) st' (logWith log pl w) := by
  cases b with
  | node v cells =>
    obtain ⟨hne, hpl⟩ := hb
    simp only [runBlock] at hr
    have mem : ∀ (N : ℕ) (c : Cell) (n : ℕ), (c, n) ∈ cells.map (fun c => (c, N)) ↔ c ∈ cells ∧ n = N := by
      intro N c n
      simp only [List.mem_map, Prod.mk.injEq]
      exact ⟨fun ⟨a, ha, e, e'⟩ => ⟨e ▸ ha, e'.symm⟩, fun ⟨ha, e⟩ => ⟨c, ha, rfl, e.symm⟩⟩
    cases hg : Dict.get st.nodes v with
    | some N =>
      simp only [hg, Option.some.injEq, Prod.mk.injEq] at hr
      obtain ⟨rfl, rfl⟩ := hr
      have new : ∀ k n, (∃ c, (c, n) ∈ cells.map (fun c => (c, N)) ∧ pl c = k) → k = .node v ∧ n = N := by
        rintro k n ⟨c, hc, rfl⟩
        rw [mem] at hc
        exact ⟨hpl c hc.1, hc.2⟩
      refine ⟨h.core.again ?_, ?_, ?_, ?_, ?_, ?_⟩
      · intro k n hk
        obtain ⟨rfl, rfl⟩ := new k n hk
        exact ⟨_, h.nodeGet v n hg, .refl _⟩
      · intro u n hu; exact Or.inl (h.nodeGet u n hu)
      · rintro u n (hu | hu)
        · exact h.nodeLog u n hu
        · obtain ⟨e, -⟩ := new _ n hu
          cases e; simp [hg]
      · intro k x hx
        obtain ⟨h1, h2, h3⟩ := h.poolGet k x hx
        exact ⟨h1, h2, fun t n ht => Or.inl (h3 t n ht)⟩
      · rintro k len t n (hk | hk)
        · exact h.poolLog k len t n hk
        · obtain ⟨e, -⟩ := new _ n hk; cases e
      · rintro e c n (hk | hk)
        · exact Or.inl (h.insideLog e c n hk)
        · obtain ⟨e, -⟩ := new _ n hk; cases e
    | none =>
      simp only [hg, Option.some.injEq, Prod.mk.injEq] at hr
      obtain ⟨rfl, rfl⟩ := hr
      have new : ∀ k n, (∃ c, (c, n) ∈ cells.map (fun c => (c, st.cur)) ∧ pl c = k) ↔
          k = .node v ∧ n = st.cur := by
        intro k n
        constructor
        · rintro ⟨c, hc, rfl⟩
          rw [mem] at hc
          exact ⟨hpl c hc.1, hc.2⟩
        · rintro ⟨rfl, rfl⟩
          obtain ⟨c, hc⟩ := List.exists_mem_of_ne_nil _ hne
          exact ⟨c, (mem _ _ _).2 ⟨hc, rfl⟩, hpl c hc⟩
      refine ⟨h.core.fresh (m := 1) (fun _ => .node v) ?_ ?_ ?_, ?_, ?_, ?_, ?_, ?_⟩
      · intro k n
        rw [new]
        constructor
        · rintro ⟨rfl, rfl⟩; exact ⟨0, by omega, rfl, rfl⟩
        · rintro ⟨t, ht, rfl, rfl⟩
          exact ⟨rfl, by omega⟩
      · intro t ht t' ht' _; omega
      · intro _ _ k n hk s
        rw [not_same_node.1 s.symm] at hk
        have := h.nodeLog v n hk
        simp [hg] at this
      · intro u n hu
        simp only [Dict.get_put] at hu
        by_cases e : u = v
        · rw [if_pos e] at hu
          simp only [Option.some.injEq] at hu
          exact Or.inr ((new _ _).2 ⟨by rw [e], hu.symm⟩)
        · rw [if_neg e] at hu
          exact Or.inl (h.nodeGet u n hu)
      · rintro u n (hu | hu)
        · simp only [Dict.get_put]
          by_cases e : u = v
          · rw [if_pos e]; rfl
          · rw [if_neg e]; exact h.nodeLog u n hu
        · obtain ⟨e, -⟩ := (new _ n).1 hu
          cases e
          simp [Dict.get_put]
      · intro k x hx
        obtain ⟨h1, h2, h3⟩ := h.poolGet k x hx
        exact ⟨h1, h2, fun t n ht => Or.inl (h3 t n ht)⟩
      · rintro k len t n (hk | hk)
        · exact h.poolLog k len t n hk
        · obtain ⟨e, -⟩ := (new _ n).1 hk; cases e
      · rintro e c n (hk | hk)
        · exact Or.inl (h.insideLog e c n hk)
        · obtain ⟨e, -⟩ := (new _ n).1 hk; cases e
  | ent cut key shape cells =>
    obtain ⟨rfl, hF, hlen, hpl⟩ := hb
    simp only [runBlock] at hr
    -- facts common to the two branches that find numbers
    have found : ∀ l : List ℕ, l.length = (F key).1 * (F key).2 →
        (∀ (t n : ℕ), l[t]? = some n →
          ∃ k0, log k0 n ∧ Same rev (.on key ((F key).1 * (F key).2) t) k0) →
        (Dict.get st.pool key).isSome = true ∨ rev = true ∧ (Dict.get st.pool key.reverse).isSome = true →
        assign cut (F key) l (F key) cells = some w → st = st' →
        PInv rev F (fun e c => done e c ∨ e = label ∧ c ∈ innerCells (.ent cut key (F key) cells)) st'
          (logWith log pl w) := by
      rintro l hl hlog hsome ha rfl
      have new : ∀ k n, (∃ c, (c, n) ∈ w ∧ pl c = k) →
          ∃ t, l[t]? = some n ∧ k = .on key ((F key).1 * (F key).2) t := by
        rintro k n ⟨c, hc, rfl⟩
        obtain ⟨t, h1, h2⟩ := (mem_assign hl hlen ha c n).1 hc
        exact ⟨t, h2, hpl t c h1⟩
      refine ⟨h.core.again ?_, ?_, ?_, ?_, ?_, ?_⟩
      · intro k n hk
        obtain ⟨t, ht, rfl⟩ := new k n hk
        exact hlog t n ht
      · intro u n hu; exact Or.inl (h.nodeGet u n hu)
      · rintro u n (hu | hu)
        · exact h.nodeLog u n hu
        · obtain ⟨t, -, e⟩ := new _ n hu; cases e
      · intro k x hx
        obtain ⟨h1, h2, h3⟩ := h.poolGet k x hx
        exact ⟨h1, h2, fun t n ht => Or.inl (h3 t n ht)⟩
      · rintro k len t n (hk | hk)
        · exact h.poolLog k len t n hk
        · obtain ⟨t, -, e⟩ := new _ n hk
          cases e
          exact hsome
      · rintro e c n (hk | hk)
        · exact Or.inl (h.insideLog e c n hk)
        · obtain ⟨t, -, e⟩ := new _ n hk; cases e
    cases hg : Dict.get st.pool key with
    | some x =>
      simp only [hg, Option.map_eq_some_iff, Prod.mk.injEq] at hr
      obtain ⟨w', ha, rfl, e⟩ := hr
      obtain ⟨h1, h2, h3⟩ := h.poolGet key x hg
      rw [h1] at ha
      exact found x.2 h2 (fun t n ht => ⟨_, h3 t n ht, .refl _⟩) (Or.inl (by simp [hg])) ha e
    | none =>
      simp only [hg] at hr
      cases hg' : (if rev = true then Dict.get st.pool key.reverse else none) with
      | some x =>
        simp only [hg', Option.map_eq_some_iff, Prod.mk.injEq] at hr
        obtain ⟨w', ha, rfl, e⟩ := hr
        have hrev : rev = true := by
          by_contra hc
          rw [if_neg hc] at hg'
          cases hg'
        rw [if_pos hrev] at hg'
        obtain ⟨h1, h2, h3⟩ := h.poolGet key.reverse x hg'
        have hFk := hF hrev
        rw [h1, hFk] at ha
        rw [hFk] at h2 h3
        refine found x.2.reverse (by rw [List.length_reverse, h2]) ?_
          (Or.inr ⟨hrev, by simp [hg']⟩) ha e
        intro t n ht
        have htl : t < x.2.length := by
          have := (List.getElem?_eq_some_iff.1 ht).1
          rwa [List.length_reverse] at this
        rw [List.getElem?_reverse htl] at ht
        refine ⟨_, h3 _ n ht, Or.inr ⟨hrev, key, _, t, x.2.length - 1 - t, ?_, by omega, rfl, rfl⟩⟩
        intro e
        rw [← e, hg] at hg'
        cases hg'
      | none =>
        simp only [hg', Option.map_eq_some_iff, Prod.mk.injEq] at hr
        obtain ⟨w', ha, rfl, rfl⟩ := hr
        have new : ∀ k n, (∃ c, (c, n) ∈ w' ∧ pl c = k) ↔
            ∃ t < (F key).1 * (F key).2, n = st.cur + t ∧ k = .on key ((F key).1 * (F key).2) t := by
          intro k n
          constructor
          · rintro ⟨c, hc, rfl⟩
            obtain ⟨t, h1, h2⟩ := (mem_assign (arange_length _ _) hlen ha c n).1 hc
            rw [arange_get] at h2
            exact ⟨t, h2.1, h2.2, hpl t c h1⟩
          · rintro ⟨t, ht, rfl, rfl⟩
            have hc : cells[t]? = some (cells[t]'(by omega)) := List.getElem?_eq_getElem _
            exact ⟨_, (mem_assign (arange_length _ _) hlen ha _ _).2
              ⟨t, hc, (arange_get _ _ _ _).2 ⟨ht, rfl⟩⟩, hpl t _ hc⟩
        have absent : ∀ k len t n, log (.on k len t) n → k ≠ key ∧ (rev = true → k ≠ key.reverse) := by
          intro k len t n hk
          have hrn : rev = true → Dict.get st.pool key.reverse = none := by
            intro hv; rwa [if_pos hv] at hg'
          have := h.poolLog k len t n hk
          constructor
          · rintro rfl
            rcases this with this | ⟨hv, this⟩
            · simp [hg] at this
            · simp [hrn hv] at this
          · rintro hv rfl
            rcases this with this | ⟨_, this⟩
            · simp [hrn hv] at this
            · rw [List.reverse_reverse] at this; simp [hg] at this
        refine ⟨h.core.fresh (fun t => .on key ((F key).1 * (F key).2) t) new ?_ ?_, ?_, ?_, ?_, ?_, ?_⟩
        · rintro t ht t' ht' (e | ⟨_, ent, len, a, b, hne, _, e, e'⟩)
          · cases e; rfl
          · cases e
            simp only [Place.on.injEq] at e'
            exact absurd e'.1 hne
        · rintro t ht k n hk (rfl | ⟨hv, ent, len, a, b, hne, hl, rfl, e'⟩)
          · exact (absent _ _ _ _ hk).1 rfl
          · simp only [Place.on.injEq] at e'
            refine (absent _ _ _ _ hk).2 hv ?_
            rw [e'.1, List.reverse_reverse]
        · intro u n hu; exact Or.inl (h.nodeGet u n hu)
        · rintro u n (hu | hu)
          · exact h.nodeLog u n hu
          · obtain ⟨t, -, -, e⟩ := (new _ n).1 hu; cases e
        · intro k x hx
          simp only [Dict.get_put] at hx
          by_cases e : k = key
          · rw [if_pos e] at hx
            simp only [Option.some.injEq] at hx
            subst hx
            subst e
            refine ⟨rfl, arange_length _ _, fun t n ht => Or.inr ((new _ _).2 ?_)⟩
            rw [arange_get] at ht
            exact ⟨t, ht.1, ht.2, rfl⟩
          · rw [if_neg e] at hx
            obtain ⟨h1, h2, h3⟩ := h.poolGet k x hx
            exact ⟨h1, h2, fun t n ht => Or.inl (h3 t n ht)⟩
        · rintro k len t n (hk | hk)
          · have keep : ∀ k', (Dict.get st.pool k').isSome = true →
                (Dict.get (Dict.put st.pool key (F key, arange st.cur ((F key).1 * (F key).2))) k').isSome
                  = true := by
              intro k' hk'
              rw [Dict.get_put]
              by_cases e : k' = key
              · rw [if_pos e]; rfl
              · rw [if_neg e]; exact hk'
            rcases h.poolLog k len t n hk with h' | ⟨hv, h'⟩
            · exact Or.inl (keep _ h')
            · exact Or.inr ⟨hv, keep _ h'⟩
          · obtain ⟨t', -, -, e⟩ := (new _ n).1 hk
            cases e
            left
            simp [Dict.get_put]
        · rintro e c n (hk | hk)
          · exact Or.inl (h.insideLog e c n hk)
          · obtain ⟨t, -, -, e⟩ := (new _ n).1 hk; cases e
  | inner cells =>
    obtain ⟨hnd, hpl⟩ := hb
    simp only [runBlock, Option.some.injEq, Prod.mk.injEq] at hr
    obtain ⟨rfl, rfl⟩ := hr
    have memz : ∀ c n, (c, n) ∈ cells.zip (arange st.cur cells.length) ↔
        ∃ t, cells[t]? = some c ∧ n = st.cur + t := by
      intro c n
      rw [List.mem_iff_getElem?]
      constructor
      · rintro ⟨t, ht⟩
        rw [List.getElem?_zip_eq_some, arange_get] at ht
        exact ⟨t, ht.1, ht.2.2⟩
      · rintro ⟨t, ht, rfl⟩
        refine ⟨t, ?_⟩
        rw [List.getElem?_zip_eq_some, arange_get]
        exact ⟨ht, (List.getElem?_eq_some_iff.1 ht).1, rfl⟩
    have new : ∀ k n, (∃ c, (c, n) ∈ cells.zip (arange st.cur cells.length) ∧ pl c = k) →
        ∃ c t, cells[t]? = some c ∧ n = st.cur + t ∧ k = .inside label c := by
      rintro k n ⟨c, hc, rfl⟩
      obtain ⟨t, h1, h2⟩ := (memz c n).1 hc
      exact ⟨c, t, h1, h2, hpl c (List.mem_of_getElem? h1)⟩
    refine ⟨h.core.fresh (fun t => .inside label (cells.getD t (0, 0, 0, 0))) ?_ ?_ ?_, ?_, ?_, ?_, ?_, ?_⟩
    · intro k n
      constructor
      · intro hk
        obtain ⟨c, t, h1, rfl, rfl⟩ := new k n hk
        exact ⟨t, (List.getElem?_eq_some_iff.1 h1).1, rfl, by rw [List.getD_eq_getElem?_getD, h1]; rfl⟩
      · rintro ⟨t, ht, rfl, rfl⟩
        have hc : cells[t]? = some (cells[t]) := List.getElem?_eq_getElem _
        refine ⟨cells[t], (memz _ _).2 ⟨t, hc, rfl⟩, ?_⟩
        rw [List.getD_eq_getElem?_getD, hc]
        exact hpl _ (List.getElem_mem ht)
    · intro t ht t' ht' s
      have e := not_same_inside.1 s
      simp only [Place.inside.injEq, true_and, List.getD_eq_getElem?_getD, List.getElem?_eq_getElem ht,
        List.getElem?_eq_getElem ht', Option.getD_some] at e
      exact ((List.Nodup.getElem_inj_iff hnd).1 e).symm
    · intro t ht k n hk s
      rw [not_same_inside.1 s.symm] at hk
      refine hd _ ?_ (h.insideLog _ _ n hk)
      simp only [innerCells, List.getD_eq_getElem?_getD, List.getElem?_eq_getElem ht, Option.getD_some]
      exact List.getElem_mem ht
    · intro u n hu; exact Or.inl (h.nodeGet u n hu)
    · rintro u n (hu | hu)
      · exact h.nodeLog u n hu
      · obtain ⟨_, _, _, _, e⟩ := new _ n hu; cases e
    · intro k x hx
      obtain ⟨h1, h2, h3⟩ := h.poolGet k x hx
      exact ⟨h1, h2, fun t n ht => Or.inl (h3 t n ht)⟩
    · rintro k len t n (hk | hk)
      · exact h.poolLog k len t n hk
      · obtain ⟨_, _, _, _, e⟩ := new _ n hk; cases e
    · rintro e c n (hk | hk)
      · exact Or.inl (h.insideLog e c n hk)
      · obtain ⟨c', t, h1, _, e⟩ := new _ n hk
        cases e
        exact Or.inr ⟨rfl, List.mem_of_getElem? h1⟩

end Phyem.PoolGM
