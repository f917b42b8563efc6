import Verif.Mesh.Lemmas

/-!
Properties C21 (element numbering) and C22 (element map).
-/

namespace Phyem.Mesh

/-! ### C21 -/

/-- **C21, from numbers to indices.** Every number below the number of elements is found in a region, with
indices inside its layout, and is the number at these indices. -/
theorem find_sound (dis : List (List ℕ)) (hdim : ∀ s ∈ dis, s ≠ []) (i : ℕ) (h : i < total dis) :
    ∃ r idx, find dis i = some (r, idx) ∧ r < dis.length ∧ Inside (shape dis r) idx ∧ num dis r idx = i := by
  obtain ⟨r, hr, h1, h2⟩ := exists_region dis i h
  have hs := search_spec dis i r hr h1 h2 dis.length 0 (by omega) (by omega)
  rw [← List.range_eq_range'] at hs
  have hne : shape dis r ≠ [] := by
    unfold shape
    rw [List.getElem?_eq_getElem hr]
    exact hdim _ (List.getElem_mem hr)
  have hl : (shape dis r).length = ((shape dis r).length - 1) + 1 := by
    have : 0 < (shape dis r).length := List.length_pos_iff.mpr hne
    omega
  rw [acc_succ dis r hr] at h2
  have hp := peel_spec _ (shape dis r) (i - acc dis r) hl (by omega)
  refine ⟨r, _, ?_, hr, hp.1, ?_⟩
  · unfold find
    rw [if_pos h, hs]
  · unfold num
    rw [hp.2]
    omega

/-- **C21, from indices to numbers.** The number of the element at given indices of a region is below the
number of elements, and looking it up gives back the region and the indices. -/
theorem find_num (dis : List (List ℕ)) (hdim : ∀ s ∈ dis, s ≠ []) (r : ℕ) (idx : List ℕ)
    (hr : r < dis.length) (hi : Inside (shape dis r) idx) :
    num dis r idx < total dis ∧ find dis (num dis r idx) = some (r, idx) := by
  have hb := num_bounds dis r idx hr hi
  have ht : num dis r idx < total dis := lt_of_lt_of_le hb.2 (acc_mono dis (by omega) (le_refl _))
  refine ⟨ht, ?_⟩
  obtain ⟨r', idx', hf, hr', hi', e⟩ := find_sound dis hdim _ ht
  obtain ⟨e1, e2⟩ := num_inj dis hr' hr hi' hi e
  rw [hf, e1, e2]

/-- **C21, refusal.** A number that is no element number is refused. -/
theorem find_refused (dis : List (List ℕ)) (i : ℕ) (h : total dis ≤ i) : find dis i = none := by
  unfold find
  rw [if_neg (by omega)]

/-- **C21, order.** Axis 0 is the fastest: stepping along it adds one; regions come one after the other. -/
theorem num_order (dis : List (List ℕ)) (r i j : ℕ) (is : List ℕ) (hr : r + 1 < dis.length)
    (hi : Inside (shape dis r) (i :: is)) (hi' : Inside (shape dis r) ((i + 1) :: is)) (idx : List ℕ)
    (hj : j = r + 1) (hidx : Inside (shape dis j) idx) :
    num dis r ((i + 1) :: is) = num dis r (i :: is) + 1 ∧ num dis r (i :: is) < num dis j idx := by
  constructor
  · unfold num
    cases hs : shape dis r with
    | nil => rw [hs] at hi; exact hi.elim
    | cons n ns => simp only [stride]; omega
  · subst hj
    have h1 := num_bounds dis r _ (by omega) hi
    have h2 := num_bounds dis (r + 1) _ hr hidx
    omega

example : Inside (shape [[2, 3], [4, 3]] 1) [2, 1] ∧ num [[2, 3], [4, 3]] 1 [2, 1] = 12 ∧
    find [[2, 3], [4, 3]] 12 = some (1, [2, 1]) ∧ total [[2, 3], [4, 3]] = 18 := by
  refine ⟨?_, ?_, ?_, ?_⟩
  · simp [shape, Inside]
  all_goals decide +kernel

/-! ### C22 -/

/-- The neighbour over the minus side, in terms of region, indices and region map. -/
def minusNb (dis : List (List ℕ)) (rm : RegionMap) (r axis : ℕ) (idx : List ℕ) : Option ℕ :=
  if 0 < idx.getD axis 0 then some (num dis r (idx.set axis (idx.getD axis 0 - 1)))
  else (side rm r (2 * axis)).join.map fun nb => num dis nb (idx.set axis ((shape dis nb).getD axis 0 - 1))

/-- The neighbour over the plus side. -/
def plusNb (dis : List (List ℕ)) (rm : RegionMap) (r axis : ℕ) (idx : List ℕ) : Option ℕ :=
  if idx.getD axis 0 + 1 < (shape dis r).getD axis 0 then
    some (num dis r (idx.set axis (idx.getD axis 0 + 1)))
  else (side rm r (2 * axis + 1)).join.map fun nb => num dis nb (idx.set axis 0)

theorem layer_mem {dis : List (List ℕ)} {axis r layer r' layer' c n : ℕ} {l : List Write}
    (hl : layerWrites dis axis r layer r' layer' c = some l)
    (hn : (shape dis r)[axis]? = some n) (hlayer : layer < n)
    (hc : (shape dis r').eraseIdx axis = (shape dis r).eraseIdx axis) (w : Write) :
    w ∈ l ↔ ∃ idx, Inside (shape dis r) idx ∧ idx.getD axis 0 = layer ∧
      w = ((num dis r idx, c), num dis r' (idx.set axis layer')) := by
  unfold layerWrites at hl
  split_ifs at hl with hb
  simp only [Option.some.injEq] at hl
  subst hl
  simp only [List.mem_map]
  have hax : axis < (shape dis r).length := by
    by_contra h
    rw [List.getElem?_eq_none (by omega)] at hn
    simp at hn
  have hlen : ((shape dis r).eraseIdx axis).length = (shape dis r).length - 1 :=
    List.length_eraseIdx_of_lt hax
  constructor
  · rintro ⟨sub, hs, rfl⟩
    have hs := mem_boxes.mp hs
    have hsl := hs.length
    have hle : axis ≤ sub.length := by omega
    refine ⟨sub.insertIdx axis layer, inside_insert hn hs hlayer, ?_, ?_⟩
    · rw [List.getD_eq_getElem?_getD, getElem?_insert _ _ _ hle]; rfl
    · rw [hc, clip_self hs, set_insert _ _ _ _ hle]
  · rintro ⟨idx, hi, e, rfl⟩
    have hil := hi.length
    refine ⟨idx.eraseIdx axis, mem_boxes.mpr (inside_erase hi), ?_⟩
    have e2 : idx.set axis layer = idx := by
      have hx : axis < idx.length := by omega
      rw [List.getD_eq_getElem?_getD, List.getElem?_eq_getElem hx] at e
      simp only [Option.getD_some] at e
      rw [← e]
      exact List.set_getElem_self hx
    rw [hc, clip_self (inside_erase hi), insert_erase_set _ _ _ (by omega),
      insert_erase_set _ _ _ (by omega), e2]

theorem side_check {rm : RegionMap} (h : checkMap rm = true) {r c nb : ℕ}
    (hs : side rm r c = some (some nb)) : side rm nb (opposite c) = some (some r) := by
  unfold checkMap at h
  simp only [List.all_eq_true, List.mem_range] at h
  have hr : r < rm.length := by
    by_contra hc
    simp [side, List.getElem?_eq_none (Nat.le_of_not_lt hc)] at hs
  have hj : c < ((rm[r]?).getD []).length := by
    by_contra hc
    rw [List.getElem?_eq_getElem hr] at hc
    simp only [Option.getD_some] at hc
    simp [side, List.getElem?_eq_getElem hr, List.getElem?_eq_none (Nat.le_of_not_lt hc)] at hs
  have := h r hr c hj
  rw [hs] at this
  simpa using this

theorem opposite_even (a : ℕ) : opposite (2 * a) = 2 * a + 1 := by
  unfold opposite; rw [if_pos (by omega)]; omega

theorem opposite_odd (a : ℕ) : opposite (2 * a + 1) = 2 * a := by
  unfold opposite; rw [if_neg (by omega)]; omega

/-- What a successful run of the generation gives. -/
structure Ok (dis : List (List ℕ)) (rm : RegionMap) (ndim : ℕ) (ws : List Write) : Prop where
  len : rm.length = dis.length
  check : checkMap rm = true
  dims : ∀ s ∈ dis, s.length = ndim
  pos : ∀ s ∈ dis, ∀ n ∈ s, 0 < n
  run : collect (jobs dis rm ndim) = some ws

theorem ok_of {dis : List (List ℕ)} {rm : RegionMap} {ndim : ℕ} {m : EMap}
    (h : elementMap dis rm ndim = some m) : ∃ ws, Ok dis rm ndim ws ∧ m = writeAll ws := by
  unfold elementMap at h
  split_ifs at h with hc
  simp only [Option.map_eq_some_iff] at h
  obtain ⟨ws, hw, rfl⟩ := h
  exact ⟨ws, ⟨hc.1, hc.2.1, hc.2.2.1, hc.2.2.2, hw⟩, rfl⟩

theorem shape_mem {dis : List (List ℕ)} {r : ℕ} (h : r < dis.length) : shape dis r ∈ dis := by
  unfold shape; rw [List.getElem?_eq_getElem h]; exact List.getElem_mem h

section
variable {dis : List (List ℕ)} {rm : RegionMap} {ndim : ℕ} {ws : List Write}

theorem Ok.size (h : Ok dis rm ndim ws) {r axis : ℕ} (hr : r < dis.length) (ha : axis < ndim) :
    (shape dis r)[axis]? = some ((shape dis r).getD axis 0) ∧ 0 < (shape dis r).getD axis 0 := by
  have hl := h.dims _ (shape_mem hr)
  have hx : axis < (shape dis r).length := by omega
  rw [List.getD_eq_getElem?_getD, List.getElem?_eq_getElem hx]
  exact ⟨rfl, h.pos _ (shape_mem hr) _ (List.getElem_mem hx)⟩

theorem mem_jobs {j : Option (List Write)} : j ∈ jobs dis rm ndim ↔
    ∃ r axis layer, r < dis.length ∧ axis < ndim ∧ layer < (shape dis r).getD axis 0 ∧
      (j = minusJob dis rm r axis layer ∨ j = plusJob dis rm r axis layer) := by
  simp only [jobs, List.mem_flatMap, List.mem_range, List.mem_cons, List.not_mem_nil, or_false]
  constructor
  · rintro ⟨r, hr, a, ha, l, hl, h⟩; exact ⟨r, a, l, hr, ha, hl, h⟩
  · rintro ⟨r, a, l, hr, ha, hl, h⟩; exact ⟨r, hr, a, ha, l, hl, h⟩

/-- Neighbouring regions have the same layout shape across their interface: otherwise the run fails. -/
theorem Ok.conform (h : Ok dis rm ndim ws) {r axis nb : ℕ} (hr : r < dis.length) (ha : axis < ndim)
    (hs : side rm r (2 * axis + 1) = some (some nb)) :
    nb < dis.length ∧ (shape dis nb).eraseIdx axis = (shape dis r).eraseIdx axis := by
  have hall := (collect_spec _ _ h.run).1
  have hp := (h.size hr ha).2
  obtain ⟨l, hl⟩ := hall (plusJob dis rm r axis ((shape dis r).getD axis 0 - 1))
    (mem_jobs.mpr ⟨r, axis, _, hr, ha, by omega, Or.inr rfl⟩)
  unfold plusJob at hl
  rw [if_pos (by omega), hs] at hl
  simp only at hl
  split_ifs at hl with hnb
  refine ⟨hnb, ?_⟩
  have hs' := side_check h.check hs
  rw [opposite_odd] at hs'
  have hp' := (h.size hnb ha).2
  obtain ⟨l', hl'⟩ := hall (minusJob dis rm nb axis 0)
    (mem_jobs.mpr ⟨nb, axis, _, hnb, ha, by omega, Or.inl rfl⟩)
  unfold minusJob at hl'
  rw [if_pos rfl, hs'] at hl'
  simp only at hl'
  rw [if_pos hr] at hl'
  unfold layerWrites at hl hl'
  split_ifs at hl hl' with b b'
  exact bcastable_antisymm b b'

theorem Ok.conform' (h : Ok dis rm ndim ws) {r axis nb : ℕ} (hr : r < dis.length) (ha : axis < ndim)
    (hs : side rm r (2 * axis) = some (some nb)) :
    nb < dis.length ∧ (shape dis nb).eraseIdx axis = (shape dis r).eraseIdx axis := by
  have hs' := side_check h.check hs
  rw [opposite_even] at hs'
  have hnb : nb < dis.length := by
    rw [← h.len]
    by_contra hc
    simp [side, List.getElem?_eq_none (Nat.le_of_not_lt hc)] at hs'
  exact ⟨hnb, (h.conform hnb ha hs').2.symm⟩

/-- The writes performed. -/
theorem Ok.mem (h : Ok dis rm ndim ws) (e c f : ℕ) : ((e, c), f) ∈ ws ↔
    ∃ r axis idx, r < dis.length ∧ axis < ndim ∧ Inside (shape dis r) idx ∧ e = num dis r idx ∧
      ((c = 2 * axis ∧ minusNb dis rm r axis idx = some f) ∨
       (c = 2 * axis + 1 ∧ plusNb dis rm r axis idx = some f)) := by
  have hall := collect_spec _ _ h.run
  have hidx : ∀ {r axis idx}, r < dis.length → axis < ndim → Inside (shape dis r) idx →
      idx.getD axis 0 < (shape dis r).getD axis 0 := by
    have aux : ∀ (ns idx : List ℕ) (axis : ℕ), axis < ns.length → Inside ns idx →
        idx.getD axis 0 < ns.getD axis 0 := by
      intro ns
      induction ns with
      | nil => intro idx axis h; simp at h
      | cons n ns ih =>
        intro idx axis h hi
        cases idx with
        | nil => exact hi.elim
        | cons i idx =>
          cases axis with
          | zero => simpa using hi.1
          | succ axis => simpa using ih idx axis (by simpa using h) hi.2
    intro r axis idx hr ha hi
    exact aux _ _ _ (by rw [h.dims _ (shape_mem hr)]; exact ha) hi
  rw [hall.2]
  constructor
  · rintro ⟨l, hl, hw⟩
    obtain ⟨r, axis, layer, hr, ha, hlay, hj⟩ := mem_jobs.mp hl
    obtain ⟨hn, hp⟩ := h.size hr ha
    rcases hj with hj | hj
    · unfold minusJob at hj
      split_ifs at hj with h0
      · cases hs : side rm r (2 * axis) with
        | none => simp [hs] at hj
        | some x =>
          cases x with
          | none => simp only [hs, Option.some.injEq] at hj; subst hj; simp at hw
          | some nb =>
            simp only [hs] at hj
            obtain ⟨hnb, hc⟩ := h.conform' hr ha hs
            rw [if_pos hnb] at hj
            obtain ⟨idx, a, b, e⟩ := (layer_mem hj.symm hn hlay hc _).mp hw
            simp only [Prod.mk.injEq] at e
            refine ⟨r, axis, idx, hr, ha, a, e.1.1, Or.inl ⟨e.1.2, ?_⟩⟩
            unfold minusNb
            rw [if_neg (by omega), hs]
            simp [e.2]
      · obtain ⟨idx, a, b, e⟩ := (layer_mem hj.symm hn hlay rfl _).mp hw
        simp only [Prod.mk.injEq] at e
        refine ⟨r, axis, idx, hr, ha, a, e.1.1, Or.inl ⟨e.1.2, ?_⟩⟩
        unfold minusNb
        rw [if_pos (by omega), e.2, b]
    · unfold plusJob at hj
      split_ifs at hj with h0
      · cases hs : side rm r (2 * axis + 1) with
        | none => simp [hs] at hj
        | some x =>
          cases x with
          | none => simp only [hs, Option.some.injEq] at hj; subst hj; simp at hw
          | some nb =>
            simp only [hs] at hj
            obtain ⟨hnb, hc⟩ := h.conform hr ha hs
            rw [if_pos hnb] at hj
            obtain ⟨idx, a, b, e⟩ := (layer_mem hj.symm hn hlay hc _).mp hw
            simp only [Prod.mk.injEq] at e
            refine ⟨r, axis, idx, hr, ha, a, e.1.1, Or.inr ⟨e.1.2, ?_⟩⟩
            unfold plusNb
            rw [if_neg (by omega), hs]
            simp [e.2]
      · obtain ⟨idx, a, b, e⟩ := (layer_mem hj.symm hn hlay rfl _).mp hw
        simp only [Prod.mk.injEq] at e
        refine ⟨r, axis, idx, hr, ha, a, e.1.1, Or.inr ⟨e.1.2, ?_⟩⟩
        unfold plusNb
        rw [if_pos (by omega), e.2, b]
  · rintro ⟨r, axis, idx, hr, ha, hi, he, hcase⟩
    have hlt := hidx hr ha hi
    obtain ⟨hn, hp⟩ := h.size hr ha
    rcases hcase with ⟨hc, hnb⟩ | ⟨hc, hnb⟩
    · have hmem : minusJob dis rm r axis (idx.getD axis 0) ∈ jobs dis rm ndim :=
        mem_jobs.mpr ⟨r, axis, _, hr, ha, hlt, Or.inl rfl⟩
      obtain ⟨l, hl⟩ := hall.1 _ hmem
      refine ⟨l, hl ▸ hmem, ?_⟩
      unfold minusNb at hnb
      unfold minusJob at hl
      split_ifs at hnb with h0
      · rw [if_neg (by omega)] at hl
        simp only [Option.some.injEq] at hnb
        exact (layer_mem hl hn hlt rfl _).mpr ⟨idx, hi, rfl, by rw [he, hc, hnb]⟩
      · rw [if_pos (by omega)] at hl
        cases hs : side rm r (2 * axis) with
        | none => simp [hs] at hl
        | some x =>
          cases x with
          | none => simp [hs] at hnb
          | some nb =>
            obtain ⟨hlt', hcf⟩ := h.conform' hr ha hs
            simp only [hs, if_pos hlt'] at hl
            simp only [hs, Option.join_some, Option.map_some, Option.some.injEq] at hnb
            exact (layer_mem hl hn hlt hcf _).mpr ⟨idx, hi, rfl, by rw [he, hc, hnb]⟩
    · have hmem : plusJob dis rm r axis (idx.getD axis 0) ∈ jobs dis rm ndim :=
        mem_jobs.mpr ⟨r, axis, _, hr, ha, hlt, Or.inr rfl⟩
      obtain ⟨l, hl⟩ := hall.1 _ hmem
      refine ⟨l, hl ▸ hmem, ?_⟩
      unfold plusNb at hnb
      unfold plusJob at hl
      split_ifs at hnb with h0
      · rw [if_neg (by omega)] at hl
        simp only [Option.some.injEq] at hnb
        exact (layer_mem hl hn hlt rfl _).mpr ⟨idx, hi, rfl, by rw [he, hc, hnb]⟩
      · rw [if_pos (by omega)] at hl
        cases hs : side rm r (2 * axis + 1) with
        | none => simp [hs] at hl
        | some x =>
          cases x with
          | none => simp [hs] at hnb
          | some nb =>
            obtain ⟨hlt', hcf⟩ := h.conform hr ha hs
            simp only [hs, if_pos hlt'] at hl
            simp only [hs, Option.join_some, Option.map_some, Option.some.injEq] at hnb
            exact (layer_mem hl hn hlt hcf _).mpr ⟨idx, hi, rfl, by rw [he, hc, hnb]⟩

theorem Ok.functional (h : Ok dis rm ndim ws) (k : ℕ × ℕ) (v v' : ℕ) (a : (k, v) ∈ ws)
    (b : (k, v') ∈ ws) : v = v' := by
  obtain ⟨e, c⟩ := k
  obtain ⟨r, ax, idx, hr, ha, hi, he, hc⟩ := (h.mem e c v).mp a
  obtain ⟨r', ax', idx', hr', ha', hi', he', hc'⟩ := (h.mem e c v').mp b
  obtain ⟨rfl, rfl⟩ := num_inj dis hr hr' hi hi' (he.symm.trans he')
  rcases hc with ⟨c1, n1⟩ | ⟨c1, n1⟩ <;> rcases hc' with ⟨c2, n2⟩ | ⟨c2, n2⟩
  · obtain rfl : ax = ax' := by omega
    rw [n1] at n2; simpa using n2
  · omega
  · omega
  · obtain rfl : ax = ax' := by omega
    rw [n1] at n2; simpa using n2

end

/-- **C22, geometry.** Inside a region the neighbours of an element are the next ones in its row; over the
side of a region they are the elements at the same place on the facing side of the region the region map
names; on the boundary (`None`) there is none. -/
theorem element_map_spec (dis : List (List ℕ)) (rm : RegionMap) (ndim : ℕ) (m : EMap)
    (h : elementMap dis rm ndim = some m) (r axis : ℕ) (idx : List ℕ) (hr : r < dis.length)
    (ha : axis < ndim) (hi : Inside (shape dis r) idx) :
    Dict.get m (num dis r idx, 2 * axis) =
      (if 0 < idx.getD axis 0 then some (num dis r (idx.set axis (idx.getD axis 0 - 1)))
       else (side rm r (2 * axis)).join.map fun nb =>
         num dis nb (idx.set axis ((shape dis nb).getD axis 0 - 1))) ∧
    Dict.get m (num dis r idx, 2 * axis + 1) =
      (if idx.getD axis 0 + 1 < (shape dis r).getD axis 0 then
         some (num dis r (idx.set axis (idx.getD axis 0 + 1)))
       else (side rm r (2 * axis + 1)).join.map fun nb => num dis nb (idx.set axis 0)) := by
  obtain ⟨ws, ok, rfl⟩ := ok_of h
  have key : ∀ c f, Dict.get (writeAll ws) (num dis r idx, c) = some f ↔
      (∃ ax, ax < ndim ∧ ((c = 2 * ax ∧ minusNb dis rm r ax idx = some f) ∨
       (c = 2 * ax + 1 ∧ plusNb dis rm r ax idx = some f))) := by
    intro c f
    rw [writeAll_spec ws ok.functional, ok.mem]
    constructor
    · rintro ⟨r', ax, idx', hr', ha', hi', he, hc⟩
      obtain ⟨rfl, rfl⟩ := num_inj dis hr hr' hi hi' he
      exact ⟨ax, ha', hc⟩
    · rintro ⟨ax, ha', hc⟩
      exact ⟨r, ax, idx, hr, ha', hi, rfl, hc⟩
  constructor
  · refine Option.ext fun f => ?_
    rw [key]
    constructor
    · rintro ⟨ax, _, ⟨e, hn⟩ | ⟨e, _⟩⟩
      · obtain rfl : axis = ax := by omega
        exact hn
      · omega
    · intro hn; exact ⟨axis, ha, Or.inl ⟨rfl, hn⟩⟩
  · refine Option.ext fun f => ?_
    rw [key]
    constructor
    · rintro ⟨ax, _, ⟨e, _⟩ | ⟨e, hn⟩⟩
      · omega
      · obtain rfl : axis = ax := by omega
        exact hn
    · intro hn; exact ⟨axis, ha, Or.inr ⟨rfl, hn⟩⟩

theorem getD_set (l : List ℕ) (i v : ℕ) (h : i < l.length) : (l.set i v).getD i 0 = v := by
  simp [List.getD_eq_getElem?_getD, h]

theorem set_getD (l : List ℕ) (i : ℕ) (h : i < l.length) : l.set i (l.getD i 0) = l := by
  simp [List.getD_eq_getElem?_getD, h]

theorem inside_set : ∀ {ns ms idx : List ℕ} {axis v : ℕ}, Inside ns idx →
    ms.eraseIdx axis = ns.eraseIdx axis → ms.length = ns.length → v < ms.getD axis 0 → axis < ns.length →
    Inside ms (idx.set axis v)
  | [], _, _, _, _, _, _, _, _, h => by simp at h
  | _ :: _, [], _, _, _, _, _, hl, _, _ => by simp at hl
  | n :: ns, m :: ms, [], _, _, h, _, _, _, _ => h.elim
  | n :: ns, m :: ms, i :: idx, 0, v, h, he, hl, hv, ha => by
    simp only [List.eraseIdx_zero, List.tail_cons] at he
    subst he
    simp only [List.set_cons_zero, Inside]
    exact ⟨by simpa using hv, h.2⟩
  | n :: ns, m :: ms, i :: idx, axis + 1, v, h, he, hl, hv, ha => by
    simp only [List.eraseIdx_cons_succ, List.cons.injEq] at he
    obtain ⟨rfl, he⟩ := he
    simp only [List.set_cons_succ, Inside]
    exact ⟨h.1, inside_set h.2 he (by simpa using hl) (by simpa using hv) (by simpa using ha)⟩

/-- **C22.** Whenever a mesh is built, element `f` is the neighbour of `e` over the plus side of an axis if
and only if `e` is the neighbour of `f` over the minus side of that axis; neighbours are elements. -/
theorem element_map_symmetric (dis : List (List ℕ)) (rm : RegionMap) (ndim : ℕ) (m : EMap)
    (h : elementMap dis rm ndim = some m) (e f axis : ℕ) :
    Dict.get m (e, 2 * axis + 1) = some f ↔ Dict.get m (f, 2 * axis) = some e := by
  have spec := element_map_spec dis rm ndim m h
  obtain ⟨ws, ok, rfl⟩ := ok_of h
  rw [writeAll_spec ws ok.functional, writeAll_spec ws ok.functional]
  have rng : ∀ {r idx axis}, r < dis.length → axis < ndim → Inside (shape dis r) idx →
      idx.getD axis 0 < (shape dis r).getD axis 0 ∧ axis < idx.length ∧ idx.length = ndim := by
    have aux : ∀ (ns idx : List ℕ) (axis : ℕ), axis < ns.length → Inside ns idx →
        idx.getD axis 0 < ns.getD axis 0 := by
      intro ns
      induction ns with
      | nil => intro idx axis h; simp at h
      | cons n ns ih =>
        intro idx axis h hi
        cases idx with
        | nil => exact hi.elim
        | cons i idx =>
          cases axis with
          | zero => simpa using hi.1
          | succ axis => simpa using ih idx axis (by simpa using h) hi.2
    intro r idx axis hr ha hi
    have h1 := ok.dims _ (shape_mem hr)
    have h2 := hi.length
    exact ⟨aux _ _ _ (by omega) hi, by omega, by omega⟩
  have dimr : ∀ {r}, r < dis.length → (shape dis r).length = ndim := fun hr => ok.dims _ (shape_mem hr)
  constructor
  · intro hw
    obtain ⟨r, ax, idx, hr, ha, hi, he, ⟨hc, _⟩ | ⟨hc, hn⟩⟩ := (ok.mem _ _ _).mp hw
    · omega
    obtain rfl : axis = ax := by omega
    obtain ⟨g1, g2, g3⟩ := rng hr ha hi
    have hd := dimr hr
    refine (ok.mem _ _ _).mpr ?_
    unfold plusNb at hn
    split_ifs at hn with h0
    · simp only [Option.some.injEq] at hn
      refine ⟨r, axis, idx.set axis (idx.getD axis 0 + 1), hr, ha,
        inside_set hi rfl rfl h0 (by omega), hn.symm, Or.inl ⟨rfl, ?_⟩⟩
      unfold minusNb
      rw [getD_set _ _ _ g2, if_pos (by omega), List.set_set, Nat.add_sub_cancel, set_getD _ _ g2, he]
    · cases hs : side rm r (2 * axis + 1) with
      | none => simp [hs] at hn
      | some x =>
        cases x with
        | none => simp [hs] at hn
        | some nb =>
          simp only [hs, Option.join_some, Option.map_some, Option.some.injEq] at hn
          obtain ⟨hnb, hcf⟩ := ok.conform hr ha hs
          have hs' := side_check ok.check hs
          rw [opposite_odd] at hs'
          refine ⟨nb, axis, idx.set axis 0, hnb, ha,
            inside_set hi hcf ((dimr hnb).trans hd.symm) (ok.size hnb ha).2 (by omega), hn.symm,
            Or.inl ⟨rfl, ?_⟩⟩
          unfold minusNb
          rw [getD_set _ _ _ g2, if_neg (by omega), hs']
          simp only [Option.join_some, Option.map_some, Option.some.injEq, List.set_set]
          rw [he, show (shape dis r).getD axis 0 - 1 = idx.getD axis 0 by omega, set_getD _ _ g2]
  · intro hw
    obtain ⟨r, ax, idx, hr, ha, hi, he, ⟨hc, hn⟩ | ⟨hc, _⟩⟩ := (ok.mem _ _ _).mp hw
    swap
    · omega
    obtain rfl : axis = ax := by omega
    obtain ⟨g1, g2, g3⟩ := rng hr ha hi
    have hd := dimr hr
    refine (ok.mem _ _ _).mpr ?_
    unfold minusNb at hn
    split_ifs at hn with h0
    · simp only [Option.some.injEq] at hn
      refine ⟨r, axis, idx.set axis (idx.getD axis 0 - 1), hr, ha,
        inside_set hi rfl rfl (by omega) (by omega), hn.symm, Or.inr ⟨rfl, ?_⟩⟩
      unfold plusNb
      rw [getD_set _ _ _ g2, if_pos (by omega), List.set_set, Nat.sub_add_cancel h0, set_getD _ _ g2, he]
    · cases hs : side rm r (2 * axis) with
      | none => simp [hs] at hn
      | some x =>
        cases x with
        | none => simp [hs] at hn
        | some nb =>
          simp only [hs, Option.join_some, Option.map_some, Option.some.injEq] at hn
          obtain ⟨hnb, hcf⟩ := ok.conform' hr ha hs
          have hs' := side_check ok.check hs
          rw [opposite_even] at hs'
          have hp := (ok.size hnb ha).2
          refine ⟨nb, axis, idx.set axis ((shape dis nb).getD axis 0 - 1), hnb, ha,
            inside_set hi hcf ((dimr hnb).trans hd.symm) (by omega) (by omega), hn.symm,
            Or.inr ⟨rfl, ?_⟩⟩
          unfold plusNb
          rw [getD_set _ _ _ g2, if_neg (by omega), hs']
          simp only [Option.join_some, Option.map_some, Option.some.injEq, List.set_set]
          rw [he, show 0 = idx.getD axis 0 by omega, set_getD _ _ g2]

/-- **C22, range.** Only elements have neighbours, only over sides of the mesh, and neighbours are elements. -/
theorem element_map_bounds (dis : List (List ℕ)) (rm : RegionMap) (ndim : ℕ) (m : EMap)
    (h : elementMap dis rm ndim = some m) (e c f : ℕ) (hf : Dict.get m (e, c) = some f) :
    e < total dis ∧ f < total dis ∧ c < 2 * ndim := by
  have key : ∀ e c f, Dict.get m (e, c) = some f → e < total dis ∧ c < 2 * ndim := by
    obtain ⟨ws, ok, rfl⟩ := ok_of h
    intro e c f hf
    rw [writeAll_spec ws ok.functional] at hf
    obtain ⟨r, ax, idx, hr, ha, hi, he, hc⟩ := (ok.mem _ _ _).mp hf
    refine ⟨?_, by omega⟩
    rw [he]
    exact lt_of_lt_of_le (num_bounds dis r idx hr hi).2 (acc_mono dis (by omega) (le_refl _))
  obtain ⟨h1, h2⟩ := key e c f hf
  refine ⟨h1, ?_, h2⟩
  rcases Nat.even_or_odd' c with ⟨a, rfl | rfl⟩
  · exact (key f _ e ((element_map_symmetric dis rm ndim m h f e a).mpr hf)).1
  · exact (key f _ e ((element_map_symmetric dis rm ndim m h e f a).mp hf)).1

/-- **C22, self-neighbours.** If every region glued to itself along an axis has at least two layers of elements
there, no element is its own neighbour. -/
theorem element_map_no_self (dis : List (List ℕ)) (rm : RegionMap) (ndim : ℕ) (m : EMap)
    (h : elementMap dis rm ndim = some m)
    (h2 : ∀ r axis, side rm r (2 * axis + 1) = some (some r) → 2 ≤ (shape dis r).getD axis 0) (e c : ℕ) :
    Dict.get m (e, c) ≠ some e := by
  have key : ∀ a, Dict.get m (e, 2 * a + 1) ≠ some e := by
    intro axis hg
    obtain ⟨ws, ok, rfl⟩ := ok_of h
    rw [writeAll_spec ws ok.functional] at hg
    obtain ⟨r, ax, idx, hr, ha, hi, he, ⟨hc, _⟩ | ⟨hc, hn⟩⟩ := (ok.mem _ _ _).mp hg
    · omega
    obtain rfl : axis = ax := by omega
    have hd : (shape dis r).length = ndim := ok.dims _ (shape_mem hr)
    have hl := hi.length
    have g2 : axis < idx.length := by omega
    unfold plusNb at hn
    split_ifs at hn with h0
    · simp only [Option.some.injEq] at hn
      obtain ⟨_, e2⟩ := num_inj dis hr hr (inside_set hi rfl rfl h0 (by omega)) hi (hn.trans he)
      have := getD_set idx axis (idx.getD axis 0 + 1) g2
      rw [e2] at this
      omega
    · cases hs : side rm r (2 * axis + 1) with
      | none => simp [hs] at hn
      | some x =>
        cases x with
        | none => simp [hs] at hn
        | some nb =>
          simp only [hs, Option.join_some, Option.map_some, Option.some.injEq] at hn
          obtain ⟨hnb, hcf⟩ := ok.conform hr ha hs
          obtain ⟨e1, e2⟩ := num_inj dis hnb hr (inside_set hi hcf
            ((ok.dims _ (shape_mem hnb)).trans hd.symm) (ok.size hnb ha).2 (by omega)) hi (hn.trans he)
          have := getD_set idx axis 0 g2
          rw [e2] at this
          have := h2 r axis (by rw [hs, e1])
          omega
  rcases Nat.even_or_odd' c with ⟨a, rfl | rfl⟩
  · intro hg
    exact key a ((element_map_symmetric dis rm ndim m h e e a).mpr hg)
  · exact key a

/-- **C22, success.** The element map of a checked mesh is generated whenever neighbouring regions have
layouts of the same shape across their interface and every region has a map entry for each side. -/
theorem element_map_exists (dis : List (List ℕ)) (rm : RegionMap) (ndim : ℕ)
    (hl : rm.length = dis.length) (hc : checkMap rm = true) (hd : ∀ s ∈ dis, s.length = ndim)
    (hp : ∀ s ∈ dis, ∀ n ∈ s, 0 < n)
    (hs : ∀ r c, r < dis.length → c < 2 * ndim → ∃ x, side rm r c = some x)
    (hconf : ∀ r c nb, r < dis.length → side rm r c = some (some nb) →
      (shape dis nb).eraseIdx (c / 2) = (shape dis r).eraseIdx (c / 2)) :
    ∃ m, elementMap dis rm ndim = some m := by
  unfold elementMap
  rw [if_pos ⟨hl, hc, hd, hp⟩]
  have hnb : ∀ {r c nb}, side rm r c = some (some nb) → nb < dis.length := by
    intro r c nb h
    have := side_check hc h
    rw [← hl]
    by_contra hx
    simp [side, List.getElem?_eq_none (Nat.le_of_not_lt hx)] at this
  have hsome : ∃ ws, collect (jobs dis rm ndim) = some ws := by
    apply collect_isSome
    intro j hj
    obtain ⟨r, axis, layer, hr, ha, hlay, hj | hj⟩ := mem_jobs.mp hj
    · subst hj
      unfold minusJob
      split_ifs with h0
      · obtain ⟨x, hx⟩ := hs r (2 * axis) hr (by omega)
        cases x with
        | none => exact ⟨[], by simp [hx]⟩
        | some nb =>
          have e := hconf r _ nb hr hx
          rw [show 2 * axis / 2 = axis by omega] at e
          simp only [hx, if_pos (hnb hx)]
          unfold layerWrites
          rw [if_pos (by rw [e]; exact bcastable_refl _)]
          exact ⟨_, rfl⟩
      · unfold layerWrites
        rw [if_pos (bcastable_refl _)]
        exact ⟨_, rfl⟩
    · subst hj
      unfold plusJob
      split_ifs with h0
      · obtain ⟨x, hx⟩ := hs r (2 * axis + 1) hr (by omega)
        cases x with
        | none => exact ⟨[], by simp [hx]⟩
        | some nb =>
          have e := hconf r _ nb hr hx
          rw [show (2 * axis + 1) / 2 = axis by omega] at e
          simp only [hx, if_pos (hnb hx)]
          unfold layerWrites
          rw [if_pos (by rw [e]; exact bcastable_refl _)]
          exact ⟨_, rfl⟩
      · unfold layerWrites
        rw [if_pos (bcastable_refl _)]
        exact ⟨_, rfl⟩
  obtain ⟨ws, hws⟩ := hsome
  exact ⟨writeAll ws, by rw [hws]; rfl⟩

/-- Two regions side by side, periodic in `y`: both theorems apply. -/
def twoRegions : RegionMap := [[none, some 1, some 0, some 0], [some 0, none, some 1, some 1]]

example : ∃ m, elementMap [[2, 3], [1, 3]] twoRegions 2 = some m ∧
    Dict.get m (1, 1) = some 6 ∧ Dict.get m (6, 0) = some 1 ∧ Dict.get m (0, 2) = some 4 ∧
    Dict.get m (0, 0) = none := by
  refine ⟨(elementMap [[2, 3], [1, 3]] twoRegions 2).getD [], ?_⟩
  decide +kernel

end Phyem.Mesh
