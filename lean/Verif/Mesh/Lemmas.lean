import Verif.Mesh.Model
import Mathlib.Algebra.BigOperators.Group.List.Basic
import Mathlib.Algebra.Order.BigOperators.Group.List
import Mathlib.Data.List.InsertIdx
import Mathlib.Tactic.Linarith
import Mathlib.Tactic.Ring

/-!
Lemmas on multi-indices, the element numbering and the writes of the element map.
-/

namespace Phyem.Mesh

theorem Inside.length : ∀ {dis idx : List ℕ}, Inside dis idx → idx.length = dis.length
  | [], [], _ => rfl
  | _ :: _, _ :: _, h => by simp [Inside.length h.2]
  | [], _ :: _, h => h.elim
  | _ :: _, [], h => h.elim

theorem stride_lt : ∀ {dis idx : List ℕ}, Inside dis idx → stride dis idx < dis.prod
  | [], [], _ => by simp [stride]
  | n :: ns, i :: is, h => by
    have ih := stride_lt h.2
    have h1 := h.1
    simp only [stride, List.prod_cons]
    calc i + n * stride ns is < n + n * stride ns is := by omega
      _ = n * (stride ns is + 1) := by ring
      _ ≤ n * ns.prod := Nat.mul_le_mul_left _ ih
  | [], _ :: _, h => h.elim
  | _ :: _, [], h => h.elim

theorem stride_inj : ∀ {dis idx idx' : List ℕ}, Inside dis idx → Inside dis idx' →
    stride dis idx = stride dis idx' → idx = idx'
  | [], [], [], _, _, _ => rfl
  | n :: ns, i :: is, i' :: is', h, h', e => by
    simp only [stride] at e
    have e1 : i = i' := by
      have := congrArg (· % n) e
      simpa [Nat.add_mul_mod_self_left, Nat.mod_eq_of_lt h.1, Nat.mod_eq_of_lt h'.1] using this
    subst e1
    have hn : 0 < n := by have := h.1; omega
    have e2 : stride ns is = stride ns is' := Nat.eq_of_mul_eq_mul_left hn (by omega)
    rw [stride_inj h.2 h'.2 e2]
  | [], [], _ :: _, _, h, _ => h.elim
  | [], _ :: _, _, h, _, _ => h.elim
  | _ :: _, [], _, h, _, _ => h.elim
  | _ :: _, _ :: _, [], _, h, _ => h.elim

theorem stride_snoc : ∀ (ns is : List ℕ) (n i : ℕ), is.length = ns.length →
    stride (ns ++ [n]) (is ++ [i]) = stride ns is + ns.prod * i
  | [], [], n, i, _ => by simp [stride]
  | m :: ns, j :: is, n, i, h => by
    have ih := stride_snoc ns is n i (by simpa using h)
    simp only [List.cons_append, stride, ih, List.prod_cons]
    ring
  | [], _ :: _, _, _, h => by simp at h
  | _ :: _, [], _, _, h => by simp at h

theorem inside_snoc : ∀ (ns is : List ℕ) (n i : ℕ), is.length = ns.length →
    (Inside (ns ++ [n]) (is ++ [i]) ↔ Inside ns is ∧ i < n)
  | [], [], n, i, _ => by simp [Inside]
  | m :: ns, j :: is, n, i, h => by
    have ih := inside_snoc ns is n i (by simpa using h)
    simp only [List.cons_append, Inside, ih, and_assoc]
  | [], _ :: _, _, _, h => by simp at h
  | _ :: _, [], _, _, h => by simp at h

/-- The loop from the last axis down computes the multi-index of a number: its reverse is inside the shape
and has that number. -/
theorem peel_spec : ∀ (n : ℕ) (dis : List ℕ) (l : ℕ), dis.length = n + 1 → l < dis.prod →
    Inside dis (peel dis n l).reverse ∧ stride dis (peel dis n l).reverse = l
  | 0, dis, l, hd, hl => by
    obtain ⟨a, rfl⟩ := List.length_eq_one_iff.mp hd
    simp only [List.prod_cons, List.prod_nil, mul_one] at hl
    simp [peel, Inside, stride, hl]
  | n + 1, dis, l, hd, hl => by
    obtain ⟨ns, m, rfl⟩ : ∃ ns m, dis = ns ++ [m] := by
      refine ⟨dis.dropLast, dis.getLast (by intro h; simp [h] at hd), ?_⟩
      exact (List.dropLast_append_getLast _).symm
    have hns : ns.length = n + 1 := by simpa using hd
    have ht : (ns ++ [m]).take (n + 1) = ns := by
      rw [← hns]; simp
    simp only [List.prod_append, List.prod_cons, List.prod_nil, mul_one] at hl
    have hpos : 0 < ns.prod := by
      rcases Nat.eq_zero_or_pos ns.prod with h | h
      · rw [h] at hl; simp at hl
      · exact h
    have hpeel : ∀ l', peel (ns ++ [m]) n l' = peel ns n l' := by
      have aux : ∀ k, k ≤ n → ∀ l', peel (ns ++ [m]) k l' = peel ns k l' := by
        intro k
        induction k with
        | zero => intro _ l'; rfl
        | succ k ih =>
          intro hk l'
          have : (ns ++ [m]).take (k + 1) = ns.take (k + 1) := by
            rw [List.take_append_of_le_length (by omega)]
          simp only [peel, this, ih (by omega)]
      exact aux n (le_refl n)
    have ih := peel_spec n ns (l % ns.prod) hns (Nat.mod_lt _ hpos)
    simp only [peel, ht, hpeel, List.reverse_cons]
    have hlen := ih.1.length
    constructor
    · rw [inside_snoc _ _ _ _ hlen]
      exact ⟨ih.1, Nat.div_lt_of_lt_mul hl⟩
    · rw [stride_snoc _ _ _ _ hlen, ih.2, Nat.mod_add_div]

theorem acc_succ (dis : List (List ℕ)) (r : ℕ) (h : r < dis.length) :
    acc dis (r + 1) = acc dis r + (shape dis r).prod := by
  unfold acc shape
  rw [List.take_add_one, List.map_append, List.sum_append]
  simp [List.getElem?_eq_getElem h]

theorem acc_mono (dis : List (List ℕ)) {r r' : ℕ} (h : r ≤ r') (h' : r' ≤ dis.length) :
    acc dis r ≤ acc dis r' := by
  induction r', h using Nat.le_induction with
  | base => exact le_refl _
  | succ k hk ih =>
    rw [acc_succ dis k (by omega)]
    have := ih (by omega)
    omega

theorem search_spec (dis : List (List ℕ)) (i r : ℕ) (hr : r < dis.length) (h1 : acc dis r ≤ i)
    (h2 : i < acc dis (r + 1)) : ∀ (len j : ℕ), j + len = dis.length → j ≤ r →
    search dis.length i j ((List.range' j len).map (acc dis)) = some r
  | 0, j, hj, hjr => by omega
  | 1, j, hj, hjr => by
    have e : j = r := by omega
    simp only [List.range'_one, List.map_cons, List.map_nil, search]
    rw [if_pos (by omega), e]
  | len + 2, j, hj, hjr => by
    have e : (List.range' j (len + 2)).map (acc dis) =
        acc dis j :: acc dis (j + 1) :: (List.range' (j + 2) len).map (acc dis) := by
      simp [List.range'_succ]
    have e' : (List.range' (j + 1) (len + 1)).map (acc dis) =
        acc dis (j + 1) :: (List.range' (j + 2) len).map (acc dis) := by
      simp [List.range'_succ]
    rw [e]
    simp only [search]
    rw [if_neg (by omega)]
    by_cases hjr' : j = r
    · subst hjr'; rw [if_pos ⟨h1, h2⟩]
    · have hm := acc_mono dis (r := j + 1) (r' := r) (by omega) (by omega)
      rw [if_neg (by omega), ← e']
      exact search_spec dis i r hr h1 h2 (len + 1) (j + 1) (by omega) (by omega)

/-- Every number below the total lies in exactly one region. -/
theorem exists_region (dis : List (List ℕ)) (i : ℕ) (h : i < total dis) :
    ∃ r, r < dis.length ∧ acc dis r ≤ i ∧ i < acc dis (r + 1) := by
  have aux : ∀ k, k ≤ dis.length → i < acc dis k →
      ∃ r, r < k ∧ acc dis r ≤ i ∧ i < acc dis (r + 1) := by
    intro k
    induction k with
    | zero => intro _ h; simp [acc] at h
    | succ k ih =>
      intro hk h
      by_cases hc : i < acc dis k
      · obtain ⟨r, a, b, c⟩ := ih (by omega) hc
        exact ⟨r, by omega, b, c⟩
      · exact ⟨k, by omega, by omega, h⟩
  exact aux _ (le_refl _) h

theorem num_bounds (dis : List (List ℕ)) (r : ℕ) (idx : List ℕ) (hr : r < dis.length)
    (hi : Inside (shape dis r) idx) : acc dis r ≤ num dis r idx ∧ num dis r idx < acc dis (r + 1) := by
  have := stride_lt hi
  rw [acc_succ dis r hr]
  unfold num
  omega

theorem num_inj (dis : List (List ℕ)) {r r' : ℕ} {idx idx' : List ℕ} (hr : r < dis.length)
    (hr' : r' < dis.length) (hi : Inside (shape dis r) idx) (hi' : Inside (shape dis r') idx')
    (e : num dis r idx = num dis r' idx') : r = r' ∧ idx = idx' := by
  have b := num_bounds dis r idx hr hi
  have b' := num_bounds dis r' idx' hr' hi'
  have er : r = r' := by
    by_contra hne
    rcases Nat.lt_or_gt_of_ne hne with h | h
    · have := acc_mono dis (r := r + 1) (r' := r') (by omega) (by omega)
      omega
    · have := acc_mono dis (r := r' + 1) (r' := r) (by omega) (by omega)
      omega
  subst er
  refine ⟨rfl, stride_inj hi hi' ?_⟩
  unfold num at e
  omega

/-! ### Layers -/

theorem mem_boxes : ∀ {ns idx : List ℕ}, idx ∈ boxes ns ↔ Inside ns idx
  | [], idx => by cases idx <;> simp [boxes, Inside]
  | n :: ns, idx => by
    simp only [boxes, List.mem_flatMap, List.mem_range, List.mem_map]
    constructor
    · rintro ⟨i, hi, is, his, rfl⟩
      exact ⟨hi, mem_boxes.mp his⟩
    · intro h
      cases idx with
      | nil => exact h.elim
      | cons i is => exact ⟨i, h.1, is, mem_boxes.mpr h.2, rfl⟩

theorem inside_insert : ∀ {ns idx : List ℕ} {axis layer n : ℕ}, ns[axis]? = some n →
    Inside (ns.eraseIdx axis) idx → layer < n → Inside ns (idx.insertIdx axis layer)
  | [], _, _, _, _, h, _, _ => by simp at h
  | m :: ns, idx, 0, layer, n, h, hi, hl => by
    simp only [List.getElem?_cons_zero, Option.some.injEq] at h
    subst h
    simpa [Inside] using ⟨hl, hi⟩
  | m :: ns, [], axis + 1, layer, n, h, hi, hl => by
    simp [Inside] at hi
  | m :: ns, i :: idx, axis + 1, layer, n, h, hi, hl => by
    simp only [List.getElem?_cons_succ] at h
    simp only [List.eraseIdx_cons_succ, Inside] at hi
    simpa [Inside] using ⟨hi.1, inside_insert h hi.2 hl⟩

theorem inside_erase : ∀ {ns idx : List ℕ} {axis : ℕ}, Inside ns idx →
    Inside (ns.eraseIdx axis) (idx.eraseIdx axis)
  | [], [], _, _ => by simp [Inside]
  | m :: ns, i :: idx, 0, h => h.2
  | m :: ns, i :: idx, axis + 1, h => by
    simpa [Inside] using ⟨h.1, inside_erase h.2⟩
  | [], _ :: _, _, h => h.elim
  | _ :: _, [], _, h => h.elim

theorem insert_erase_set (idx : List ℕ) (axis layer : ℕ) (h : axis < idx.length) :
    (idx.eraseIdx axis).insertIdx axis layer = idx.set axis layer := by
  induction idx generalizing axis with
  | nil => simp at h
  | cons i idx ih =>
    cases axis with
    | zero => simp
    | succ axis => simpa using ih axis (by simpa using h)

theorem getElem?_insert (idx : List ℕ) (axis layer : ℕ) (h : axis ≤ idx.length) :
    (idx.insertIdx axis layer)[axis]? = some layer := by
  rw [List.getElem?_insertIdx_self]
  simp [h]

theorem erase_insert (idx : List ℕ) (axis layer : ℕ) (h : axis ≤ idx.length) :
    (idx.insertIdx axis layer).eraseIdx axis = idx := by
  induction idx generalizing axis with
  | nil => simp at h; subst h; simp
  | cons i idx ih =>
    cases axis with
    | zero => simp
    | succ axis => simpa using ih axis (by simpa using h)

theorem set_insert (idx : List ℕ) (axis layer layer' : ℕ) (h : axis ≤ idx.length) :
    (idx.insertIdx axis layer).set axis layer' = idx.insertIdx axis layer' := by
  induction idx generalizing axis with
  | nil => simp at h; subst h; simp
  | cons i idx ih =>
    cases axis with
    | zero => simp
    | succ axis => simpa using ih axis (by simpa using h)

theorem clip_self : ∀ {v idx : List ℕ}, Inside v idx → clip v idx = idx
  | [], [], _ => rfl
  | a :: v, i :: idx, h => by
    have h1 := h.1
    simp only [clip, clip_self h.2]
    split_ifs with e
    · congr 1; omega
    · rfl
  | [], _ :: _, h => h.elim
  | _ :: _, [], h => h.elim

theorem bcastable_antisymm : ∀ {v t : List ℕ}, bcastable v t = true → bcastable t v = true → v = t
  | [], [], _, _ => rfl
  | a :: v, b :: t, h, h' => by
    simp only [bcastable, Bool.and_eq_true, Bool.or_eq_true, decide_eq_true_eq] at h h'
    rw [bcastable_antisymm h.2 h'.2]
    congr 1
    omega
  | [], _ :: _, h, _ => by simp [bcastable] at h
  | _ :: _, [], h, _ => by simp [bcastable] at h

theorem bcastable_refl : ∀ v : List ℕ, bcastable v v = true
  | [] => rfl
  | a :: v => by simp [bcastable, bcastable_refl v]

/-! ### Running the jobs -/

theorem collect_spec : ∀ (js : List (Option (List Write))) (ws : List Write), collect js = some ws →
    (∀ j ∈ js, ∃ l, j = some l) ∧ ∀ w, w ∈ ws ↔ ∃ l, some l ∈ js ∧ w ∈ l
  | [], ws, h => by simp [collect] at h; subst h; simp
  | none :: js, ws, h => by simp [collect] at h
  | some l :: js, ws, h => by
    simp only [collect, Option.map_eq_some_iff] at h
    obtain ⟨ws', h', rfl⟩ := h
    obtain ⟨ih1, ih2⟩ := collect_spec js ws' h'
    constructor
    · intro j hj
      rcases List.mem_cons.mp hj with rfl | hj
      · exact ⟨_, rfl⟩
      · exact ih1 j hj
    · intro w
      rw [List.mem_append, ih2]
      constructor
      · rintro (h | ⟨l', a, b⟩)
        · exact ⟨l, by simp, h⟩
        · exact ⟨l', by simp [a], b⟩
      · rintro ⟨l', a, b⟩
        rcases List.mem_cons.mp a with e | a
        · simp only [Option.some.injEq] at e; subst e; exact Or.inl b
        · exact Or.inr ⟨l', a, b⟩

theorem collect_isSome : ∀ (js : List (Option (List Write))), (∀ j ∈ js, ∃ l, j = some l) →
    ∃ ws, collect js = some ws
  | [], _ => ⟨[], rfl⟩
  | none :: js, h => by obtain ⟨l, hl⟩ := h none (by simp); simp at hl
  | some l :: js, h => by
    obtain ⟨ws, hws⟩ := collect_isSome js fun j hj => h j (by simp [hj])
    exact ⟨l ++ ws, by simp [collect, hws]⟩

theorem writeAll_aux (ws : List Write) : ∀ (m : EMap) (k : ℕ × ℕ) (v : ℕ),
    Dict.get (ws.foldl (fun m w => Dict.put m w.1 w.2) m) k = some v →
    (k, v) ∈ ws ∨ Dict.get m k = some v := by
  induction ws with
  | nil => intro m k v h; exact Or.inr h
  | cons w ws ih =>
    intro m k v h
    rcases ih _ _ _ h with h | h
    · exact Or.inl (by simp [h])
    · rw [Dict.get_put] at h
      split_ifs at h with e
      · have h' : w.2 = v := by simpa using h
        left
        rw [e, ← h']
        simp
      · exact Or.inr h

theorem writeAll_isSome (ws : List Write) : ∀ (m : EMap) (k : ℕ × ℕ),
    ((∃ v, (k, v) ∈ ws) ∨ ∃ v, Dict.get m k = some v) →
    ∃ v, Dict.get (ws.foldl (fun m w => Dict.put m w.1 w.2) m) k = some v := by
  induction ws with
  | nil => intro m k h; simpa using h
  | cons w ws ih =>
    intro m k h
    apply ih
    rcases h with ⟨v, h⟩ | ⟨v, h⟩
    · rcases List.mem_cons.mp h with e | h
      · right
        subst e
        exact ⟨v, by rw [Dict.get_put]; simp⟩
      · exact Or.inl ⟨v, h⟩
    · right
      rw [Dict.get_put]
      split_ifs
      · exact ⟨_, rfl⟩
      · exact ⟨v, h⟩

/-- If no entry is written with two values, the final array holds exactly what was written. -/
theorem writeAll_spec (ws : List Write) (hf : ∀ k v v', (k, v) ∈ ws → (k, v') ∈ ws → v = v') (k : ℕ × ℕ)
    (v : ℕ) : Dict.get (writeAll ws) k = some v ↔ (k, v) ∈ ws := by
  have h1 : ∀ v, Dict.get (writeAll ws) k = some v → (k, v) ∈ ws := by
    intro v h
    rcases writeAll_aux ws [] k v h with h | h
    · exact h
    · simp [Dict.get] at h
  refine ⟨h1 v, fun h => ?_⟩
  obtain ⟨v', h'⟩ := writeAll_isSome ws [] k (Or.inl ⟨v, h⟩)
  have := hf k v v' h (h1 v' h')
  subst this
  exact h'

end Phyem.Mesh
