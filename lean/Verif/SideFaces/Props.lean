import Verif.SideFaces.Model
import Mathlib.Data.List.Nodup
import Mathlib.Data.List.InsertIdx
import Mathlib.Data.List.Forall2
import Mathlib.Tactic.Linarith

/-! Which faces a boundary section has. -/

namespace Phyem.SideFaces

open Phyem.Dict

/-- Indices of an array of this shape. -/
def InBox (idx shape : List ℕ) : Prop := List.Forall₂ (· < ·) idx shape

lemma mem_box : ∀ (s t : List ℕ), t ∈ box s ↔ InBox t s
  | [], t => by
    simp only [box, List.mem_singleton, InBox]
    constructor
    · rintro rfl; exact .nil
    · intro h; cases h; rfl
  | n :: s, t => by
    simp only [box, List.mem_flatMap, List.mem_map, List.mem_range, InBox]
    constructor
    · rintro ⟨u, hu, a, ha, rfl⟩
      exact .cons ha ((mem_box s u).1 hu)
    · intro h
      cases h with
      | cons ha hu => exact ⟨_, (mem_box s _).2 hu, _, ha, rfl⟩

lemma nodup_box : ∀ s : List ℕ, (box s).Nodup
  | [] => by simp [box]
  | n :: s => by
    rw [box, List.nodup_flatMap]
    refine ⟨fun t _ => List.nodup_range.map fun a b e => (List.cons.inj e).1, ?_⟩
    refine (nodup_box s).imp_of_mem ?_
    intro a b _ _ hne
    rw [Function.onFun, List.disjoint_left]
    intro x hx hy
    obtain ⟨_, -, rfl⟩ := List.mem_map.1 hx
    obtain ⟨_, -, e⟩ := List.mem_map.1 hy
    exact hne (List.cons.inj e).2.symm

lemma insert_box : ∀ (m : ℕ) (shape : List ℕ) (v s : ℕ), shape[m]? = some s → v < s → ∀ idx,
    (InBox idx shape ∧ idx[m]? = some v ↔ ∃ t, InBox t (shape.eraseIdx m) ∧ idx = t.insertIdx m v)
  | 0, [], v, s, h, _, _ => by cases h
  | 0, a :: shape, v, s, h, hv, idx => by
    cases h
    simp only [List.eraseIdx_cons_zero, List.insertIdx_zero]
    constructor
    · rintro ⟨h1, h2⟩
      cases h1 with
      | cons h3 h4 =>
        cases h2
        exact ⟨_, h4, rfl⟩
    · rintro ⟨t, ht, rfl⟩
      exact ⟨.cons hv ht, rfl⟩
  | m + 1, [], v, s, h, _, _ => by cases h
  | m + 1, a :: shape, v, s, h, hv, idx => by
    have ih := insert_box m shape v s (by simpa using h) hv
    simp only [List.eraseIdx_cons_succ]
    constructor
    · rintro ⟨h1, h2⟩
      cases h1 with
      | cons h3 h4 =>
        obtain ⟨t, ht, rfl⟩ := (ih _).1 ⟨h4, by simpa using h2⟩
        exact ⟨_ :: t, .cons h3 ht, by simp⟩
    · rintro ⟨t, ht, rfl⟩
      cases ht with
      | cons h3 h4 =>
        rw [List.insertIdx_succ_cons]
        obtain ⟨h5, h6⟩ := (ih _).2 ⟨_, h4, rfl⟩
        exact ⟨.cons h3 h5, by simpa using h6⟩

/-- The index along an axis of the elements on a side. -/
def edge (shape : List ℕ) (m n : ℕ) : ℕ := if n = 0 then 0 else (shape[m]?).getD 0 - 1

/-- An element of a region is on a side. -/
def On (num : ℕ → List ℕ → ℕ) (ri : ℕ) (shape : List ℕ) (f : Face) : Prop :=
  ∃ idx, InBox idx shape ∧ idx[f.2.1]? = some (edge shape f.2.1 f.2.2) ∧ f.1 = num ri idx

lemma edge_lt (shape : List ℕ) (hp : ∀ s ∈ shape, 0 < s) (m n s : ℕ) (h : shape[m]? = some s) : edge shape m n < s := by
  have := hp s (List.mem_of_getElem? h)
  unfold edge
  rw [h]
  split <;> simp <;> omega

lemma side_mem (num : ℕ → List ℕ → ℕ) (ri : ℕ) (shape : List ℕ) (hp : ∀ s ∈ shape, 0 < s) (j : ℕ) (hj : j / 2 < shape.length) (f : Face) :
    f ∈ side num ri shape j ↔ (f.2.1 = j / 2 ∧ f.2.2 = j % 2) ∧ On num ri shape f := by
  obtain ⟨e, m, n⟩ := f
  have hs := List.getElem?_eq_getElem hj
  simp only [side, List.mem_map, mem_box, Prod.mk.injEq, On]
  constructor
  · rintro ⟨t, ht, rfl, rfl, rfl⟩
    obtain ⟨h1, h2⟩ := (insert_box _ shape _ _ hs (edge_lt shape hp _ (j % 2) _ hs) _).2 ⟨t, ht, rfl⟩
    exact ⟨⟨rfl, rfl⟩, _, h1, h2, rfl⟩
  · rintro ⟨⟨rfl, rfl⟩, idx, h1, h2, rfl⟩
    obtain ⟨t, ht, rfl⟩ := (insert_box _ shape _ _ hs (edge_lt shape hp _ (j % 2) _ hs) _).1 ⟨h1, h2⟩
    exact ⟨t, ht, rfl, rfl, rfl⟩

lemma sides_mem (num : ℕ → List ℕ → ℕ) (inner : ℕ → ℕ → Bool) (ri : ℕ) (shape : List ℕ) (hp : ∀ s ∈ shape, 0 < s) :
    ∀ (l : List Bool) (j : ℕ) (F : List Face), sides num inner ri shape j l = some F → ∀ f, f ∈ F ↔
      ∃ k, l[k]? = some true ∧ (f.2.1 = (j + k) / 2 ∧ f.2.2 = (j + k) % 2) ∧ On num ri shape f
  | [], j, F, h, f => by
    rw [sides, Option.some.injEq] at h
    subst h
    simp
  | false :: l, j, F, h, f => by
    rw [sides] at h
    rw [sides_mem num inner ri shape hp l (j + 1) F h f]
    constructor
    · rintro ⟨k, h1, h2⟩
      exact ⟨k + 1, by simpa using h1, by rw [show j + (k + 1) = j + 1 + k by omega]; exact h2⟩
    · rintro ⟨k, h1, h2⟩
      cases k with
      | zero => simp at h1
      | succ k => exact ⟨k, by simpa using h1, by rw [show j + 1 + k = j + (k + 1) by omega]; exact h2⟩
  | true :: l, j, F, h, f => by
    rw [sides] at h
    split at h
    · cases h
    · split at h
      · rename_i hj
        obtain ⟨G, hG, rfl⟩ := Option.map_eq_some_iff.1 h
        rw [List.mem_append, sides_mem num inner ri shape hp l (j + 1) G hG f, side_mem num ri shape hp j hj.2]
        constructor
        · rintro (h1 | ⟨k, h1, h2⟩)
          · exact ⟨0, rfl, h1⟩
          · exact ⟨k + 1, by simpa using h1, by rw [show j + (k + 1) = j + 1 + k by omega]; exact h2⟩
        · rintro ⟨k, h1, h2⟩
          cases k with
          | zero => exact Or.inl h2
          | succ k => exact Or.inr ⟨k, by simpa using h1, by rw [show j + 1 + k = j + (k + 1) by omega]; exact h2⟩
      · cases h

/-- C202: the faces of a section are exactly the sides of elements on the sides of regions that it covers. -/
theorem faces_mem (num : ℕ → List ℕ → ℕ) (inner : ℕ → ℕ → Bool) (shape : ℕ → List ℕ) (hp : ∀ ri, ∀ s ∈ shape ri, 0 < s) (map : List (ℕ × List Bool))
    (F : List Face) (h : faces num inner shape map = some F) (e m n : ℕ) :
    (e, m, n) ∈ F ↔ n < 2 ∧ ∃ ri l, (ri, l) ∈ map ∧ l[2 * m + n]? = some true ∧
      ∃ idx, InBox idx (shape ri) ∧ idx[m]? = some (if n = 0 then 0 else ((shape ri)[m]?).getD 0 - 1) ∧ e = num ri idx := by
  induction map generalizing F with
  | nil =>
    rw [faces, Option.some.injEq] at h
    subst h
    simp
  | cons p rest ih =>
    obtain ⟨ri, l⟩ := p
    rw [faces] at h
    obtain ⟨A, hA, h⟩ := Option.bind_eq_some_iff.1 h
    obtain ⟨B, hB, rfl⟩ := Option.map_eq_some_iff.1 h
    rw [List.mem_append, ih B hB, sides_mem num inner ri (shape ri) (hp ri) l 0 A hA]
    constructor
    · rintro (⟨k, h1, ⟨h2, h3⟩, h4⟩ | ⟨h1, ri', l', h2, h3⟩)
      · have hk : k = 2 * m + n := by simp only [Nat.zero_add] at h2 h3; omega
        subst hk
        exact ⟨by simp only at h3; omega, ri, l, List.mem_cons_self, h1, h4⟩
      · exact ⟨h1, ri', l', List.mem_cons_of_mem _ h2, h3⟩
    · rintro ⟨h1, ri', l', h2, h3, h4⟩
      rcases List.mem_cons.1 h2 with h2 | h2
      · cases h2
        exact Or.inl ⟨2 * m + n, h3, ⟨by simp only; omega, by simp only; omega⟩, h4⟩
      · exact Or.inr ⟨h1, ri', l', h2, h3, h4⟩

lemma sides_some (num : ℕ → List ℕ → ℕ) (inner : ℕ → ℕ → Bool) (ri : ℕ) (shape : List ℕ) : ∀ (l : List Bool) (j : ℕ), (sides num inner ri shape j l).isSome ↔
    ∀ k, l[k]? = some true → inner ri (j + k) = false ∧ (shape.length = 2 ∨ shape.length = 3) ∧ (j + k) / 2 < shape.length
  | [], j => by simp [sides]
  | b :: l, j => by
    have ih := sides_some num inner ri shape l (j + 1)
    have hs : (∀ k, (b :: l)[k]? = some true → inner ri (j + k) = false ∧ (shape.length = 2 ∨ shape.length = 3) ∧ (j + k) / 2 < shape.length) ↔
        (b = true → inner ri j = false ∧ (shape.length = 2 ∨ shape.length = 3) ∧ j / 2 < shape.length) ∧
        ∀ k, l[k]? = some true → inner ri (j + 1 + k) = false ∧ (shape.length = 2 ∨ shape.length = 3) ∧ (j + 1 + k) / 2 < shape.length := by
      constructor
      · intro h
        refine ⟨fun hb => h 0 (by simp [hb]), fun k hk => ?_⟩
        have := h (k + 1) (by simpa using hk)
        rwa [show j + (k + 1) = j + 1 + k by omega] at this
      · rintro ⟨h1, h2⟩ k hk
        cases k with
        | zero => exact h1 (by simpa using hk)
        | succ k =>
          have := h2 k (by simpa using hk)
          rwa [show j + 1 + k = j + (k + 1) by omega] at this
    rw [hs, ← ih]
    cases b with
    | false => simp [sides]
    | true =>
      rw [sides]
      split
      · rename_i hi; simp [hi]
      · rename_i hi
        split
        · rename_i hj; simp [hi, hj]
        · rename_i hj
          simp only [Option.isSome_none, Bool.false_eq_true, forall_const, false_iff]
          rintro ⟨⟨-, h2⟩, -⟩
          exact hj h2

/-- C202: a section has faces iff it covers only sides that are on the boundary of the mesh, in two or three dimensions. -/
theorem faces_iff (num : ℕ → List ℕ → ℕ) (inner : ℕ → ℕ → Bool) (shape : ℕ → List ℕ) (map : List (ℕ × List Bool)) :
    (faces num inner shape map).isSome ↔ ∀ p ∈ map, ∀ j, p.2[j]? = some true →
      inner p.1 j = false ∧ ((shape p.1).length = 2 ∨ (shape p.1).length = 3) ∧ j / 2 < (shape p.1).length := by
  induction map with
  | nil => simp [faces]
  | cons p rest ih =>
    obtain ⟨ri, l⟩ := p
    have hs := sides_some num inner ri (shape ri) l 0
    simp only [Nat.zero_add] at hs
    rw [List.forall_mem_cons, ← ih, ← hs, faces]
    cases sides num inner ri (shape ri) 0 l with
    | none => simp
    | some A => simp

lemma side_nodup (num : ℕ → List ℕ → ℕ) (ri : ℕ) (shape : List ℕ) (hp : ∀ s ∈ shape, 0 < s) (j : ℕ) (hj : j / 2 < shape.length)
    (hn : ∀ a b, InBox a shape → InBox b shape → num ri a = num ri b → a = b) : (side num ri shape j).Nodup := by
  have hs := List.getElem?_eq_getElem hj
  unfold side
  refine List.Nodup.map_on ?_ (nodup_box _)
  intro a ha b hb e
  rw [mem_box] at ha hb
  have h1 := (insert_box _ shape _ _ hs (edge_lt shape hp _ (j % 2) _ hs) _).2 ⟨a, ha, rfl⟩
  have h2 := (insert_box _ shape _ _ hs (edge_lt shape hp _ (j % 2) _ hs) _).2 ⟨b, hb, rfl⟩
  exact List.insertIdx_injective _ _ (hn _ _ h1.1 h2.1 (Prod.mk.inj e).1)

lemma sides_nodup (num : ℕ → List ℕ → ℕ) (inner : ℕ → ℕ → Bool) (ri : ℕ) (shape : List ℕ) (hp : ∀ s ∈ shape, 0 < s)
    (hn : ∀ a b, InBox a shape → InBox b shape → num ri a = num ri b → a = b) :
    ∀ (l : List Bool) (j : ℕ) (F : List Face), sides num inner ri shape j l = some F → F.Nodup
  | [], j, F, h => by
    rw [sides, Option.some.injEq] at h
    subst h
    exact List.nodup_nil
  | false :: l, j, F, h => by
    rw [sides] at h
    exact sides_nodup num inner ri shape hp hn l (j + 1) F h
  | true :: l, j, F, h => by
    rw [sides] at h
    split at h
    · cases h
    · split at h
      · rename_i hj
        obtain ⟨G, hG, rfl⟩ := Option.map_eq_some_iff.1 h
        rw [List.nodup_append]
        refine ⟨side_nodup num ri shape hp j hj.2 hn, sides_nodup num inner ri shape hp hn l (j + 1) G hG, ?_⟩
        intro f hf g hg e
        subst e
        obtain ⟨⟨h1, h2⟩, -⟩ := (side_mem num ri shape hp j hj.2 f).1 hf
        obtain ⟨k, -, ⟨h3, h4⟩, -⟩ := (sides_mem num inner ri shape hp l (j + 1) G hG f).1 hg
        omega
      · cases h

/-- C202: no face is in a section twice, if elements have different numbers. -/
theorem faces_nodup (num : ℕ → List ℕ → ℕ) (inner : ℕ → ℕ → Bool) (shape : ℕ → List ℕ) (hp : ∀ ri, ∀ s ∈ shape ri, 0 < s) (map : List (ℕ × List Bool))
    (hm : (map.map (·.1)).Nodup) (hn : ∀ ri ri' a b, InBox a (shape ri) → InBox b (shape ri') → num ri a = num ri' b → ri = ri' ∧ a = b)
    (F : List Face) (h : faces num inner shape map = some F) : F.Nodup := by
  induction map generalizing F with
  | nil =>
    rw [faces, Option.some.injEq] at h
    subst h
    exact List.nodup_nil
  | cons p rest ih =>
    obtain ⟨ri, l⟩ := p
    rw [List.map_cons, List.nodup_cons] at hm
    rw [faces] at h
    obtain ⟨A, hA, h⟩ := Option.bind_eq_some_iff.1 h
    obtain ⟨B, hB, rfl⟩ := Option.map_eq_some_iff.1 h
    rw [List.nodup_append]
    refine ⟨sides_nodup num inner ri (shape ri) (hp ri) (fun a b ha hb e => (hn ri ri a b ha hb e).2) l 0 A hA, ih hm.2 B hB, ?_⟩
    rintro ⟨e, m, n⟩ hf g hg rfl
    obtain ⟨k, -, -, idx, h1, -, h2⟩ := (sides_mem num inner ri (shape ri) (hp ri) l 0 A hA _).1 hf
    obtain ⟨-, ri', l', h3, -, idx', h4, -, h5⟩ := (faces_mem num inner shape hp rest B hB e m n).1 hg
    obtain ⟨rfl, -⟩ := hn ri ri' idx idx' h1 h4 (h2.symm.trans h5)
    exact hm.1 (List.mem_map.2 ⟨_, h3, rfl⟩)

/-! Reading faces. -/

/-- Different faces are kept as different objects, made before. -/
def Good (k : Kept) : Prop := (∀ f o, get k.dict f = some o → o < k.next) ∧ ∀ f g o, get k.dict f = some o → get k.dict g = some o → f = g

lemma item_good (F : List Face) (i : ℤ) (k : Kept) (h : Good k) : Good (item F i k).2 ∧
    (∀ f o, get k.dict f = some o → get (item F i k).2.dict f = some o) ∧ ∀ f o, (item F i k).1 = some (f, o) → get (item F i k).2.dict f = some o := by
  cases hc : column F i with
  | none =>
    have e : item F i k = (none, k) := by simp only [item, hc]
    rw [e]
    exact ⟨h, fun _ _ h => h, fun _ _ h => by cases h⟩
  | some key =>
    cases hk : get k.dict key with
    | some o =>
      have e : item F i k = (some (key, o), k) := by simp only [item, hc, hk]
      rw [e]
      refine ⟨h, fun _ _ h => h, fun f o' e => ?_⟩
      cases e
      exact hk
    | none =>
      by_cases hi : 0 ≤ i ∧ i < F.length
      · have e : item F i k = (some (key, k.next), ⟨put k.dict key k.next, k.next + 1⟩) := by simp only [item, hc, hk, if_pos hi]
        rw [e]
        refine ⟨⟨fun f o hf => ?_, fun f g o hf hg => ?_⟩, fun f o hf => ?_, fun f o e => ?_⟩
        · simp only [get_put] at hf ⊢
          split at hf
          · cases hf; omega
          · have := h.1 f o hf; omega
        · simp only [get_put] at hf hg
          split at hf <;> split at hg
          · rename_i h1 h2; rw [h1, h2]
          · cases hf; have := h.1 g _ hg; omega
          · cases hg; have := h.1 f _ hf; omega
          · exact h.2 f g o hf hg
        · simp only [get_put]
          split
          · rename_i e; rw [e, hk] at hf; cases hf
          · exact hf
        · cases e
          simp [get_put]
      · have e : item F i k = (none, k) := by simp only [item, hc, hk, if_neg hi]
        rw [e]
        exact ⟨h, fun _ _ h => h, fun _ _ h => by cases h⟩

lemma reads_good : ∀ (hist : List (List Face × ℤ)) (k : Kept), Good k → ∃ k', Good k' ∧ (∀ f o, get k.dict f = some o → get k'.dict f = some o) ∧
    ∀ f o, some (f, o) ∈ reads hist k → get k'.dict f = some o
  | [], k, h => ⟨k, h, fun _ _ h => h, fun _ _ h => by cases h⟩
  | (F, i) :: rest, k, h => by
    obtain ⟨h1, h2, h3⟩ := item_good F i k h
    obtain ⟨k', h4, h5, h6⟩ := reads_good rest _ h1
    refine ⟨k', h4, fun f o hf => h5 f o (h2 f o hf), fun f o hm => ?_⟩
    rw [reads, List.mem_cons] at hm
    rcases hm with hm | hm
    · exact h5 f o (h3 f o hm.symm)
    · exact h6 f o hm

/-- C203: whatever was read before, through whatever sections of the mesh: the same side of the same element is the same object, and others are others. -/
theorem reads_same (hist : List (List Face × ℤ)) (f g : Face) (o o' : ℕ) (hf : some (f, o) ∈ reads hist ⟨[], 0⟩) (hg : some (g, o') ∈ reads hist ⟨[], 0⟩) :
    f = g ↔ o = o' := by
  obtain ⟨k', ⟨h1, h2⟩, -, h3⟩ := reads_good hist ⟨[], 0⟩ ⟨fun _ _ h => (by cases h), fun _ _ _ h => (by cases h)⟩
  have a := h3 f o hf
  have b := h3 g o' hg
  constructor
  · rintro rfl; exact Option.some.inj (a.symm.trans b)
  · rintro rfl; exact h2 f g o a b

/-- C203: numbers from 0 below the number of faces give the face with this number, whatever was read before; numbers beyond both ends are refused. -/
theorem item_partial (F : List Face) (i : ℤ) (k : Kept) :
    (∀ f, 0 ≤ i → F[i.toNat]? = some f → ∃ o, (item F i k).1 = some (f, o)) ∧ (i < -(F.length : ℤ) ∨ (F.length : ℤ) ≤ i → (item F i k).1 = none) := by
  constructor
  · intro f hi hf
    obtain ⟨hlt, -⟩ := List.getElem?_eq_some_iff.1 hf
    unfold item column
    rw [if_pos hi, hf]
    simp only
    cases get k.dict f with
    | some o => exact ⟨o, rfl⟩
    | none => exact ⟨k.next, by simp only; rw [if_pos ⟨hi, by omega⟩]⟩
  · intro hi
    have : column F i = none := by
      unfold column
      split
      · rename_i h0
        exact List.getElem?_eq_none (by omega)
      · rw [if_neg (by omega)]
    unfold item
    rw [this]

end Phyem.SideFaces
