import Verif.MatrixProxy.Spec
import Verif.WeakForm.Lemmas
import Mathlib.Data.List.Perm.Basic

namespace Phyem.MatrixProxy

open Phyem.WeakForm (mapOpt mapOpt_eq_some)

variable {R N : Type}

theorem addTo_eq {l l' : Cell R} {x : Sign × Arr R} (h : addTo l x = some l') : l' = l ++ [x] := by
  unfold addTo at h
  cases l with
  | nil => simp at h; exact h.symm
  | cons y l =>
    simp only at h
    split at h
    · split_ifs at h
      simp at h; exact h.symm
    · simp at h

theorem addAll_eq {acc l r : Cell R} (h : addAll acc l = some r) : r = acc ++ l := by
  induction l generalizing acc with
  | nil => simp [addAll] at h; simp [h]
  | cons x l ih =>
    simp only [addAll, Option.bind_eq_some_iff] at h
    obtain ⟨a, ha, h⟩ := h
    rw [ih h, addTo_eq ha]; simp

/-- The targets as a block vector. -/
def tv [One R] (targets : List Comp) : BV R := targets.map fun t => [(Sign.pos, single t)]

theorem product_nil [Mul R] (w : BV R) (n : ℕ) : product (List.replicate n ([] : Cell R)) w = [] := by
  unfold product
  rw [List.flatMap_eq_nil_iff]
  intro p hp
  have := (List.of_mem_zip hp).1
  rw [List.mem_replicate] at this
  simp [this.2]

theorem product_append [Mul R] (row : List (Cell R)) (w z : BV R) (h : row.length = w.length) :
    product row (w ++ z) = product row w := by
  unfold product
  congr 1
  induction row generalizing w with
  | nil => simp
  | cons c row ih =>
    cases w with
    | nil => simp at h
    | cons a w => simp only [List.cons_append, List.zip_cons_cons]; rw [ih w (by simpa using h)]

theorem product_addAt [MulOneClass R] {targets : List Comp} {cells cells' : List (Cell R)} {k : ℕ}
    {s : Sign} {a : Arr R} {t : Comp} (hlen : cells.length = targets.length)
    (ht : targets[k]? = some t) (h : addAt cells k (s, a) = some cells') :
    cells'.length = targets.length ∧
    (product cells' (tv targets)).Perm ((s, ⟨a.factor, a.comps ++ [(t, false)]⟩) ::
      product cells (tv targets)) := by
  unfold addAt at h
  simp only [Option.bind_eq_some_iff, Option.map_eq_some_iff] at h
  obtain ⟨cell, hc, c', hc', rfl⟩ := h
  have := addTo_eq hc'
  subst this
  refine ⟨by simpa using hlen, ?_⟩
  clear hc'
  induction cells generalizing targets k with
  | nil => simp at hc
  | cons c0 cells ih =>
    cases targets with
    | nil => simp at hlen
    | cons t0 targets =>
      cases k with
      | zero =>
        simp only [List.getElem?_cons_zero, Option.some.injEq] at ht hc
        subst ht hc
        simp only [List.set_cons_zero, product, tv, List.map_cons, List.zip_cons_cons, List.flatMap_cons,
          List.flatMap_append, List.map_nil, List.flatMap_nil, List.append_nil]
        have e : (Sign.mul s Sign.pos, Arr.matmul a (single t0)) =
            (s, (⟨a.factor, a.comps ++ [(t0, false)]⟩ : Arr R)) := by
          cases s <;> simp [Sign.mul, Sign.flip, Arr.matmul, single]
        rw [e, List.append_assoc, List.singleton_append]
        exact List.perm_middle
      | succ k =>
        simp only [List.getElem?_cons_succ] at ht hc
        have := ih (targets := targets) (by simpa using hlen) ht hc
        simp only [List.set_cons_succ, product, tv, List.map_cons, List.zip_cons_cons,
          List.flatMap_cons] at this ⊢
        refine (List.Perm.append_left _ this).trans ?_
        exact List.perm_middle

theorem parseTerm_perm [MulOneClass R] {targets : List Comp} {cells cells' : List (Cell R)}
    {rem rem' : Cell R} {x : Sign × Arr R} (hlen : cells.length = targets.length)
    (h : parseTerm targets cells rem x = some (cells', rem')) :
    cells'.length = targets.length ∧
    (product cells' (tv targets) ++ rem').Perm (product cells (tv targets) ++ rem ++ [x]) := by
  unfold parseTerm at h
  simp only [Option.bind_eq_some_iff] at h
  obtain ⟨t, ht, h⟩ := h
  by_cases hc : t.1 ∈ targets ∧ t.2 = false
  · rw [if_pos hc] at h
    simp only [Option.map_eq_some_iff, Prod.mk.injEq] at h
    obtain ⟨c, hc', rfl, rfl⟩ := h
    have hidx : targets[targets.idxOf t.1]? = some t.1 := by
      rw [List.getElem?_eq_some_iff]
      exact ⟨List.idxOf_lt_length_iff.2 hc.1, List.getElem_idxOf _⟩
    obtain ⟨h1, h2⟩ := product_addAt hlen hidx hc'
    refine ⟨h1, ?_⟩
    have e : x.2.comps.dropLast ++ [(t.1, false)] = x.2.comps := by
      have : t = (t.1, false) := by rw [← hc.2]
      rw [← this]
      exact List.dropLast_append_getLast? t ht
    simp only [e] at h2
    refine (h2.append_right _).trans ?_
    simp only [List.cons_append]
    exact (List.perm_append_singleton x _).symm
  · rw [if_neg hc] at h
    simp only [Option.map_eq_some_iff, Prod.mk.injEq] at h
    obtain ⟨r, hr, rfl, rfl⟩ := h
    rw [addTo_eq hr, List.append_assoc]
    exact ⟨hlen, List.Perm.refl _⟩

theorem parseRow_perm [MulOneClass R] {targets : List Comp} {cells cells' : List (Cell R)}
    {rem rem' : Cell R} {l : Cell R} (hlen : cells.length = targets.length)
    (h : parseRow targets cells rem l = some (cells', rem')) :
    cells'.length = targets.length ∧
    (product cells' (tv targets) ++ rem').Perm (product cells (tv targets) ++ rem ++ l) := by
  induction l generalizing cells rem with
  | nil =>
    simp only [parseRow, Option.some.injEq, Prod.mk.injEq] at h
    obtain ⟨rfl, rfl⟩ := h
    simp [hlen]
  | cons x l ih =>
    simp only [parseRow, Option.bind_eq_some_iff] at h
    obtain ⟨p, hp, h⟩ := h
    obtain ⟨h1, h2⟩ := parseTerm_perm (cells' := p.1) (rem' := p.2) hlen hp
    obtain ⟨h3, h4⟩ := ih h1 h
    refine ⟨h3, h4.trans ?_⟩
    refine (h2.append_right l).trans ?_
    simp

/-- What remains of a row does not end with a target; a row from which nothing remains ends with
targets only. -/
theorem parseRow_rem {targets : List Comp} {cells cells' : List (Cell R)} {rem rem' : Cell R}
    {l : Cell R} (h : parseRow targets cells rem l = some (cells', rem')) :
    ∃ r, rem' = rem ++ r ∧ (∀ x ∈ r, x ∈ l ∧ ¬ x.2.endsIn targets) ∧
      ∀ x ∈ l, x ∉ r → x.2.endsIn targets := by
  induction l generalizing cells rem with
  | nil =>
    simp only [parseRow, Option.some.injEq, Prod.mk.injEq] at h
    exact ⟨[], by simp [h.2]⟩
  | cons x l ih =>
    simp only [parseRow, Option.bind_eq_some_iff] at h
    obtain ⟨p, hp, h⟩ := h
    obtain ⟨r, hr, h1, h2⟩ := ih h
    unfold parseTerm at hp
    simp only [Option.bind_eq_some_iff] at hp
    obtain ⟨t, ht, hp⟩ := hp
    by_cases hc : t.1 ∈ targets ∧ t.2 = false
    · rw [if_pos hc] at hp
      simp only [Option.map_eq_some_iff] at hp
      obtain ⟨c, _, rfl⟩ := hp
      refine ⟨r, hr, fun y hy => ⟨by simp [(h1 y hy).1], (h1 y hy).2⟩, ?_⟩
      intro y hy hn
      rcases List.mem_cons.1 hy with rfl | hy
      · exact ⟨t.1, hc.1, by rw [ht, ← hc.2]⟩
      · exact h2 y hy hn
    · rw [if_neg hc] at hp
      simp only [Option.map_eq_some_iff] at hp
      obtain ⟨r0, hr0, rfl⟩ := hp
      have hne : ¬ x.2.endsIn targets := by
        rintro ⟨t', ht', e⟩
        rw [ht, Option.some.injEq] at e
        exact hc ⟨by simp [e, ht'], by simp [e]⟩
      refine ⟨x :: r, by rw [hr, addTo_eq hr0]; simp, ?_, ?_⟩
      · intro y hy
        rcases List.mem_cons.1 hy with rfl | hy
        · exact ⟨by simp, hne⟩
        · exact ⟨by simp [(h1 y hy).1], (h1 y hy).2⟩
      · intro y hy hn
        simp only [List.mem_cons, not_or] at hn
        rcases List.mem_cons.1 hy with rfl | hy
        · exact absurd rfl hn.1
        · exact h2 y hy hn.2

theorem mapOpt_get {α β : Type} {f : α → Option β} {l : List α} {l' : List β}
    (h : mapOpt f l = some l') : l'.length = l.length ∧
      ∀ (i : ℕ) a, l[i]? = some a → ∃ b, f a = some b ∧ l'[i]? = some b := by
  induction l generalizing l' with
  | nil => simp only [mapOpt, Option.some.injEq] at h; subst h; simp
  | cons a l ih =>
    simp only [mapOpt, Option.bind_eq_some_iff, Option.map_eq_some_iff] at h
    obtain ⟨b, hb, bs, hbs, rfl⟩ := h
    obtain ⟨h1, h2⟩ := ih hbs
    refine ⟨by simp [h1], ?_⟩
    intro i a' ha
    cases i with
    | zero => simp only [List.getElem?_cons_zero, Option.some.injEq] at ha; subst ha; exact ⟨b, hb, by simp⟩
    | succ i => simpa using h2 i a' (by simpa using ha)

/-- Rows of one side after `parse`. -/
theorem parseSide_rows [MulOneClass R] {targets : List Comp} {bv : BV R} {m : BM R} {rem : BV R}
    (h : parseSide targets bv = some (m, rem)) :
    m.cols = targets.length ∧ m.rows.length = bv.length ∧ rem.length = bv.length ∧
    ∀ i, (product (m.rows.getD i []) (tv targets) ++ rem.getD i []).Perm (bv.getD i []) ∧
      (rem.getD i [] = [] → ∀ x ∈ bv.getD i [], x.2.endsIn targets) ∧
      (∀ row ∈ m.rows, row.length = targets.length) := by
  unfold parseSide at h
  simp only [Option.map_eq_some_iff, Prod.mk.injEq] at h
  obtain ⟨ps, hps, rfl, rfl⟩ := h
  obtain ⟨hl, hg⟩ := mapOpt_get hps
  refine ⟨rfl, by simpa using hl, by simpa using hl, ?_⟩
  intro i
  refine ⟨?_, ?_, ?_⟩
  · cases hb : bv[i]? with
    | none =>
      have : ps[i]? = none := by
        rw [List.getElem?_eq_none_iff] at hb ⊢; omega
      simp [List.getD, hb, this, product]
    | some row =>
      obtain ⟨p, hp, hpi⟩ := hg i row hb
      have := (parseRow_perm (cells' := p.1) (rem' := p.2) (by simp) hp).2
      simp only [List.getD, List.getElem?_map, hb, hpi, Option.map_some, Option.getD_some]
      refine this.trans ?_
      have : (targets.map fun _ => ([] : Cell R)) = List.replicate targets.length [] := by
        simp
      rw [this, product_nil]
      simp
  · intro hr x hx
    cases hb : bv[i]? with
    | none => simp [List.getD, hb] at hx
    | some row =>
      obtain ⟨p, hp, hpi⟩ := hg i row hb
      obtain ⟨r, hr', h1, h2⟩ := parseRow_rem (cells' := p.1) (rem' := p.2) hp
      simp only [List.getD, List.getElem?_map, hb, hpi, Option.map_some, Option.getD_some] at hr hx
      have : r = [] := by rw [hr] at hr'; simpa using hr'.symm
      subst this
      exact h2 x hx (by simp)
  · intro row hrow
    simp only [List.mem_map] at hrow
    obtain ⟨p, hp, rfl⟩ := hrow
    obtain ⟨i, hi⟩ := List.getElem?_of_mem hp
    have hi' : i < bv.length := by
      have := (List.getElem?_eq_some_iff.1 hi).1; omega
    obtain ⟨p', hp', hpi⟩ := hg i bv[i] (by simp [hi'])
    rw [hi] at hpi; cases hpi
    exact (parseRow_perm (cells' := p.1) (rem' := p.2) (by simp) hp').1

end Phyem.MatrixProxy
