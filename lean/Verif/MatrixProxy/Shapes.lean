import Mathlib.Data.List.GetD
import Verif.MatrixProxy.Props

/-!
C08, C09: shapes. A linear system that is returned consists of products whose factors fit together, with the same number of
rows along every block row, and columns on the right-hand side.
-/

namespace Phyem.MatrixProxy

open Phyem.WeakForm (mapOpt mapOpt_eq_some)

variable {R N : Type}

/-! ### Specification -/

/-- A product of matrices, each possibly transposed, is defined and has `r` rows and `c` columns. -/
inductive Fits : ℕ → ℕ → List (Comp × Bool) → Prop
  | one (x : Comp) : Fits x.rows x.cols [(x, false)]
  | oneT (x : Comp) : Fits x.cols x.rows [(x, true)]
  | cons (x : Comp) {c : ℕ} {l : List (Comp × Bool)} : Fits x.cols c l → Fits x.rows c ((x, false) :: l)
  | consT (x : Comp) {c : ℕ} {l : List (Comp × Bool)} : Fits x.rows c l → Fits x.cols c ((x, true) :: l)

/-! ### The shape of an array -/

theorem shapeFrom_some (r c : ℕ) (l : List (Comp × Bool)) (s : List ℕ) (h : shapeFrom r c l = some s) :
    (l = [] ∧ s = [r, c]) ∨ ∃ c', s = [r, c'] ∧ Fits c c' l := by
  induction l generalizing c with
  | nil => left; simpa [shapeFrom, eq_comm] using h
  | cons p l ih =>
    right
    obtain ⟨x, t⟩ := p
    simp only [shapeFrom] at h
    split_ifs at h with hc
    rcases ih _ h with ⟨rfl, rfl⟩ | ⟨c', rfl, hf⟩
    · refine ⟨_, rfl, ?_⟩
      cases t
      · simp only [compShape, Bool.false_eq_true, if_false] at hc ⊢; rw [hc]; exact .one x
      · simp only [compShape, if_true] at hc ⊢; rw [hc]; exact .oneT x
    · refine ⟨_, rfl, ?_⟩
      cases t
      · simp only [compShape, Bool.false_eq_true, if_false] at hc hf; rw [hc]; exact .cons x hf
      · simp only [compShape, if_true] at hc hf; rw [hc]; exact .consT x hf

/-- Conversely a product that fits has a shape. -/
theorem shapeFrom_fits (r c c' : ℕ) (l : List (Comp × Bool)) (h : Fits c c' l) : shapeFrom r c l = some [r, c'] := by
  induction h with
  | one x => simp [shapeFrom, compShape]
  | oneT x => simp [shapeFrom, compShape]
  | cons x _ ih => simpa [shapeFrom, compShape] using ih
  | consT x _ ih => simpa [shapeFrom, compShape] using ih

/-- **Shapes are right.** An array of several factors reports a shape exactly when its factors fit together, and it is then
that of the product. -/
theorem shape_iff (a : Arr R) (ha : a.comps ≠ []) (r c : ℕ) : a.shape = some [r, c] ↔ Fits r c a.comps := by
  unfold Arr.shape
  cases hl : a.comps with
  | nil => exact absurd hl ha
  | cons p l =>
    obtain ⟨x, t⟩ := p
    constructor
    · intro h
      rcases shapeFrom_some _ _ _ _ h with ⟨rfl, hs⟩ | ⟨c', hs, hf⟩
      · cases t <;> simp [compShape] at hs <;> obtain ⟨rfl, rfl⟩ := hs
        · exact .one x
        · exact .oneT x
      · cases t <;> simp [compShape] at hs hf <;> obtain ⟨rfl, rfl⟩ := hs
        · exact .cons x hf
        · exact .consT x hf
    · intro h
      cases h with
      | one => simp [shapeFrom, compShape]
      | oneT => simp [shapeFrom, compShape]
      | cons x h' => simpa [compShape] using shapeFrom_fits x.rows x.cols c l h'
      | consT x h' => simpa [compShape] using shapeFrom_fits x.cols x.rows c l h'

theorem isCol_fits {a : Arr R} (h : isCol a = true) : ∃ r, Fits r 1 a.comps := by
  unfold isCol at h
  split at h
  · rename_i r hs
    have ha : a.comps ≠ [] := by intro h0; simp [Arr.shape, h0] at hs
    exact ⟨r, (shape_iff a ha r 1).1 hs⟩
  · simp at h

theorem head_fits {a : Arr R} {r : ℕ} (h : a.shape.bind List.head? = some r) : ∃ c, Fits r c a.comps := by
  obtain ⟨s, hs, hh⟩ := Option.bind_eq_some_iff.1 h
  have ha : a.comps ≠ [] := by
    intro h0; simp only [Arr.shape, h0, Option.some.injEq] at hs; subst hs; simp at hh
  have : ∃ c, s = [r, c] := by
    unfold Arr.shape at hs
    cases hl : a.comps with
    | nil => exact absurd hl ha
    | cons p l =>
      rw [hl] at hs
      rcases shapeFrom_some _ _ _ _ hs with ⟨_, rfl⟩ | ⟨c', rfl, _⟩ <;> simp at hh <;> subst hh <;> exact ⟨_, rfl⟩
  obtain ⟨c, rfl⟩ := this
  exact ⟨c, (shape_iff a ha r c).1 hs⟩

theorem mapOpt_mem {α β : Type} (f : α → Option β) (l : List α) (r : List β) (h : mapOpt f l = some r) :
    ∀ a ∈ l, ∃ b ∈ r, f a = some b := by
  rw [mapOpt_eq_some] at h
  induction h with
  | nil => simp
  | cons h1 _ ih =>
    intro a ha
    rcases List.mem_cons.1 ha with rfl | ha
    · exact ⟨_, List.mem_cons_self, h1⟩
    · obtain ⟨b, hb, hf⟩ := ih a ha
      exact ⟨b, List.mem_cons_of_mem _ hb, hf⟩

theorem rowShape_fits {cells : List (Cell R)} {b : Cell R} {h : ℕ} (hr : rowShape cells b = some h) :
    ∀ x ∈ b ++ cells.flatten, ∃ c, Fits h c x.2.comps := by
  unfold rowShape at hr
  obtain ⟨hs, h1, h2⟩ := Option.bind_eq_some_iff.1 hr
  intro x hx
  obtain ⟨y, hy, hxy⟩ := mapOpt_mem _ _ _ h1 x hx
  have : y = h := by
    split at h2
    · simp at h2
    · rename_i h' t
      split_ifs at h2 with ha
      simp only [Option.some.injEq] at h2
      subst h2
      rcases List.mem_cons.1 hy with rfl | hy
      · rfl
      · have := List.all_eq_true.1 ha y hy
        simpa using this
  subst this
  exact head_fits hxy

/-- **C09, shapes.** When a linear system is returned, each block row has a number of rows which all the terms of that row,
in the matrix and in the right-hand side, have: every such term is a product whose factors fit together. The terms of the
right-hand side and the unknowns are columns. -/
theorem ls_fits [Mul R] {mp : MP R N} {M : BM R} {x b : BV R} (h : ls mp = some (M, x, b)) :
    (∀ i < M.rows.length, ∃ r, (∀ c ∈ M.rows.getD i [], ∀ t ∈ c, ∃ k, Fits r k t.2.comps) ∧
      ∀ t ∈ b.getD i [], Fits r 1 t.2.comps) ∧
    ∀ c ∈ x, ∃ f t, c = [(.pos, ⟨f, [t]⟩)] ∧ ∃ r, Fits r 1 [t] := by
  unfold ls at h
  split_ifs at h
  unfold parseLs at h
  split_ifs at h
  split at h
  · rename_i A x' hm
    obtain ⟨b', hb', h⟩ := Option.bind_eq_some_iff.1 h
    unfold linearSystem at h
    split_ifs at h with hc
    obtain ⟨hu, h1, h2, h3, hcol⟩ := hc
    obtain ⟨hs, hmap, e⟩ := Option.map_eq_some_iff.1 h
    simp only [Prod.mk.injEq] at e
    obtain ⟨rfl, rfl, rfl⟩ := e
    constructor
    · intro i hi
      have hi' : i < b'.length := by omega
      have hz : (A.rows[i], b'[i]) ∈ A.rows.zip b' := by
        rw [List.mem_iff_getElem]
        exact ⟨i, by simp; omega, by simp⟩
      obtain ⟨r, _, hr⟩ := mapOpt_mem _ _ _ hmap _ hz
      have hf := rowShape_fits hr
      rw [List.getD_eq_getElem _ _ hi, List.getD_eq_getElem _ _ hi']
      refine ⟨r, fun c hc t ht => hf t (List.mem_append_right _ (List.mem_flatten.2 ⟨c, hc, ht⟩)), fun t ht => ?_⟩
      obtain ⟨c, hc⟩ := hf t (List.mem_append_left _ ht)
      obtain ⟨r', hr'⟩ := isCol_fits (hcol _ (List.getElem_mem hi') t ht)
      have ha : t.2.comps ≠ [] := by intro h0; rw [h0] at hc; cases hc
      have e1 := (shape_iff t.2 ha r c).2 hc
      have e2 := (shape_iff t.2 ha r' 1).2 hr'
      rw [e1] at e2
      simp only [Option.some.injEq, List.cons.injEq, and_true] at e2
      rw [← e2.2]; exact hc
    · intro c hc
      have := hu c hc
      unfold isUnknown at this
      split at this
      · rename_i q
        simp only [Bool.and_eq_true, decide_eq_true_eq] at this
        obtain ⟨⟨hl, hq⟩, hs⟩ := this
        obtain ⟨s, f, l⟩ := q
        simp only at hl hs
        subst hs
        match l, hl with
        | [t], _ => exact ⟨f, t, rfl, isCol_fits hq⟩
      · simp at this
  · simp at h

/-- The example of `Props.lean` meets the hypothesis. -/
example : ((make exRows [cu, cp]).bind fun mp => ls (parses mp [[cu0]])).isSome = true ∧
    Fits 3 1 [(cM, false), (cu, false)] ∧ Fits 3 1 [(cE, true), (cp, false)] := by
  refine ⟨by decide +kernel, ?_, ?_⟩
  · exact .cons cM (.one cu)
  · exact .consT cE (.one cp)

end Phyem.MatrixProxy
