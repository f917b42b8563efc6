import Verif.Assembly.Props

/-!
Assembling with a threshold writes into the local matrices: model and property C66.
-/

namespace Phyem.Assembly

open Chaining

/-- An element whose local matrix is the object number `ref`: local matrices are cached and shared by elements with
the same cache key, msehtt/tools/matrix/static/local.py:155-172. -/
structure Ref where
  row : List ℕ
  col : List ℕ
  ref : ℕ

/-- `data[np.abs(data) < threshold] = 0.` on the array of object `k`. -/
def cutObj (t : Option ℚ) (heap : List Sp) (k : ℕ) : List Sp := heap.modify k (cutMat t)

/-- The loop over the elements, msehtt/tools/matrix/static/local.py:727-760, with the objects as state; the
exception leaves the objects as they are at that time. -/
def collectH (t : Option ℚ) : List Sp → List Ref → Option (List ℕ × List ℕ × List ℚ) × List Sp
  | heap, [] => (some ([], [], []), heap)
  | heap, e :: es =>
    match (cutObj t heap e.ref)[e.ref]? with
    | none => (none, heap)
    | some M =>
      match rowcol e.row e.col M with
      | none => (none, cutObj t heap e.ref)
      | some p =>
        ((collectH t (cutObj t heap e.ref) es).1.map fun r => (p.1 ++ r.1, p.2 ++ r.2.1, M.data ++ r.2.2),
          (collectH t (cutObj t heap e.ref) es).2)

/-- `M.assemble(threshold=t)` as an operation on the objects. -/
def assembleH (dep wid : ℕ) (es : List Ref) (heap : List Sp) (t : Option ℚ) :
    Option (List (ℕ × ℕ × ℚ)) × List Sp :=
  ((collectH t heap es).1.bind (toSparse dep wid), (collectH t heap es).2)

/-- The elements with the matrices they refer to; `none` if there is no such object. -/
def deref (heap : List Sp) : List Ref → Option (List El)
  | [] => some []
  | e :: es =>
    match heap[e.ref]?, deref heap es with
    | some M, some l => some (⟨e.row, e.col, M⟩ :: l)
    | _, _ => none

/-- A threshold that cuts no more than another one; no threshold cuts nothing. -/
def Weaker (t t' : Option ℚ) : Prop := t = none ∨ ∃ a b, t = some a ∧ t' = some b ∧ a ≤ b

theorem cutoff_cutoff {t t' : Option ℚ} (h : Weaker t t') (d : List ℚ) : cutoff t' (cutoff t d) = cutoff t' d := by
  rcases h with rfl | ⟨a, b, rfl, rfl, h⟩
  · rfl
  · simp only [cutoff, List.map_map]
    apply List.map_congr_left
    intro x _
    simp only [Function.comp]
    by_cases hx : |x| < a
    · have : |x| < b := lt_of_lt_of_le hx h
      simp [hx, this]
    · simp [hx]

theorem cutMat_cutMat {t t' : Option ℚ} (h : Weaker t t') (M : Sp) : cutMat t' (cutMat t M) = cutMat t' M := by
  unfold cutMat
  simp only [cutoff_cutoff h]

theorem map_cutObj {t t' : Option ℚ} (h : Weaker t t') (heap : List Sp) (k : ℕ) :
    (cutObj t heap k).map (cutMat t') = heap.map (cutMat t') := by
  apply List.ext_getElem?
  intro n
  unfold cutObj
  rw [List.getElem?_map, List.getElem?_map, List.getElem?_modify]
  cases heap[n]? with
  | none => rfl
  | some M =>
    simp only [Option.map_some, Option.map_eq_map]
    split_ifs
    · rw [cutMat_cutMat h]
    · rfl

theorem Weaker.refl (t : Option ℚ) : Weaker t t := by
  cases t with
  | none => exact Or.inl rfl
  | some a => exact Or.inr ⟨a, a, rfl, rfl, le_refl _⟩

theorem collectH_heap {t t' : Option ℚ} (h : Weaker t t') : ∀ (es : List Ref) (heap : List Sp),
    (collectH t heap es).2.map (cutMat t') = heap.map (cutMat t') := by
  intro es
  induction es with
  | nil => intro heap; rfl
  | cons e es ih =>
    intro heap
    simp only [collectH]
    split
    · rfl
    · split
      · exact map_cutObj h heap e.ref
      · rw [ih, map_cutObj h]

theorem deref_congr {t : Option ℚ} {heap heap' : List Sp} (h : heap.map (cutMat t) = heap'.map (cutMat t)) :
    ∀ es : List Ref, (deref heap es).bind (collect t) = (deref heap' es).bind (collect t) := by
  have hat : ∀ k, (heap[k]?).map (cutMat t) = (heap'[k]?).map (cutMat t) := fun k => by
    rw [← List.getElem?_map, ← List.getElem?_map, h]
  intro es
  induction es with
  | nil => rfl
  | cons e es ih =>
    simp only [deref]
    have hk := hat e.ref
    cases h1 : heap[e.ref]? with
    | none =>
      rw [h1] at hk
      cases h2 : heap'[e.ref]? with
      | none => rfl
      | some M' => rw [h2] at hk; simp at hk
    | some M =>
      rw [h1] at hk
      cases h2 : heap'[e.ref]? with
      | none => rw [h2] at hk; simp at hk
      | some M' =>
        rw [h2] at hk
        simp only [Option.map_some, Option.some.injEq] at hk
        have hd : cutoff t M.data = cutoff t M'.data := congrArg Sp.data hk
        have hrc : rowcol e.row e.col M = rowcol e.row e.col M' := by
          have q1 := congrArg Sp.csr hk
          have q2 := congrArg Sp.indices hk
          have q3 := congrArg Sp.indptr hk
          simp only [cutMat] at q1 q2 q3
          unfold rowcol
          rw [q1, q2, q3]
        cases h3 : deref heap es with
        | none =>
          rw [h3] at ih
          cases h4 : deref heap' es with
          | none => rfl
          | some l' =>
            rw [h4] at ih
            simp only [Option.bind_none, Option.bind_some] at ih ⊢
            simp only [collect, ← ih]
            cases rowcol e.row e.col M' <;> rfl
        | some l =>
          rw [h3] at ih
          cases h4 : deref heap' es with
          | none =>
            rw [h4] at ih
            simp only [Option.bind_none, Option.bind_some] at ih ⊢
            simp only [collect, ih]
            cases rowcol e.row e.col M <;> rfl
          | some l' =>
            rw [h4] at ih
            simp only [Option.bind_some] at ih ⊢
            simp only [collect, ih, hd, hrc]

theorem collectH_result (t : Option ℚ) : ∀ (es : List Ref) (heap : List Sp),
    (collectH t heap es).1 = (deref heap es).bind (collect t) := by
  intro es
  induction es with
  | nil => intro heap; rfl
  | cons e es ih =>
    intro heap
    simp only [collectH, deref]
    have hg : (cutObj t heap e.ref)[e.ref]? = (heap[e.ref]?).map (cutMat t) := by
      unfold cutObj
      rw [List.getElem?_modify]; simp
    rw [hg]
    cases h1 : heap[e.ref]? with
    | none => rfl
    | some M =>
      simp only [Option.map_some]
      have hrc : rowcol e.row e.col (cutMat t M) = rowcol e.row e.col M := rfl
      rw [hrc]
      cases h2 : rowcol e.row e.col M with
      | none =>
        cases deref heap es with
        | none => rfl
        | some l => simp [collect, h2]
      | some p =>
        simp only [ih]
        have := deref_congr (map_cutObj (Weaker.refl t) heap e.ref) es
        rw [this]
        cases deref heap es with
        | none => rfl
        | some l =>
          simp only [Option.bind_some, collect, h2]
          cases collect t l <;> rfl

/-- Operations: assemblings, one after the other, each with its threshold. -/
def runH (dep wid : ℕ) (es : List Ref) (heap : List Sp) (ts : List (Option ℚ)) : List Sp :=
  ts.foldl (fun h t => (assembleH dep wid es h t).2) heap

/-- After any history of assemblings with thresholds not exceeding `t` (in particular without thresholds),
assembling with threshold `t` gives what it gives on the original matrices. -/
theorem threshold_history_partial {dep wid : ℕ} (es : List Ref) (heap : List Sp) (ts : List (Option ℚ)) (t : Option ℚ)
    (h : ∀ t' ∈ ts, Weaker t' t) :
    (assembleH dep wid es (runH dep wid es heap ts) t).1 = (deref heap es).bind (assemble t dep wid) := by
  have key : ∀ (ts : List (Option ℚ)) (heap' : List Sp), (∀ t' ∈ ts, Weaker t' t) →
      (runH dep wid es heap' ts).map (cutMat t) = heap'.map (cutMat t) := by
    intro ts
    induction ts with
    | nil => intro heap' _; rfl
    | cons t' ts ih =>
      intro heap' hh
      unfold runH at ih ⊢
      rw [List.foldl_cons, ih _ fun t'' ht => hh t'' (by simp [ht])]
      exact collectH_heap (hh t' (by simp)) es heap'
  unfold assembleH
  simp only
  rw [collectH_result, deref_congr (key ts heap h) es]
  cases deref heap es with
  | none => rfl
  | some l => simp only [Option.bind_some, assemble]

example : ∀ t' ∈ [none, some (1 / 10 : ℚ), none], Weaker t' (some (1 / 2)) := by
  intro t' ht
  simp only [List.mem_cons, List.not_mem_nil, or_false] at ht
  rcases ht with rfl | rfl | rfl
  · exact Or.inl rfl
  · exact Or.inr ⟨_, _, rfl, rfl, by norm_num⟩
  · exact Or.inl rfl

/-- An assembling with a threshold changes what a later assembling without one returns: the small entry is gone. -/
theorem threshold_history_refuted :
    let heap : List Sp := [⟨true, [0, 2, 3], [0, 1, 1], [1, 1 / 100, 3]⟩]
    let es : List Ref := [⟨[0, 1], [0, 1], 0⟩]
    (assembleH 2 2 es heap none).1 = some [(0, 0, 1), (0, 1, 1 / 100), (1, 1, 3)] ∧
    (assembleH 2 2 es (runH 2 2 es heap [some (1 / 10)]) none).1 = some [(0, 0, 1), (0, 1, 0), (1, 1, 3)] := by
  decide +kernel

end Phyem.Assembly
