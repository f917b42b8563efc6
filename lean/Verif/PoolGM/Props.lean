import Verif.PoolGM.Run
import Mathlib.Tactic.Ring

/-!
C49, C50: the numbering of 0-, 1- and 2-forms on a mesh of quadrilaterals and triangles.
-/

namespace Phyem.PoolGM

/-! ### Lemmas on slices -/

theorem mem_rect {t i0 m j0 n : ℕ} {c : Cell} :
    c ∈ rect t i0 m j0 n ↔ ∃ i < m, ∃ j < n, c = (t, i0 + i, j0 + j, 0) := by
  simp only [rect, List.mem_flatMap, List.mem_range, List.mem_map]
  constructor
  · rintro ⟨j, hj, i, hi, rfl⟩; exact ⟨i, hi, j, hj, rfl⟩
  · rintro ⟨i, hi, j, hj, rfl⟩; exact ⟨j, hj, i, hi, rfl⟩

theorem cell_mem_rect {t t' i j i0 m j0 n : ℕ} : ((t', i, j, 0) : Cell) ∈ rect t i0 m j0 n ↔
    t' = t ∧ i0 ≤ i ∧ i < i0 + m ∧ j0 ≤ j ∧ j < j0 + n := by
  rw [mem_rect]
  constructor
  · rintro ⟨i', h1, j', h2, e⟩
    simp only [Prod.mk.injEq] at e
    omega
  · rintro ⟨rfl, h1, h2, h3, h4⟩
    exact ⟨i - i0, by omega, j - j0, by omega, by simp only [Prod.mk.injEq, true_and, and_true]; omega⟩

theorem rect_nodup {t i0 m j0 n : ℕ} : (rect t i0 m j0 n).Nodup := by
  unfold rect
  rw [List.nodup_flatMap]
  constructor
  · intro j _
    refine List.Nodup.map (fun a b e => ?_) List.nodup_range
    simp only [Prod.mk.injEq] at e
    omega
  · refine List.Pairwise.imp (R := fun a b => a ≠ b) ?_ List.nodup_range
    intro a b hab
    simp only [Function.onFun, List.disjoint_left, List.mem_map]
    rintro _ ⟨i, -, rfl⟩ ⟨i', -, e⟩
    simp only [Prod.mk.injEq] at e
    omega

theorem rect_row {t i0 m j0 s : ℕ} {c : Cell} (h : (rect t i0 m j0 1)[s]? = some c) :
    s < m ∧ c = (t, i0 + s, j0, 0) := by
  simp only [rect, List.range_one, List.flatMap_cons, List.flatMap_nil, List.append_nil,
    List.getElem?_map, Option.map_eq_some_iff] at h
  obtain ⟨i, hi, rfl⟩ := h
  obtain ⟨h1, h2⟩ := List.getElem?_eq_some_iff.1 hi
  simp only [List.length_range, List.getElem_range] at h1 h2
  subst h2
  exact ⟨h1, rfl⟩

theorem rect_col_eq (t i0 j0 n : ℕ) :
    rect t i0 1 j0 n = (List.range n).map fun j => (t, i0, j0 + j, 0) := by
  unfold rect
  simp only [List.range_one, List.map_cons, List.map_nil, Nat.add_zero]
  rw [List.map_eq_flatMap]

theorem rect_col {t i0 n j0 s : ℕ} {c : Cell} (h : (rect t i0 1 j0 n)[s]? = some c) :
    s < n ∧ c = (t, i0, j0 + s, 0) := by
  rw [rect_col_eq] at h
  simp only [List.getElem?_map, Option.map_eq_some_iff] at h
  obtain ⟨i, hi, rfl⟩ := h
  obtain ⟨h1, h2⟩ := List.getElem?_eq_some_iff.1 hi
  simp only [List.length_range, List.getElem_range] at h1 h2
  subst h2
  exact ⟨h1, rfl⟩

theorem rect_row_length (t i0 m j0 : ℕ) : (rect t i0 m j0 1).length = m * 1 := by
  simp [rect]

theorem rect_col_length (t i0 j0 n : ℕ) : (rect t i0 1 j0 n).length = n * 1 := by
  rw [rect_col_eq]; simp

/-- Decide which case of a place description applies. -/
local macro "place" : tactic =>
  `(tactic| (split_ifs <;> first | rfl | (exfalso; omega) | (congr 1; omega)))

section
variable {rev : Bool} {F : List ℕ → ℕ × ℕ} {label : ℕ} {pl : Cell → Place}

theorem fits_row {key : List ℕ} {t i0 m j0 : ℕ} (hF : F key = (m, 1) ∧ F key.reverse = (m, 1))
    (h : ∀ s < m, pl (t, i0 + s, j0, 0) = .on key m s) :
    Fits rev F label pl (.ent false key (m, 1) (rect t i0 m j0 1)) := by
  refine ⟨hF.1.symm, fun _ => by rw [hF.1, hF.2], rect_row_length _ _ _ _, ?_⟩
  intro s c hc
  obtain ⟨hs, rfl⟩ := rect_row hc
  rw [h s hs, Nat.mul_one]

theorem fits_col {key : List ℕ} {t i0 n j0 : ℕ} (hF : F key = (n, 1) ∧ F key.reverse = (n, 1))
    (h : ∀ s < n, pl (t, i0, j0 + s, 0) = .on key n s) :
    Fits rev F label pl (.ent false key (n, 1) (rect t i0 1 j0 n)) := by
  refine ⟨hF.1.symm, fun _ => by rw [hF.1, hF.2], rect_col_length _ _ _ _, ?_⟩
  intro s c hc
  obtain ⟨hs, rfl⟩ := rect_col hc
  rw [h s hs, Nat.mul_one]

theorem fits_inner {t i0 m j0 n : ℕ}
    (h : ∀ i < m, ∀ j < n, pl (t, i0 + i, j0 + j, 0) = .inside label (t, i0 + i, j0 + j, 0)) :
    Fits rev F label pl (.inner (rect t i0 m j0 n)) := by
  refine ⟨rect_nodup, fun c hc => ?_⟩
  obtain ⟨i, hi, j, hj, rfl⟩ := mem_rect.1 hc
  exact h i hi j hj

theorem fits_node {v : ℕ} {c : Cell} (h : pl c = .node v) : Fits rev F label pl (.node v [c]) :=
  ⟨by simp, by simpa using h⟩

/-- What the shape function says about the edges along `x` and along `y`. -/
def Edges (F : List ℕ → ℕ × ℕ) (P Q : ℕ) (xe ye : List (List ℕ)) : Prop :=
  (∀ e ∈ xe, F e = (P, 1) ∧ F e.reverse = (P, 1)) ∧ ∀ e ∈ ye, F e = (Q, 1) ∧ F e.reverse = (Q, 1)

theorem quad0_ok {inside : Bool} {a b c d p q : ℕ} (hp : 0 < p) (hq : 0 < q)
    (hF : Edges F (p - 1) (q - 1) [[a, b], [c, d]] [[a, c], [b, d]]) :
    ElemOK rev F ⟨label, inside, quad0 a b c d p q, rect 0 0 (p + 1) 0 (q + 1)⟩
      (fun x => quadPoint label a b c d p q x.2.1 x.2.2.1) := by
  obtain ⟨hx, hy⟩ := hF
  refine ⟨?_, ?_, ?_, ?_⟩
  · intro blk hb
    simp only [quad0, List.mem_cons, List.not_mem_nil, or_false] at hb
    rcases hb with rfl | rfl | rfl | rfl | rfl | rfl | rfl | rfl | rfl
    · refine fits_node ?_
      dsimp only
      unfold quadPoint
      place
    · refine fits_row (hx _ (by simp)) fun s hs => ?_
      dsimp only
      unfold quadPoint
      place
    · refine fits_node ?_
      dsimp only
      unfold quadPoint
      place
    · refine fits_col (hy _ (by simp)) fun s hs => ?_
      dsimp only
      unfold quadPoint
      place
    · refine fits_inner fun i hi j hj => ?_
      dsimp only
      unfold quadPoint
      place
    · refine fits_col (hy _ (by simp)) fun s hs => ?_
      dsimp only
      unfold quadPoint
      place
    · refine fits_node ?_
      dsimp only
      unfold quadPoint
      place
    · refine fits_row (hx _ (by simp)) fun s hs => ?_
      dsimp only
      unfold quadPoint
      place
    · refine fits_node ?_
      dsimp only
      unfold quadPoint
      place
  · simp only [quad0, innerCells, List.flatMap_cons, List.flatMap_nil, List.append_nil, List.nil_append]
    exact rect_nodup
  · intro x hx
    simp only [quad0, blockCells, List.flatMap_cons, List.flatMap_nil, List.append_nil, List.mem_append,
      List.mem_singleton, mem_rect] at hx
    simp only [List.mem_append, List.mem_cons, mem_rect]
    rcases hx with rfl | ⟨i, hi, j, hj, rfl⟩ | rfl | ⟨i, hi, j, hj, rfl⟩ | ⟨i, hi, j, hj, rfl⟩ | ⟨i, hi, j, hj, rfl⟩ | rfl | ⟨i, hi, j, hj, rfl⟩ | rfl
    · exact ⟨_, ⟨0, by omega, 0, by omega, by simp <;> omega⟩, rfl⟩
    · exact ⟨_, ⟨1 + i, by omega, 0 + j, by omega, by simp <;> omega⟩, rfl⟩
    · exact ⟨_, ⟨p, by omega, 0, by omega, by simp <;> omega⟩, rfl⟩
    · exact ⟨_, ⟨0 + i, by omega, 1 + j, by omega, by simp <;> omega⟩, rfl⟩
    · exact ⟨_, ⟨1 + i, by omega, 1 + j, by omega, by simp <;> omega⟩, rfl⟩
    · exact ⟨_, ⟨p + i, by omega, 1 + j, by omega, by simp <;> omega⟩, rfl⟩
    · exact ⟨_, ⟨0, by omega, q, by omega, by simp <;> omega⟩, rfl⟩
    · exact ⟨_, ⟨1 + i, by omega, q + j, by omega, by simp <;> omega⟩, rfl⟩
    · exact ⟨_, ⟨p, by omega, q, by omega, by simp <;> omega⟩, rfl⟩
  · intro x hx
    simp only [List.mem_append, List.mem_cons, mem_rect] at hx
    simp only [quad0, blockCells, List.flatMap_cons, List.flatMap_nil, List.append_nil, List.mem_append,
      List.mem_singleton]
    rcases hx with ⟨i, hi, j, hj, rfl⟩
    · simp only [cell_mem_rect, Prod.mk.injEq, true_and, and_true]; omega

theorem tri0_ok {inside : Bool} {a b c p q : ℕ} (hp : 0 < p) (hq : 0 < q)
    (hF : Edges F (p - 1) (q - 1) [[a, b], [a, c]] [[b, c]]) :
    ElemOK rev F ⟨label, inside, tri0 a b c p q, (0, 0, 0, 0) :: rect 0 1 p 0 (q + 1)⟩
      (fun x => triPoint label a b c p q x.2.1 x.2.2.1) := by
  obtain ⟨hx, hy⟩ := hF
  refine ⟨?_, ?_, ?_, ?_⟩
  · intro blk hb
    simp only [tri0, List.mem_cons, List.not_mem_nil, or_false] at hb
    rcases hb with rfl | rfl | rfl | rfl | rfl | rfl | rfl
    · refine ⟨by simp [rect, List.range_succ_eq_map], fun x hx => ?_⟩
      obtain ⟨i, hi, j, hj, rfl⟩ := mem_rect.1 hx
      dsimp only
      unfold triPoint
      place
    · refine fits_row (hx _ (by simp)) fun s hs => ?_
      dsimp only
      unfold triPoint
      place
    · refine fits_node ?_
      dsimp only
      unfold triPoint
      place
    · refine fits_inner fun i hi j hj => ?_
      dsimp only
      unfold triPoint
      place
    · refine fits_col (hy _ (by simp)) fun s hs => ?_
      dsimp only
      unfold triPoint
      place
    · refine fits_row (hx _ (by simp)) fun s hs => ?_
      dsimp only
      unfold triPoint
      place
    · refine fits_node ?_
      dsimp only
      unfold triPoint
      place
  · simp only [tri0, innerCells, List.flatMap_cons, List.flatMap_nil, List.append_nil, List.nil_append]
    exact rect_nodup
  · intro x hx
    simp only [tri0, blockCells, List.flatMap_cons, List.flatMap_nil, List.append_nil, List.mem_append,
      List.mem_singleton, mem_rect] at hx
    simp only [List.mem_append, List.mem_cons, mem_rect]
    rcases hx with ⟨i, hi, j, hj, rfl⟩ | ⟨i, hi, j, hj, rfl⟩ | rfl | ⟨i, hi, j, hj, rfl⟩ | ⟨i, hi, j, hj, rfl⟩ | ⟨i, hi, j, hj, rfl⟩ | rfl
    · exact ⟨(0, 0, 0, 0), Or.inl rfl, by simp only [triPoint, if_pos]; rw [if_pos (by omega)]⟩
    · exact ⟨_, Or.inr ⟨i, by omega, 0 + j, by omega, by simp <;> omega⟩, rfl⟩
    · exact ⟨_, Or.inr ⟨p - 1, by omega, 0, by omega, by simp <;> omega⟩, rfl⟩
    · exact ⟨_, Or.inr ⟨i, by omega, 1 + j, by omega, by simp <;> omega⟩, rfl⟩
    · exact ⟨_, Or.inr ⟨p - 1 + i, by omega, 1 + j, by omega, by simp <;> omega⟩, rfl⟩
    · exact ⟨_, Or.inr ⟨i, by omega, q + j, by omega, by simp <;> omega⟩, rfl⟩
    · exact ⟨_, Or.inr ⟨p - 1, by omega, q, by omega, by simp <;> omega⟩, rfl⟩
  · intro x hx
    simp only [List.mem_append, List.mem_cons, mem_rect] at hx
    simp only [tri0, blockCells, List.flatMap_cons, List.flatMap_nil, List.append_nil, List.mem_append,
      List.mem_singleton]
    rcases hx with rfl | ⟨i, hi, j, hj, rfl⟩
    · simp only [cell_mem_rect, Prod.mk.injEq, true_and, and_true]; omega
    · simp only [cell_mem_rect, Prod.mk.injEq, true_and, and_true]; omega

theorem quad1o_ok {inside : Bool} {a b c d p q : ℕ} (hp : 0 < p) (hq : 0 < q)
    (hF : Edges F p q [[a, b], [c, d]] [[a, c], [b, d]]) :
    ElemOK rev F ⟨label, inside, quad1o a b c d p q, rect 0 0 (p + 1) 0 q ++ rect 1 0 p 0 (q + 1)⟩
      (fun x => quadSegment label a b c d p q x.1 x.2.1 x.2.2.1) := by
  obtain ⟨hx, hy⟩ := hF
  refine ⟨?_, ?_, ?_, ?_⟩
  · intro blk hb
    simp only [quad1o, List.mem_cons, List.not_mem_nil, or_false] at hb
    rcases hb with rfl | rfl | rfl | rfl | rfl | rfl
    · refine fits_col (hy _ (by simp)) fun s hs => ?_
      dsimp only
      unfold quadSegment
      place
    · refine fits_inner fun i hi j hj => ?_
      dsimp only
      unfold quadSegment
      place
    · refine fits_col (hy _ (by simp)) fun s hs => ?_
      dsimp only
      unfold quadSegment
      place
    · refine fits_row (hx _ (by simp)) fun s hs => ?_
      dsimp only
      unfold quadSegment
      place
    · refine fits_inner fun i hi j hj => ?_
      dsimp only
      unfold quadSegment
      place
    · refine fits_row (hx _ (by simp)) fun s hs => ?_
      dsimp only
      unfold quadSegment
      place
  · simp only [quad1o, innerCells, List.flatMap_cons, List.flatMap_nil, List.append_nil, List.nil_append]
    refine List.nodup_append.2 ⟨rect_nodup, rect_nodup, ?_⟩
    intro x hx y hy e
    obtain ⟨i, hi, j, hj, rfl⟩ := mem_rect.1 hx
    obtain ⟨i', hi', j', hj', rfl⟩ := mem_rect.1 hy
    simp at e
  · intro x hx
    simp only [quad1o, blockCells, List.flatMap_cons, List.flatMap_nil, List.append_nil, List.mem_append,
      List.mem_singleton, mem_rect] at hx
    simp only [List.mem_append, List.mem_cons, mem_rect]
    rcases hx with ⟨i, hi, j, hj, rfl⟩ | ⟨i, hi, j, hj, rfl⟩ | ⟨i, hi, j, hj, rfl⟩ | ⟨i, hi, j, hj, rfl⟩ | ⟨i, hi, j, hj, rfl⟩ | ⟨i, hi, j, hj, rfl⟩
    · exact ⟨_, Or.inl ⟨0 + i, by omega, 0 + j, by omega, by simp <;> omega⟩, rfl⟩
    · exact ⟨_, Or.inl ⟨1 + i, by omega, 0 + j, by omega, by simp <;> omega⟩, rfl⟩
    · exact ⟨_, Or.inl ⟨p + i, by omega, 0 + j, by omega, by simp <;> omega⟩, rfl⟩
    · exact ⟨_, Or.inr ⟨0 + i, by omega, 0 + j, by omega, by simp <;> omega⟩, rfl⟩
    · exact ⟨_, Or.inr ⟨0 + i, by omega, 1 + j, by omega, by simp <;> omega⟩, rfl⟩
    · exact ⟨_, Or.inr ⟨0 + i, by omega, q + j, by omega, by simp <;> omega⟩, rfl⟩
  · intro x hx
    simp only [List.mem_append, List.mem_cons, mem_rect] at hx
    simp only [quad1o, blockCells, List.flatMap_cons, List.flatMap_nil, List.append_nil, List.mem_append,
      List.mem_singleton]
    rcases hx with ⟨i, hi, j, hj, rfl⟩ | ⟨i, hi, j, hj, rfl⟩
    · simp only [cell_mem_rect, Prod.mk.injEq, true_and, and_true]; omega
    · simp only [cell_mem_rect, Prod.mk.injEq, true_and, and_true]; omega

theorem tri1o_ok {inside : Bool} {a b c p q : ℕ} (hp : 0 < p) (hq : 0 < q)
    (hF : Edges F p q [[a, b], [a, c]] [[b, c]]) :
    ElemOK rev F ⟨label, inside, tri1o a b c p q, rect 0 0 p 0 q ++ rect 1 0 p 0 (q + 1)⟩
      (fun x => triSegment label a b c p q x.1 x.2.1 x.2.2.1) := by
  obtain ⟨hx, hy⟩ := hF
  refine ⟨?_, ?_, ?_, ?_⟩
  · intro blk hb
    simp only [tri1o, List.mem_cons, List.not_mem_nil, or_false] at hb
    rcases hb with rfl | rfl | rfl | rfl | rfl
    · refine fits_inner fun i hi j hj => ?_
      dsimp only
      unfold triSegment
      place
    · refine fits_col (hy _ (by simp)) fun s hs => ?_
      dsimp only
      unfold triSegment
      place
    · refine fits_row (hx _ (by simp)) fun s hs => ?_
      dsimp only
      unfold triSegment
      place
    · refine fits_inner fun i hi j hj => ?_
      dsimp only
      unfold triSegment
      place
    · refine fits_row (hx _ (by simp)) fun s hs => ?_
      dsimp only
      unfold triSegment
      place
  · simp only [tri1o, innerCells, List.flatMap_cons, List.flatMap_nil, List.append_nil, List.nil_append]
    refine List.nodup_append.2 ⟨rect_nodup, rect_nodup, ?_⟩
    intro x hx y hy e
    obtain ⟨i, hi, j, hj, rfl⟩ := mem_rect.1 hx
    obtain ⟨i', hi', j', hj', rfl⟩ := mem_rect.1 hy
    simp at e
  · intro x hx
    simp only [tri1o, blockCells, List.flatMap_cons, List.flatMap_nil, List.append_nil, List.mem_append,
      List.mem_singleton, mem_rect] at hx
    simp only [List.mem_append, List.mem_cons, mem_rect]
    rcases hx with ⟨i, hi, j, hj, rfl⟩ | ⟨i, hi, j, hj, rfl⟩ | ⟨i, hi, j, hj, rfl⟩ | ⟨i, hi, j, hj, rfl⟩ | ⟨i, hi, j, hj, rfl⟩
    · exact ⟨_, Or.inl ⟨0 + i, by omega, 0 + j, by omega, by simp <;> omega⟩, rfl⟩
    · exact ⟨_, Or.inl ⟨p - 1 + i, by omega, 0 + j, by omega, by simp <;> omega⟩, rfl⟩
    · exact ⟨_, Or.inr ⟨0 + i, by omega, 0 + j, by omega, by simp <;> omega⟩, rfl⟩
    · exact ⟨_, Or.inr ⟨0 + i, by omega, 1 + j, by omega, by simp <;> omega⟩, rfl⟩
    · exact ⟨_, Or.inr ⟨0 + i, by omega, q + j, by omega, by simp <;> omega⟩, rfl⟩
  · intro x hx
    simp only [List.mem_append, List.mem_cons, mem_rect] at hx
    simp only [tri1o, blockCells, List.flatMap_cons, List.flatMap_nil, List.append_nil, List.mem_append,
      List.mem_singleton]
    rcases hx with ⟨i, hi, j, hj, rfl⟩ | ⟨i, hi, j, hj, rfl⟩
    · simp only [cell_mem_rect, Prod.mk.injEq, true_and, and_true]; omega
    · simp only [cell_mem_rect, Prod.mk.injEq, true_and, and_true]; omega

theorem quad1i_ok {inside : Bool} {a b c d p q : ℕ} (hp : 0 < p) (hq : 0 < q)
    (hF : Edges F p q [[a, b], [c, d]] [[a, c], [b, d]]) :
    ElemOK rev F ⟨label, inside, quad1i a b c d p q, rect 1 0 p 0 (q + 1) ++ rect 0 0 (p + 1) 0 q⟩
      (fun x => quadSegment label a b c d p q x.1 x.2.1 x.2.2.1) := by
  obtain ⟨hx, hy⟩ := hF
  refine ⟨?_, ?_, ?_, ?_⟩
  · intro blk hb
    simp only [quad1i, List.mem_cons, List.not_mem_nil, or_false] at hb
    rcases hb with rfl | rfl | rfl | rfl | rfl | rfl
    · refine fits_row (hx _ (by simp)) fun s hs => ?_
      dsimp only
      unfold quadSegment
      place
    · refine fits_inner fun i hi j hj => ?_
      dsimp only
      unfold quadSegment
      place
    · refine fits_row (hx _ (by simp)) fun s hs => ?_
      dsimp only
      unfold quadSegment
      place
    · refine fits_col (hy _ (by simp)) fun s hs => ?_
      dsimp only
      unfold quadSegment
      place
    · refine fits_inner fun i hi j hj => ?_
      dsimp only
      unfold quadSegment
      place
    · refine fits_col (hy _ (by simp)) fun s hs => ?_
      dsimp only
      unfold quadSegment
      place
  · simp only [quad1i, innerCells, List.flatMap_cons, List.flatMap_nil, List.append_nil, List.nil_append]
    refine List.nodup_append.2 ⟨rect_nodup, rect_nodup, ?_⟩
    intro x hx y hy e
    obtain ⟨i, hi, j, hj, rfl⟩ := mem_rect.1 hx
    obtain ⟨i', hi', j', hj', rfl⟩ := mem_rect.1 hy
    simp at e
  · intro x hx
    simp only [quad1i, blockCells, List.flatMap_cons, List.flatMap_nil, List.append_nil, List.mem_append,
      List.mem_singleton, mem_rect] at hx
    simp only [List.mem_append, List.mem_cons, mem_rect]
    rcases hx with ⟨i, hi, j, hj, rfl⟩ | ⟨i, hi, j, hj, rfl⟩ | ⟨i, hi, j, hj, rfl⟩ | ⟨i, hi, j, hj, rfl⟩ | ⟨i, hi, j, hj, rfl⟩ | ⟨i, hi, j, hj, rfl⟩
    · exact ⟨_, Or.inl ⟨0 + i, by omega, 0 + j, by omega, by simp <;> omega⟩, rfl⟩
    · exact ⟨_, Or.inl ⟨0 + i, by omega, 1 + j, by omega, by simp <;> omega⟩, rfl⟩
    · exact ⟨_, Or.inl ⟨0 + i, by omega, q + j, by omega, by simp <;> omega⟩, rfl⟩
    · exact ⟨_, Or.inr ⟨0 + i, by omega, 0 + j, by omega, by simp <;> omega⟩, rfl⟩
    · exact ⟨_, Or.inr ⟨1 + i, by omega, 0 + j, by omega, by simp <;> omega⟩, rfl⟩
    · exact ⟨_, Or.inr ⟨p + i, by omega, 0 + j, by omega, by simp <;> omega⟩, rfl⟩
  · intro x hx
    simp only [List.mem_append, List.mem_cons, mem_rect] at hx
    simp only [quad1i, blockCells, List.flatMap_cons, List.flatMap_nil, List.append_nil, List.mem_append,
      List.mem_singleton]
    rcases hx with ⟨i, hi, j, hj, rfl⟩ | ⟨i, hi, j, hj, rfl⟩
    · simp only [cell_mem_rect, Prod.mk.injEq, true_and, and_true]; omega
    · simp only [cell_mem_rect, Prod.mk.injEq, true_and, and_true]; omega

theorem tri1i_ok {inside : Bool} {a b c p q : ℕ} (hp : 0 < p) (hq : 0 < q)
    (hF : Edges F p q [[a, b], [a, c]] [[b, c]]) :
    ElemOK rev F ⟨label, inside, tri1i a b c p q, rect 1 0 p 0 (q + 1) ++ rect 0 0 p 0 q⟩
      (fun x => triSegment label a b c p q x.1 x.2.1 x.2.2.1) := by
  obtain ⟨hx, hy⟩ := hF
  refine ⟨?_, ?_, ?_, ?_⟩
  · intro blk hb
    simp only [tri1i, List.mem_cons, List.not_mem_nil, or_false] at hb
    rcases hb with rfl | rfl | rfl | rfl | rfl
    · refine fits_row (hx _ (by simp)) fun s hs => ?_
      dsimp only
      unfold triSegment
      place
    · refine fits_inner fun i hi j hj => ?_
      dsimp only
      unfold triSegment
      place
    · refine fits_row (hx _ (by simp)) fun s hs => ?_
      dsimp only
      unfold triSegment
      place
    · refine fits_inner fun i hi j hj => ?_
      dsimp only
      unfold triSegment
      place
    · refine fits_col (hy _ (by simp)) fun s hs => ?_
      dsimp only
      unfold triSegment
      place
  · simp only [tri1i, innerCells, List.flatMap_cons, List.flatMap_nil, List.append_nil, List.nil_append]
    refine List.nodup_append.2 ⟨rect_nodup, rect_nodup, ?_⟩
    intro x hx y hy e
    obtain ⟨i, hi, j, hj, rfl⟩ := mem_rect.1 hx
    obtain ⟨i', hi', j', hj', rfl⟩ := mem_rect.1 hy
    simp at e
  · intro x hx
    simp only [tri1i, blockCells, List.flatMap_cons, List.flatMap_nil, List.append_nil, List.mem_append,
      List.mem_singleton, mem_rect] at hx
    simp only [List.mem_append, List.mem_cons, mem_rect]
    rcases hx with ⟨i, hi, j, hj, rfl⟩ | ⟨i, hi, j, hj, rfl⟩ | ⟨i, hi, j, hj, rfl⟩ | ⟨i, hi, j, hj, rfl⟩ | ⟨i, hi, j, hj, rfl⟩
    · exact ⟨_, Or.inl ⟨0 + i, by omega, 0 + j, by omega, by simp <;> omega⟩, rfl⟩
    · exact ⟨_, Or.inl ⟨0 + i, by omega, 1 + j, by omega, by simp <;> omega⟩, rfl⟩
    · exact ⟨_, Or.inl ⟨0 + i, by omega, q + j, by omega, by simp <;> omega⟩, rfl⟩
    · exact ⟨_, Or.inr ⟨0 + i, by omega, 0 + j, by omega, by simp <;> omega⟩, rfl⟩
    · exact ⟨_, Or.inr ⟨p - 1 + i, by omega, 0 + j, by omega, by simp <;> omega⟩, rfl⟩
  · intro x hx
    simp only [List.mem_append, List.mem_cons, mem_rect] at hx
    simp only [tri1i, blockCells, List.flatMap_cons, List.flatMap_nil, List.append_nil, List.mem_append,
      List.mem_singleton]
    rcases hx with ⟨i, hi, j, hj, rfl⟩ | ⟨i, hi, j, hj, rfl⟩
    · simp only [cell_mem_rect, Prod.mk.injEq, true_and, and_true]; omega
    · simp only [cell_mem_rect, Prod.mk.injEq, true_and, and_true]; omega


theorem elem2_ok {inside : Bool} {p q : ℕ} :
    ElemOK rev F (elem2 p q label inside) (fun x => .inside label x) := by
  refine ⟨?_, ?_, ?_, ?_⟩
  · intro blk hb
    simp only [elem2, List.mem_singleton] at hb
    subst hb
    exact fits_inner fun i hi j hj => rfl
  · simpa [elem2, innerCells] using rect_nodup
  · intro x hx
    simp only [elem2, blockCells, List.flatMap_cons, List.flatMap_nil, List.append_nil] at hx
    exact ⟨x, hx, rfl⟩
  · intro x hx
    simpa [elem2, blockCells] using hx

end

/-! ### The shape function of a conforming mesh -/

open Classical in
/-- Edges along `x` of some element of the mesh have `P` dofs, all others `Q`. -/
noncomputable def shapeOf (P Q : ℕ) (mesh : List Item) (e : List ℕ) : ℕ × ℕ :=
  if ∃ x ∈ mesh, x.inside = true ∧ (e ∈ xEdges x.shape ∨ e.reverse ∈ xEdges x.shape) then (P, 1) else (Q, 1)

theorem edges_shapeOf {p q P Q : ℕ} (hPQ : p = q → P = Q) {mesh : List Item} (hc : Conforming p q mesh)
    {x : Item} (hx : x ∈ mesh) (hi : x.inside = true) :
    Edges (shapeOf P Q mesh) P Q (xEdges x.shape) (yEdges x.shape) := by
  rcases hc with e | hc
  · have := hPQ e
    subst this
    exact ⟨fun e _ => by unfold shapeOf; split_ifs <;> exact ⟨rfl, rfl⟩,
      fun e _ => by unfold shapeOf; split_ifs <;> exact ⟨rfl, rfl⟩⟩
  · constructor
    · intro e he
      unfold shapeOf
      rw [if_pos ⟨x, hx, hi, Or.inl he⟩, if_pos ⟨x, hx, hi, Or.inr (by rwa [List.reverse_reverse])⟩]
      exact ⟨rfl, rfl⟩
    · intro f hf
      have no : ∀ y ∈ mesh, y.inside = true → f ∉ xEdges y.shape ∧ f.reverse ∉ xEdges y.shape :=
        fun y hy hyi => ⟨fun h => (hc y hy x hx hyi hi f h f hf).1 rfl,
          fun h => (hc y hy x hx hyi hi _ h f hf).2 rfl⟩
      unfold shapeOf
      rw [if_neg, if_neg]
      · exact ⟨rfl, rfl⟩
      · rintro ⟨y, hy, hyi, h | h⟩
        · exact (no y hy hyi).2 h
        · rw [List.reverse_reverse] at h
          exact (no y hy hyi).1 h
      · rintro ⟨y, hy, hyi, h | h⟩
        · exact (no y hy hyi).1 h
        · exact (no y hy hyi).2 h

/-! ### Elements with the places of their cells -/

/-- The place of a cell of the 0-form array. -/
def cell0 (p q label : ℕ) : Shape2 → Cell → Place
  | .quad m0 m1 m2 m3, x => quadPoint label m0 m1 m2 m3 p q x.2.1 x.2.2.1
  | .quad9 m0 m1 m2 m3, x => quadPoint label m0 m1 m3 m2 p q x.2.1 x.2.2.1
  | .tri m0 m1 m2, x => triPoint label m0 m1 m2 p q x.2.1 x.2.2.1

/-- The place of a cell of the 1-form arrays. -/
def cell1 (p q label : ℕ) : Shape2 → Cell → Place
  | .quad m0 m1 m2 m3, x => quadSegment label m0 m1 m2 m3 p q x.1 x.2.1 x.2.2.1
  | .quad9 m0 m1 m2 m3, x => quadSegment label m0 m1 m3 m2 p q x.1 x.2.1 x.2.2.1
  | .tri m0 m1 m2, x => triSegment label m0 m1 m2 p q x.1 x.2.1 x.2.2.1

/-- What `elem0` returns when it accepts the element. -/
def elem0' (p q label : ℕ) (inside : Bool) : Shape2 → Elem
  | .quad m0 m1 m2 m3 => ⟨label, inside, quad0 m0 m1 m2 m3 p q, rect 0 0 (p + 1) 0 (q + 1)⟩
  | .quad9 m0 m1 m2 m3 => ⟨label, inside, quad0 m0 m1 m3 m2 p q, rect 0 0 (p + 1) 0 (q + 1)⟩
  | .tri m0 m1 m2 => ⟨label, inside, tri0 m0 m1 m2 p q, (0, 0, 0, 0) :: rect 0 1 p 0 (q + 1)⟩

theorem elem0_eq {p q label : ℕ} {inside : Bool} {s : Shape2} {e : Elem}
    (h : elem0 p q label inside s = some e) : e = elem0' p q label inside s := by
  cases s with
  | quad m0 m1 m2 m3 => exact (Option.some.inj h).symm
  | quad9 m0 m1 m2 m3 => exact (Option.some.inj h).symm
  | tri m0 m1 m2 =>
    unfold elem0 at h
    dsimp only at h
    split_ifs at h
    exact (Option.some.inj h).symm

theorem elems0_eq {p q : ℕ} : ∀ {mesh : List Item} {es : List Elem}, elems0 p q mesh = some es →
    es = mesh.map fun x => elem0' p q x.label x.inside x.shape := by
  intro mesh
  induction mesh with
  | nil => intro es h; exact (Option.some.inj h).symm
  | cons x xs ih =>
    intro es h
    simp only [elems0, Option.bind_eq_some_iff, Option.map_eq_some_iff] at h
    obtain ⟨e, he, es', hes, rfl⟩ := h
    rw [List.map_cons, elem0_eq he, ih hes]

theorem elems0_total {p q : ℕ} : ∀ {mesh : List Item},
    (p = q ∨ ∀ x ∈ mesh, x.inside = true → ∀ a b c, x.shape ≠ .tri a b c) →
    elems0 p q mesh = some (mesh.map fun x => elem0' p q x.label x.inside x.shape) := by
  intro mesh
  induction mesh with
  | nil => intro _; rfl
  | cons x xs ih =>
    intro h
    have e : elem0 p q x.label x.inside x.shape = some (elem0' p q x.label x.inside x.shape) := by
      cases hs : x.shape with
      | quad m0 m1 m2 m3 => rfl
      | quad9 m0 m1 m2 m3 => rfl
      | tri m0 m1 m2 =>
        unfold elem0 elem0'
        dsimp only
        rw [if_pos]
        rcases h with h | h
        · exact Or.inl h
        · right
          cases hi : x.inside with
          | false => rfl
          | true => exact absurd hs (h x (by simp) hi m0 m1 m2)
    rw [List.map_cons, elems0, e, ih (by
      rcases h with h | h
      · exact Or.inl h
      · exact Or.inr fun y hy => h y (by simp [hy]))]
    rfl

theorem elem0_ok {rev : Bool} {F : List ℕ → ℕ × ℕ} {label : ℕ} {inside : Bool} {p q : ℕ} (hp : 0 < p)
    (hq : 0 < q) {s : Shape2} (hF : Edges F (p - 1) (q - 1) (xEdges s) (yEdges s)) :
    ElemOK rev F (elem0' p q label inside s) (cell0 p q label s) := by
  cases s with
  | quad m0 m1 m2 m3 => exact quad0_ok hp hq hF
  | quad9 m0 m1 m2 m3 => exact quad0_ok hp hq hF
  | tri m0 m1 m2 => exact tri0_ok hp hq hF

theorem elem1o_ok {rev : Bool} {F : List ℕ → ℕ × ℕ} {label : ℕ} {inside : Bool} {p q : ℕ} (hp : 0 < p)
    (hq : 0 < q) {s : Shape2} (hF : Edges F p q (xEdges s) (yEdges s)) :
    ElemOK rev F (elem1o p q label inside s) (cell1 p q label s) := by
  cases s with
  | quad m0 m1 m2 m3 => exact quad1o_ok hp hq hF
  | quad9 m0 m1 m2 m3 => exact quad1o_ok hp hq hF
  | tri m0 m1 m2 => exact tri1o_ok hp hq hF

theorem elem1i_ok {rev : Bool} {F : List ℕ → ℕ × ℕ} {label : ℕ} {inside : Bool} {p q : ℕ} (hp : 0 < p)
    (hq : 0 < q) {s : Shape2} (hF : Edges F p q (xEdges s) (yEdges s)) :
    ElemOK rev F (elem1i p q label inside s) (cell1 p q label s) := by
  cases s with
  | quad m0 m1 m2 m3 => exact quad1i_ok hp hq hF
  | quad9 m0 m1 m2 m3 => exact quad1i_ok hp hq hF
  | tri m0 m1 m2 => exact tri1i_ok hp hq hF

theorem rect_map {t i0 m n : ℕ} (f : Cell → Place) :
    (rect t i0 m 0 n).map f = grid m n fun i j => f (t, i0 + i, j, 0) := by
  unfold rect grid
  simp only [List.map_flatMap, List.map_map, Function.comp_def, Nat.zero_add]

theorem order0 (p q label : ℕ) (inside : Bool) (s : Shape2) :
    (elem0' p q label inside s).order.map (cell0 p q label s) = nodePlaces p q label s := by
  cases s <;> simp [elem0', cell0, nodePlaces, rect_map, triPoint, Nat.add_comm 1]

theorem order1o (p q label : ℕ) (inside : Bool) (s : Shape2) :
    (elem1o p q label inside s).order.map (cell1 p q label s)
      = ySegments p q label s ++ xSegments p q label s := by
  cases s <;> simp [elem1o, cell1, ySegments, xSegments, rect_map]

theorem order1i (p q label : ℕ) (inside : Bool) (s : Shape2) :
    (elem1i p q label inside s).order.map (cell1 p q label s)
      = xSegments p q label s ++ ySegments p q label s := by
  cases s <;> simp [elem1i, cell1, ySegments, xSegments, rect_map]

/-- From elements with places back to the mesh. -/
theorem of_elems {F : List ℕ → ℕ × ℕ} {mesh : List Item} (el : Item → Elem) (pl : Item → Cell → Place)
    (f : ℕ → Shape2 → List Place) (hl : ∀ x, (el x).label = x.label) (hi : ∀ x, (el x).inside = x.inside)
    (ok : ∀ x ∈ mesh, x.inside = true → ElemOK true F (el x) (pl x))
    (hf : ∀ x, (el x).order.map (pl x) = f x.label x.shape)
    (hnd : (mesh.map Item.label).Nodup) :
    ∃ gm total, number true (mesh.map el) = some (gm, total) ∧ Right true (placesOf f mesh) gm total := by
  have e : mesh.map el = (mesh.map fun x => (el x, pl x)).map Prod.fst := by
    rw [List.map_map]; rfl
  have ok' : ∀ x ∈ mesh.map (fun x => (el x, pl x)), x.1.inside = true → ElemOK true F x.1 x.2 := by
    intro y hy
    obtain ⟨x, hx, rfl⟩ := List.mem_map.1 hy
    intro h
    exact ok x hx ((hi x).symm.trans h)
  have hnd' : ((mesh.map fun x => (el x, pl x)).map fun x => x.1.label).Nodup := by
    rw [List.map_map]
    have : ((fun x : Elem × (Cell → Place) => x.1.label) ∘ fun x => (el x, pl x)) = Item.label := by
      funext x; exact hl x
    rw [this]
    exact hnd
  obtain ⟨⟨gm, total⟩, hr⟩ := number_total ok' hnd'
  refine ⟨gm, total, by rw [e]; exact hr, ?_⟩
  have := number_right ok' hnd' hr
  have ep : places (mesh.map fun x => (el x, pl x)) = placesOf f mesh := by
    unfold places placesOf
    rw [List.filter_map, List.map_map]
    have e1 : ((fun x : Elem × (Cell → Place) => x.1.inside) ∘ fun x => (el x, pl x)) = Item.inside := by
      funext x; exact hi x
    rw [e1]
    refine List.map_congr_left fun x _ => ?_
    simp only [Function.comp, hl, hf]
  rwa [ep] at this

/-! ### The theorems -/

/-- C49: on any mesh of quadrilaterals and triangles whose edges have one degree each, the nodes are
numbered `0, …, total - 1` without gap, and two local dofs have the same number exactly when they are the
same node of the mesh, edges being met in either direction. The numbering is refused only for a triangle with
unequal degrees. -/
theorem nodes_right {p q : ℕ} (hp : 0 < p) (hq : 0 < q) {mesh : List Item}
    (hnd : (mesh.map Item.label).Nodup) (hc : Conforming p q mesh)
    (ht : p = q ∨ ∀ x ∈ mesh, x.inside = true → ∀ a b c, x.shape ≠ .tri a b c) :
    ∃ gm total, number0 p q mesh = some (gm, total) ∧
      Right true (placesOf (nodePlaces p q) mesh) gm total := by
  have := of_elems (F := shapeOf (p - 1) (q - 1) mesh) (mesh := mesh)
    (fun x => elem0' p q x.label x.inside x.shape) (fun x => cell0 p q x.label x.shape) (nodePlaces p q)
    (fun x => by cases hs : x.shape <;> rfl) (fun x => by cases hs : x.shape <;> rfl)
    (fun x hx hi => elem0_ok hp hq (edges_shapeOf (fun e => by rw [e]) hc hx hi))
    (fun x => order0 p q x.label x.inside x.shape) hnd
  unfold number0
  rw [elems0_total ht]
  exact this

/-- C49: in the same mesh, a triangle of unequal degrees makes the numbering fail. -/
theorem nodes_refused {p q : ℕ} (h : p ≠ q) {mesh : List Item} {x : Item} (hx : x ∈ mesh)
    (hi : x.inside = true) {a b c : ℕ} (hs : x.shape = .tri a b c) : number0 p q mesh = none := by
  have : elems0 p q mesh = none := by
    induction mesh with
    | nil => cases hx
    | cons y ys ih =>
      rcases List.mem_cons.1 hx with rfl | hx
      · simp [elems0, elem0, hs, h, hi]
      · simp [elems0, ih hx]
  simp [number0, this]

/-- C50: the same for the segments of outer 1-forms, `dy` before `dx`. -/
theorem edges_outer_right {p q : ℕ} (hp : 0 < p) (hq : 0 < q) {mesh : List Item}
    (hnd : (mesh.map Item.label).Nodup) (hc : Conforming p q mesh) :
    ∃ gm total, number1o p q mesh = some (gm, total) ∧
      Right true (placesOf (fun e s => ySegments p q e s ++ xSegments p q e s) mesh) gm total :=
  of_elems (F := shapeOf p q mesh) (fun x => elem1o p q x.label x.inside x.shape)
    (fun x => cell1 p q x.label x.shape) _ (fun x => by cases hs : x.shape <;> rfl)
    (fun x => by cases hs : x.shape <;> rfl)
    (fun x hx hi => elem1o_ok hp hq (edges_shapeOf id hc hx hi))
    (fun x => order1o p q x.label x.inside x.shape) hnd

/-- C50: and of inner 1-forms, `dx` before `dy`. -/
theorem edges_inner_right {p q : ℕ} (hp : 0 < p) (hq : 0 < q) {mesh : List Item}
    (hnd : (mesh.map Item.label).Nodup) (hc : Conforming p q mesh) :
    ∃ gm total, number1i p q mesh = some (gm, total) ∧
      Right true (placesOf (fun e s => xSegments p q e s ++ ySegments p q e s) mesh) gm total :=
  of_elems (F := shapeOf p q mesh) (fun x => elem1i p q x.label x.inside x.shape)
    (fun x => cell1 p q x.label x.shape) _ (fun x => by cases hs : x.shape <;> rfl)
    (fun x => by cases hs : x.shape <;> rfl)
    (fun x hx hi => elem1i_ok hp hq (edges_shapeOf id hc hx hi))
    (fun x => order1i p q x.label x.inside x.shape) hnd

/-- The dofs of 2-forms are never shared. -/
theorem cells_right {p q : ℕ} {mesh : List Item} (hnd : (mesh.map Item.label).Nodup) :
    ∃ gm total, number2 p q mesh = some (gm, total) ∧
      Right true (placesOf (fun e _ => grid p q fun i j => .inside e (0, i, j, 0)) mesh) gm total :=
  of_elems (F := fun _ => (0, 0)) (fun x => elem2 p q x.label x.inside) (fun x c => .inside x.label c) _
    (fun _ => rfl) (fun _ => rfl) (fun _ _ _ => elem2_ok)
    (fun x => by simp [elem2, rect_map]) hnd

/-- Two quadrilaterals and a triangle: the first and the second share an edge met in opposite directions,
the second and the triangle another one. -/
def mesh3 : List Item := [⟨0, true, .quad 0 1 2 3⟩, ⟨7, true, .quad 3 1 4 5⟩, ⟨2, true, .tri 4 5 6⟩]

example : (mesh3.map Item.label).Nodup ∧ Conforming 2 2 mesh3 := ⟨by decide, Or.inl rfl⟩

example : number0 2 2 mesh3 = some ([(0, some [0, 1, 2, 3, 4, 5, 6, 7, 8]),
    (7, some [8, 5, 2, 9, 10, 11, 12, 13, 14]), (2, some [12, 13, 14, 15, 16, 17, 18])], 19) := by
  decide +kernel

example : (number1o 2 2 mesh3).map Prod.snd = some 30 := by decide +kernel

/-- A mesh with unequal degrees that satisfies the hypothesis. -/
example : Conforming 2 3 [⟨0, true, .quad 0 1 2 3⟩, ⟨1, true, .quad 1 4 3 5⟩] := by
  right
  simp [xEdges, yEdges]

/-- C49, what is false: with unequal degrees, an edge along `x` of one element and along `y` of its neighbour
is accepted when it has one node in the first; all nodes of the neighbour's edge then get the same number. -/
theorem nodes_right_refuted : ∃ (mesh : List Item) (p q : ℕ) (gm : Dict ℕ (Option (List ℕ))) (total : ℕ),
    0 < p ∧ 0 < q ∧ (mesh.map Item.label).Nodup ∧ number0 p q mesh = some (gm, total) ∧
      ¬ Right true (placesOf (nodePlaces p q) mesh) gm total := by
  refine ⟨[⟨0, true, .quad 0 1 2 3⟩, ⟨1, true, .quad 0 4 1 5⟩], 2, 3, [(0, some [0, 1, 2, 3, 5, 7, 4, 6, 8, 9, 10, 11]), (1, some [0, 12, 13, 1, 14, 16, 1, 15, 17, 2, 18, 19])], 20, by decide, by decide, by decide, by decide +kernel, ?_⟩
  intro h
  have := (h.same 1 (nodePlaces 2 3 1 (.quad 0 4 1 5)) 1 (nodePlaces 2 3 1 (.quad 0 4 1 5))
    [0, 12, 13, 1, 14, 16, 1, 15, 17, 2, 18, 19] [0, 12, 13, 1, 14, 16, 1, 15, 17, 2, 18, 19] (by decide +kernel) (by decide +kernel) (by decide +kernel) (by decide +kernel)
    3 6 (.on [0, 1] 2 0) (.on [0, 1] 2 1) 1 1 (by decide +kernel) (by decide +kernel) (by decide) (by decide)).1 rfl
  rcases this with e | ⟨-, ent, len, t, s, h1, h2, h3, h4⟩
  · cases e
  · simp only [Place.on.injEq] at h3 h4
    obtain ⟨rfl, -, -⟩ := h3
    exact absurd h4.1 (by decide)

/-- C50, what is false: the same for outer 1-forms. -/
theorem edges_outer_right_refuted : ∃ (mesh : List Item) (p q : ℕ) (gm : Dict ℕ (Option (List ℕ)))
    (total : ℕ), 0 < p ∧ 0 < q ∧ (mesh.map Item.label).Nodup ∧ number1o p q mesh = some (gm, total) ∧
      ¬ Right true (placesOf (fun e s => ySegments p q e s ++ xSegments p q e s) mesh) gm total := by
  refine ⟨[⟨0, true, .quad 0 1 2 3⟩, ⟨1, true, .quad 0 4 1 5⟩], 1, 2, [(0, some [0, 2, 1, 3, 4, 5, 6]),
    (1, some [4, 7, 4, 8, 9, 10, 11])], 12, by decide, by decide, by decide, by decide +kernel, ?_⟩
  intro h
  have := (h.same 1 (ySegments 1 2 1 (.quad 0 4 1 5) ++ xSegments 1 2 1 (.quad 0 4 1 5))
    1 (ySegments 1 2 1 (.quad 0 4 1 5) ++ xSegments 1 2 1 (.quad 0 4 1 5))
    [4, 7, 4, 8, 9, 10, 11] [4, 7, 4, 8, 9, 10, 11] (by decide +kernel) (by decide +kernel)
    (by decide +kernel) (by decide +kernel) 0 2 (.on [0, 1] 2 0) (.on [0, 1] 2 1) 4 4 (by decide +kernel)
    (by decide +kernel) (by decide) (by decide)).1 rfl
  rcases this with e | ⟨-, ent, len, t, s, h1, h2, h3, h4⟩
  · cases e
  · simp only [Place.on.injEq] at h3 h4
    obtain ⟨rfl, -, -⟩ := h3
    exact absurd h4.1 (by decide)

end Phyem.PoolGM
