import Verif.OpCache.Props
import Mathlib.Data.Matrix.Mul
import Mathlib.Data.List.GetD
import Mathlib.Algebra.BigOperators.Fin

/-!
C35: what the derived local matrices hold, entry by entry.
-/

namespace Phyem.OpCache

open Matrix

/-! ### Specification -/

/-- A list of rows with `n` rows and `m` columns. -/
def Shape (n m : ℕ) (a : Mat) : Prop := a.length = n ∧ ∀ r ∈ a, r.length = m

/-- The matrix of a list of rows. -/
def toM (n m : ℕ) (a : Mat) : Matrix (Fin n) (Fin m) ℤ := fun i j => (a.getD i []).getD j 0

/-! ### The operations on lists of rows -/

theorem row {n m : ℕ} {a : Mat} (h : Shape n m a) {i : ℕ} (hi : i < n) : (a.getD i []).length = m := by
  have hi' : i < a.length := by rw [h.1]; exact hi
  rw [List.getD_eq_getElem _ _ hi']
  exact h.2 _ (List.getElem_mem hi')

theorem map_row {n m : ℕ} {a : Mat} (h : Shape n m a) (f : List ℤ → List ℤ) {i : ℕ} (hi : i < n) :
    (a.map f).getD i [] = f (a.getD i []) := by
  have hi' : i < a.length := by rw [h.1]; exact hi
  rw [List.getD_eq_getElem _ _ (by simpa using hi'), List.getD_eq_getElem _ _ hi']; simp

theorem map_entry (r : List ℤ) (f : ℤ → ℤ) {j : ℕ} (hj : j < r.length) : (r.map f).getD j 0 = f (r.getD j 0) := by
  rw [List.getD_eq_getElem _ _ (by simpa using hj), List.getD_eq_getElem _ _ hj]; simp

theorem neg_matrix {n m : ℕ} {a : Mat} (h : Shape n m a) : Shape n m (matNeg a) ∧ toM n m (matNeg a) = -toM n m a := by
  constructor
  · refine ⟨by simp [matNeg, h.1], ?_⟩
    intro r hr
    simp only [matNeg, List.mem_map] at hr
    obtain ⟨r', hr', rfl⟩ := hr
    simpa using h.2 r' hr'
  · ext i j
    simp only [toM, Matrix.neg_apply, matNeg]
    rw [map_row h _ i.2, map_entry _ _ (by rw [row h i.2]; exact j.2)]

theorem scale_matrix (c : ℤ) {n m : ℕ} {a : Mat} (h : Shape n m a) :
    Shape n m (matScale c a) ∧ toM n m (matScale c a) = c • toM n m a := by
  constructor
  · refine ⟨by simp [matScale, h.1], ?_⟩
    intro r hr
    simp only [matScale, List.mem_map] at hr
    obtain ⟨r', hr', rfl⟩ := hr
    simpa using h.2 r' hr'
  · ext i j
    simp only [toM, Matrix.smul_apply, matScale, smul_eq_mul]
    rw [map_row h _ i.2, map_entry _ _ (by rw [row h i.2]; exact j.2)]

theorem add_matrix {n m : ℕ} {a b : Mat} (h : Shape n m a) (h' : Shape n m b) :
    Shape n m (matAdd a b) ∧ toM n m (matAdd a b) = toM n m a + toM n m b := by
  constructor
  · refine ⟨by simp [matAdd, h.1, h'.1], ?_⟩
    intro r hr
    simp only [matAdd, List.mem_map] at hr
    obtain ⟨⟨r1, r2⟩, hr', rfl⟩ := hr
    have := List.of_mem_zip hr'
    simp [h.2 _ this.1, h'.2 _ this.2]
  · ext i j
    simp only [toM, Matrix.add_apply, matAdd]
    have hi : (i : ℕ) < a.length := by rw [h.1]; exact i.2
    have hi' : (i : ℕ) < b.length := by rw [h'.1]; exact i.2
    have hj : (j : ℕ) < (a[(i : ℕ)]).length := by rw [h.2 _ (List.getElem_mem hi)]; exact j.2
    have hj' : (j : ℕ) < (b[(i : ℕ)]).length := by rw [h'.2 _ (List.getElem_mem hi')]; exact j.2
    have e : ((a.zip b).map fun p => (p.1.zip p.2).map fun q => q.1 + q.2).getD i []
        = ((a[(i : ℕ)]).zip (b[(i : ℕ)])).map fun q => q.1 + q.2 := by
      rw [List.getD_eq_getElem _ _ (by simp; omega)]; simp
    rw [e, List.getD_eq_getElem _ _ hi, List.getD_eq_getElem _ _ hi', List.getD_eq_getElem _ _ hj,
      List.getD_eq_getElem _ _ hj', List.getD_eq_getElem _ _ (by simp; omega)]
    simp

theorem transpose_matrix {n m : ℕ} (hn : 0 < n) {a : Mat} (h : Shape n m a) :
    Shape m n (matT a) ∧ toM m n (matT a) = (toM n m a)ᵀ := by
  have hh : (a.headD []).length = m := by
    cases a with
    | nil => have := h.1; simp at this; omega
    | cons r a => exact h.2 r (by simp)
  constructor
  · refine ⟨by rw [matT, List.length_map, List.length_range, hh], ?_⟩
    intro r hr
    simp only [matT, List.mem_map] at hr
    obtain ⟨j, _, rfl⟩ := hr
    simp [h.1]
  · ext j i
    have hi : (i : ℕ) < a.length := by rw [h.1]; exact i.2
    have hj : (j : ℕ) < (matT a).length := by rw [matT, List.length_map, List.length_range, hh]; exact j.2
    simp only [toM, Matrix.transpose_apply]
    rw [List.getD_eq_getElem _ _ hj]
    simp only [matT, List.getElem_map, List.getElem_range]
    rw [List.getD_eq_getElem _ _ (by simpa using hi), List.getElem_map, List.getD_eq_getElem _ _ hi]

theorem dot_sum (m : ℕ) (r c : List ℤ) (hr : r.length = m) (hc : c.length = m) :
    dot r c = ∑ k : Fin m, r.getD k 0 * c.getD k 0 := by
  subst hr
  induction r generalizing c with
  | nil => simp [dot]
  | cons x r ih =>
    cases c with
    | nil => simp at hc
    | cons y c =>
      have := ih c (by simpa using hc)
      rw [List.length_cons, Fin.sum_univ_succ]
      simp only [Fin.val_zero, List.getD_cons_zero, Fin.val_succ, List.getD_cons_succ]
      rw [← this]
      simp [dot]

theorem mul_matrix {n m p : ℕ} (hm : 0 < m) {a b : Mat} (h : Shape n m a) (h' : Shape m p b) :
    Shape n p (matMul a b) ∧ toM n p (matMul a b) = toM n m a * toM m p b := by
  obtain ⟨hs, ht⟩ := transpose_matrix hm h'
  constructor
  · refine ⟨by simp [matMul, h.1], ?_⟩
    intro r hr
    simp only [matMul, List.mem_map] at hr
    obtain ⟨r', _, rfl⟩ := hr
    simp [hs.1]
  · ext i j
    have hj : (j : ℕ) < (matT b).length := by rw [hs.1]; exact j.2
    have e : toM n p (matMul a b) i j = dot (a.getD i []) ((matT b).getD j []) := by
      simp only [toM, matMul]
      rw [map_row h (fun r => (matT b).map fun c => dot r c) i.2, List.getD_eq_getElem _ _ (by simpa using hj),
        List.getElem_map, List.getD_eq_getElem _ _ hj]
    rw [e, dot_sum m _ _ (row h i.2) (row hs j.2), Matrix.mul_apply]
    refine Finset.sum_congr rfl fun k _ => ?_
    have := congrFun (congrFun ht j) k
    simp only [toM, Matrix.transpose_apply] at this ⊢
    rw [this]

/-! ### Evaluating derived matrices -/

section
variable (impl : Impl) (elems : List ℕ) (h : List (Act Mat))
  (hk : KeysOK impl elems (ops (run impl elems h))) (hn : NeverCustomised h (ops (run impl elems h)))
  (i e : ℕ) (he : e ∈ elems) (o : Obj Mat) (ho : (run impl elems h)[i]? = some o) (hc : o.cust.get e = none)
include hk hn he ho hc

/-- Part of C35, under the conditions of `read_derived_partial`: `(-M)[e]` is the negative of `M[e]`. -/
theorem read_neg_partial (j n m : ℕ) (hop : o.op = opNeg j) (a : Mat)
    (ha : (read impl elems (run impl elems h) j e).2 = some a) (hs : Shape n m a) :
    ∃ b, (read impl elems (run impl elems h) i e).2 = some b ∧ Shape n m b ∧ toM n m b = -toM n m a := by
  have := read_derived_partial impl elems h hk hn i e he o ho hc _ _ _ hop
  exact ⟨matNeg a, by rw [this]; simp [ha, allSome, fn1], (neg_matrix hs).1, (neg_matrix hs).2⟩

/-- `M.T[e]` is the transpose of `M[e]`. -/
theorem read_transpose_partial (j n m : ℕ) (h0 : 0 < n) (hop : o.op = opT j) (a : Mat)
    (ha : (read impl elems (run impl elems h) j e).2 = some a) (hs : Shape n m a) :
    ∃ b, (read impl elems (run impl elems h) i e).2 = some b ∧ Shape m n b ∧ toM m n b = (toM n m a)ᵀ := by
  have := read_derived_partial impl elems h hk hn i e he o ho hc _ _ _ hop
  exact ⟨matT a, by rw [this]; simp [ha, allSome, fn1], (transpose_matrix h0 hs).1, (transpose_matrix h0 hs).2⟩

/-- `(c * M)[e]` is `c` times `M[e]`. -/
theorem read_scale_partial (c : ℤ) (j n m : ℕ) (hop : o.op = opScale c j) (a : Mat)
    (ha : (read impl elems (run impl elems h) j e).2 = some a) (hs : Shape n m a) :
    ∃ b, (read impl elems (run impl elems h) i e).2 = some b ∧ Shape n m b ∧ toM n m b = c • toM n m a := by
  have := read_derived_partial impl elems h hk hn i e he o ho hc _ _ _ hop
  exact ⟨matScale c a, by rw [this]; simp [ha, allSome, fn1], (scale_matrix c hs).1, (scale_matrix c hs).2⟩

/-- `(M + N)[e]` is the sum of `M[e]` and `N[e]`. -/
theorem read_add_partial (j k n m : ℕ) (hop : o.op = opAdd j k) (a b : Mat)
    (ha : (read impl elems (run impl elems h) j e).2 = some a) (hs : Shape n m a)
    (hb : (read impl elems (run impl elems h) k e).2 = some b) (hs' : Shape n m b) :
    ∃ c, (read impl elems (run impl elems h) i e).2 = some c ∧ Shape n m c ∧ toM n m c = toM n m a + toM n m b := by
  have := read_derived_partial impl elems h hk hn i e he o ho hc _ _ _ hop
  exact ⟨matAdd a b, by rw [this]; simp [ha, hb, allSome, fn2], (add_matrix hs hs').1, (add_matrix hs hs').2⟩

/-- `(M @ N)[e]` is the product of `M[e]` and `N[e]`. -/
theorem read_matmul_partial (j k n m p : ℕ) (h0 : 0 < m) (hop : o.op = opMul j k) (a b : Mat)
    (ha : (read impl elems (run impl elems h) j e).2 = some a) (hs : Shape n m a)
    (hb : (read impl elems (run impl elems h) k e).2 = some b) (hs' : Shape m p b) :
    ∃ c, (read impl elems (run impl elems h) i e).2 = some c ∧ Shape n p c ∧ toM n p c = toM n m a * toM m p b := by
  have := read_derived_partial impl elems h hk hn i e he o ho hc _ _ _ hop
  exact ⟨matMul a b, by rw [this]; simp [ha, hb, allSome, fn2], (mul_matrix h0 hs hs').1, (mul_matrix h0 hs hs').2⟩

end

/-- A concrete product: `M @ M.T` in an element. -/
example : (read .msehtt [0] (run .msehtt [0]
      [.new (.leaf (fun _ => some [[1, 2, 0], [3, 4, 1]]) fun _ => ['a']), .new (opT 0), .new (opMul 0 1), .read 1 0]) 2 0).2 =
    some [[5, 11], [11, 26]] ∧ Shape 2 3 [[1, 2, 0], [3, 4, 1]] := by
  constructor
  · decide +kernel
  · simp [Shape]

end Phyem.OpCache
