import Verif.Precond.Model
import Mathlib.Algebra.BigOperators.Group.Finset.Basic
import Mathlib.Algebra.BigOperators.Ring.Finset
import Mathlib.Tactic.Ring
import Mathlib.Tactic.FieldSimp
import Mathlib.Tactic.Linarith

/-!
C38 (Jacobi preconditioning keeps the solution) and C39 (essential rows in parallel).
-/

namespace Phyem.Precond

/-! Specification. -/

/-- The true matrix: the sum over ranks. -/
def total (ms : List RankMat) (i j : ℕ) : ℚ := (ms.map fun m => entry m i j).sum

/-- The true vector: the sum over ranks. -/
def totalV (bs : List RankVec) (i : ℕ) : ℚ := (bs.map fun b => b.getD i 0).sum

/-- `x` solves the `n` by `n` system. -/
def Solves (n : ℕ) (ms : List RankMat) (bs : List RankVec) (x : ℕ → ℚ) : Prop :=
  ∀ i < n, ∑ j ∈ Finset.range n, total ms i j * x j = totalV bs i

/-- Row `i` of the true matrix is a unit row. -/
def IsUnitRow (ms : List RankMat) (i : ℕ) : Prop := ∀ j, total ms i j = if j = i then 1 else 0

/-! Lemmas. -/

theorem recip_pos (d : ℚ) : 0 < recip d := by
  unfold recip
  split
  · norm_num
  · rename_i h
    have : (0 : ℚ) < d := by linarith
    exact one_div_pos.mpr this

theorem sum_map_mul (c : ℚ) : ∀ (l : List ℚ), (l.map fun x => c * x).sum = c * l.sum
  | [] => by simp
  | a :: l => by simp [sum_map_mul c l, mul_add]

theorem rowAt_scale (c : ℚ) (r : Row) (j : ℕ) :
    rowAt (r.map fun q => (q.1, c * q.2)) j = c * rowAt r j := by
  unfold rowAt
  rw [← sum_map_mul, List.filter_map, List.map_map, List.map_map]
  rfl

theorem rowOf_scale (d : List ℚ) (m : RankMat) (i : ℕ) :
    rowOf (scaleMat d m) i = (rowOf m i).map fun q => (q.1, d.getD i 0 * q.2) := by
  unfold rowOf scaleMat
  simp only [List.getD_eq_getElem?_getD, List.getElem?_map, List.getElem?_zipIdx]
  cases m[i]? <;> simp

theorem entry_scale (d : List ℚ) (m : RankMat) (i j : ℕ) :
    entry (scaleMat d m) i j = d.getD i 0 * entry m i j := by
  unfold entry
  rw [rowOf_scale, rowAt_scale]

theorem vec_scale (d : List ℚ) (v : RankVec) (i : ℕ) :
    (scaleVec d v).getD i 0 = d.getD i 0 * v.getD i 0 := by
  unfold scaleVec
  simp only [List.getD_eq_getElem?_getD, List.getElem?_map, List.getElem?_zipIdx]
  cases v[i]? <;> simp

theorem total_scale (d : List ℚ) (ms : List RankMat) (i j : ℕ) :
    total (ms.map (scaleMat d)) i j = d.getD i 0 * total ms i j := by
  unfold total
  rw [← sum_map_mul, List.map_map, List.map_map]
  congr 1
  apply List.map_congr_left
  intro m _
  exact entry_scale d m i j

theorem totalV_scale (d : List ℚ) (bs : List RankVec) (i : ℕ) :
    totalV (bs.map (scaleVec d)) i = d.getD i 0 * totalV bs i := by
  unfold totalV
  rw [← sum_map_mul, List.map_map, List.map_map]
  congr 1
  apply List.map_congr_left
  intro m _
  exact vec_scale d m i

theorem diagonal_at (n : ℕ) (ms : List RankMat) (i : ℕ) (hi : i < n) :
    (diagonal n ms).getD i 0 = recip (total ms i i) := by
  unfold diagonal
  simp [List.getD_eq_getElem?_getD, hi, total]

/-! C38 -/

/-- C38: the preconditioned system has the same solutions, whatever the matrices on the ranks are. -/
theorem jacobi_solutions (n : ℕ) (ms : List RankMat) (bs : List RankVec) (x : ℕ → ℚ) :
    Solves n (jacobi n ms bs).1 (jacobi n ms bs).2 x ↔ Solves n ms bs x := by
  unfold Solves jacobi
  simp only
  refine forall_congr' fun i => forall_congr' fun hi => ?_
  have hd := recip_pos (total ms i i)
  rw [totalV_scale, diagonal_at n ms i hi]
  have : ∑ j ∈ Finset.range n, total (ms.map (scaleMat (diagonal n ms))) i j * x j =
      recip (total ms i i) * ∑ j ∈ Finset.range n, total ms i j * x j := by
    rw [Finset.mul_sum]
    apply Finset.sum_congr rfl
    intro j _
    rw [total_scale, diagonal_at n ms i hi]
    ring
  rw [this]
  exact mul_right_inj' (ne_of_gt hd)

/-- C38: what preconditioning achieves: every diagonal entry that is at least 1 becomes 1, and rows with a
smaller diagonal entry are left alone. -/
theorem jacobi_diagonal (n : ℕ) (ms : List RankMat) (bs : List RankVec) (i j : ℕ) (hi : i < n) :
    (1 ≤ total ms i i → total (jacobi n ms bs).1 i j = total ms i j / total ms i i ∧
      total (jacobi n ms bs).1 i i = 1) ∧
    (total ms i i < 1 → total (jacobi n ms bs).1 i j = total ms i j) := by
  unfold jacobi
  simp only
  rw [total_scale, total_scale, diagonal_at n ms i hi]
  constructor
  · intro h
    have hn : ¬ total ms i i < 1 := not_lt.mpr h
    have h0 : total ms i i ≠ 0 := by linarith
    unfold recip
    rw [if_neg hn]
    constructor <;> field_simp
  · intro h
    unfold recip
    rw [if_pos h, one_mul]

/-- The preconditioner neither adds nor removes ranks or rows. -/
theorem jacobi_shape (n : ℕ) (ms : List RankMat) (bs : List RankVec) :
    (jacobi n ms bs).1.map List.length = ms.map List.length ∧
    (jacobi n ms bs).2.map List.length = bs.map List.length := by
  unfold jacobi
  simp [scaleMat, scaleVec, Function.comp_def]

/-- Two ranks sharing the middle row, a zero and a negative diagonal entry. -/
example : Solves 3
    [[[(0, 2), (1, 1)], [(0, 1), (1, 3)], []], [[], [(1, 1), (2, 1)], [(1, 1), (2, -2)]]]
    [[3, 2, 0], [0, 4, -1]] (fun _ => 1) := by unfold Solves; decide +kernel

example : (jacobi 3
    [[[(0, 2), (1, 1)], [(0, 1), (1, 3)], []], [[], [(1, 1), (2, 1)], [(1, 1), (2, -2)]]]
    [[4, 5, 0], [0, 3, -1]]).1 =
    [[[(0, 1), (1, 1/2)], [(0, 1/4), (1, 3/4)], []], [[], [(1, 1/4), (2, 1/4)], [(1, 1), (2, -2)]]] := by
  decide +kernel

/-! C39 -/

theorem mem_localEssential (n : ℕ) (m : RankMat) (i : ℕ) :
    i ∈ localEssential n m ↔ i < n ∧ rowOf m i = [(i, 1)] := by
  unfold localEssential
  rw [List.mem_filter, List.mem_range]
  apply and_congr_right
  intro _
  unfold unitRow
  generalize rowOf m i = r
  match r with
  | [] => simp
  | [(c, v)] => simp
  | p :: q :: l => simp

theorem nodup_localEssential (n : ℕ) (m : RankMat) : (localEssential n m).Nodup :=
  List.Nodup.filter _ List.nodup_range

theorem count_localEssential (n : ℕ) (m : RankMat) (i : ℕ) :
    (localEssential n m).count i = if i < n ∧ rowOf m i = [(i, 1)] then 1 else 0 := by
  by_cases h : i ∈ localEssential n m
  · rw [if_pos ((mem_localEssential n m i).mp h)]
    exact List.count_eq_one_of_mem (nodup_localEssential n m) h
  · rw [if_neg (fun hh => h ((mem_localEssential n m i).mpr hh))]
    exact List.count_eq_zero_of_not_mem h

theorem count_flatten (n : ℕ) (ms : List RankMat) (i : ℕ) :
    ((ms.map (localEssential n)).flatten).count i =
      ms.countP fun m => decide (i < n ∧ rowOf m i = [(i, 1)]) := by
  induction ms with
  | nil => rfl
  | cons m ms ih =>
    rw [List.map_cons, List.flatten_cons, List.count_append, ih, count_localEssential, List.countP_cons,
      Nat.add_comm]
    congr 1
    by_cases h : i < n ∧ rowOf m i = [(i, 1)] <;> simp [h]

/-- What is reported: the rows that are stored as a unit row on exactly one rank. -/
theorem mem_findEssential (n : ℕ) (ms : List RankMat) (i : ℕ) :
    i ∈ findEssential n ms ↔ i < n ∧ (ms.countP fun m => decide (rowOf m i = [(i, 1)])) = 1 := by
  unfold findEssential
  rw [(List.perm_insertionSort _ _).mem_iff]
  have hcount : ((ms.map (localEssential n)).flatten).count i = 1 ↔
      i < n ∧ (ms.countP fun m => decide (rowOf m i = [(i, 1)])) = 1 := by
    rw [count_flatten]
    by_cases hi : i < n
    · simp [hi]
    · simp [hi]
  rw [← hcount]
  generalize (ms.map (localEssential n)).flatten = ler
  by_cases hd : ler.dedup.length = ler.length
  · rw [if_pos hd]
    have hnd : ler.Nodup := by
      have hs : List.Sublist ler.dedup ler := List.dedup_sublist ler
      have := hs.eq_of_length hd
      rw [← this]; exact List.nodup_dedup _
    constructor
    · exact List.count_eq_one_of_mem hnd
    · intro h
      exact List.count_pos_iff.mp (by omega)
  · rw [if_neg hd, List.mem_filter, List.mem_dedup]
    constructor
    · rintro ⟨-, h⟩; simpa using h
    · intro h; exact ⟨List.count_pos_iff.mp (by omega), by simpa using h⟩

theorem total_one_rank (ms : List RankMat) (i j : ℕ) (k : ℕ) (m : RankMat) (hk : ms[k]? = some m)
    (hone : ∀ k' m', ms[k']? = some m' → k' ≠ k → rowOf m' i = []) : total ms i j = entry m i j := by
  induction ms generalizing k with
  | nil => simp at hk
  | cons a ms ih =>
    unfold total
    rw [List.map_cons, List.sum_cons]
    change entry a i j + total ms i j = _
    cases k with
    | zero =>
      simp only [List.getElem?_cons_zero, Option.some.injEq] at hk
      subst hk
      have : total ms i j = 0 := by
        unfold total
        have : (ms.map fun m => entry m i j) = ms.map fun _ => (0 : ℚ) := by
          apply List.map_congr_left
          intro m' hm'
          obtain ⟨k', hk'⟩ := List.mem_iff_getElem?.mp hm'
          unfold entry
          rw [hone (k' + 1) m' (by simpa using hk') (by omega)]
          rfl
        rw [this]; simp
      rw [this, add_zero]
    | succ k =>
      have ha : entry a i j = 0 := by
        unfold entry
        rw [hone 0 a (by simp) (by omega)]
        rfl
      rw [ha, zero_add]
      apply ih k (by simpa using hk)
      intro k' m' hk' hne
      exact hone (k' + 1) m' (by simpa using hk') (by omega)

theorem rowAt_mem (r : Row) (hn : (r.map Prod.fst).Nodup) (j : ℕ) (v : ℚ) (h : (j, v) ∈ r) :
    rowAt r j = v := by
  induction r with
  | nil => cases h
  | cons p r ih =>
    obtain ⟨c, w⟩ := p
    rw [List.map_cons, List.nodup_cons] at hn
    rcases List.mem_cons.mp h with he | h'
    · cases he
      have : r.filter (fun p => p.1 == j) = [] := by
        rw [List.filter_eq_nil_iff]
        intro q hq
        simp only [beq_iff_eq]
        rintro rfl
        exact hn.1 (List.mem_map.mpr ⟨q, hq, rfl⟩)
      unfold rowAt
      simp [this]
    · have hne : c ≠ j := by
        rintro rfl
        exact hn.1 (List.mem_map.mpr ⟨_, h', rfl⟩)
      have := ih hn.2 h'
      unfold rowAt at this ⊢
      simpa [hne] using this

theorem rowAt_not_mem (r : Row) (j : ℕ) (h : ∀ v, (j, v) ∉ r) : rowAt r j = 0 := by
  unfold rowAt
  have : r.filter (fun p => p.1 == j) = [] := by
    rw [List.filter_eq_nil_iff]
    rintro ⟨c, v⟩ hq
    simp only [beq_iff_eq]
    rintro rfl
    exact h v hq
  rw [this]; rfl

theorem unit_stored (r : Row) (i : ℕ) (hn : (r.map Prod.fst).Nodup) (hz : ∀ p ∈ r, p.2 ≠ 0) :
    (∀ j, rowAt r j = if j = i then 1 else 0) ↔ r = [(i, 1)] := by
  constructor
  · intro h
    have hcol : ∀ p ∈ r, p = (i, 1) := by
      rintro ⟨c, v⟩ hp
      have h1 := rowAt_mem r hn c v hp
      have h2 := h c
      rw [h1] at h2
      by_cases hc : c = i
      · rw [if_pos hc] at h2; rw [hc, h2]
      · rw [if_neg hc] at h2; exact absurd h2 (hz _ hp)
    match r, hn, hcol with
    | [], _, _ =>
      have := h i
      simp [rowAt] at this
    | [p], _, hcol => rw [hcol p (by simp)]
    | p :: q :: l, hn, hcol =>
      have h1 := hcol p (by simp)
      have h2 := hcol q (by simp)
      rw [h1, h2] at hn
      simp at hn
  · rintro rfl j
    by_cases hj : j = i
    · subst hj; simp [rowAt]
    · have : ¬ i = j := fun h => hj h.symm
      simp [rowAt, hj, this]

/-- Part of C39: a row all of whose stored entries are on one rank (no zeros stored, no column stored
twice) is reported exactly when it is a unit row of the true matrix.  Missing: rows with entries on several
ranks, see `essential_rows_missed_refuted` and `essential_rows_wrong_refuted`. -/
theorem essential_rows_partial (n : ℕ) (ms : List RankMat) (i : ℕ) (hi : i < n)
    (hone : ∃ (k : ℕ) (m : RankMat), ms[k]? = some m ∧
      ∀ (k' : ℕ) (m' : RankMat), ms[k']? = some m' → k' ≠ k → rowOf m' i = [])
    (hsto : ∀ m ∈ ms, ((rowOf m i).map Prod.fst).Nodup ∧ ∀ p ∈ rowOf m i, p.2 ≠ 0) :
    i ∈ findEssential n ms ↔ IsUnitRow ms i := by
  obtain ⟨k, m, hk, hother⟩ := hone
  have hm : m ∈ ms := List.mem_of_getElem? hk
  rw [mem_findEssential]
  have hu : IsUnitRow ms i ↔ rowOf m i = [(i, 1)] := by
    unfold IsUnitRow
    rw [← unit_stored (rowOf m i) i (hsto m hm).1 (hsto m hm).2]
    refine forall_congr' fun j => ?_
    rw [total_one_rank ms i j k m hk hother]
    rfl
  rw [hu]
  have hcount : (ms.countP fun m => decide (rowOf m i = [(i, 1)])) =
      if rowOf m i = [(i, 1)] then 1 else 0 := by
    clear hu hsto hm
    induction ms generalizing k with
    | nil => simp at hk
    | cons a ms ih =>
      rw [List.countP_cons]
      cases k with
      | zero =>
        simp only [List.getElem?_cons_zero, Option.some.injEq] at hk
        subst hk
        have : (ms.countP fun m => decide (rowOf m i = [(i, 1)])) = 0 := by
          rw [List.countP_eq_zero]
          intro m' hm'
          obtain ⟨k', hk'⟩ := List.mem_iff_getElem?.mp hm'
          rw [hother (k' + 1) m' (by simpa using hk') (by omega)]
          simp
        rw [this]
        by_cases h : rowOf a i = [(i, 1)] <;> simp [h]
      | succ k =>
        have ha : rowOf a i = [] := hother 0 a (by simp) (by omega)
        rw [ih k (by simpa using hk) (fun k' m' hk' hne => hother (k' + 1) m' (by simpa using hk') (by omega))]
        simp [ha]
  rw [hcount]
  by_cases h : rowOf m i = [(i, 1)] <;> simp [h, hi]

/-- Part of C39: the reported rows are in increasing order without repetition, and the coefficients are
the entries of the true right hand side there. -/
theorem essential_coefficients (n : ℕ) (ms : List RankMat) (bs : List RankVec) :
    (essentialCoefficients n ms bs).1 = findEssential n ms ∧
    (findEssential n ms).Pairwise (· < ·) ∧
    (essentialCoefficients n ms bs).2 = (essentialCoefficients n ms bs).1.map (totalV bs) := by
  refine ⟨rfl, ?_, rfl⟩
  have hs : (findEssential n ms).Pairwise (· ≤ ·) := List.pairwise_insertionSort _ _
  have hn : (findEssential n ms).Nodup := by
    unfold findEssential
    rw [(List.perm_insertionSort _ _).nodup_iff]
    generalize (ms.map (localEssential n)).flatten = ler
    by_cases hd : ler.dedup.length = ler.length
    · rw [if_pos hd]
      have hs : List.Sublist ler.dedup ler := List.dedup_sublist ler
      rw [← hs.eq_of_length hd]; exact List.nodup_dedup _
    · rw [if_neg hd]
      exact (List.nodup_dedup _).filter _
  exact hs.imp₂ (fun a b h1 h2 => lt_of_le_of_ne h1 h2) hn

/-- A unit row whose diagonal entry is split over two ranks is not reported. -/
theorem essential_rows_missed_refuted :
    ¬ ∀ (n : ℕ) (ms : List RankMat) (i : ℕ), i < n → IsUnitRow ms i → i ∈ findEssential n ms := by
  intro h
  have := h 1 [[[(0, 1/2)]], [[(0, 1/2)]]] 0 (by decide) (by
    intro j
    by_cases hj : j = 0
    · subst hj; decide +kernel
    · have : ¬ 0 = j := fun h => hj h.symm
      simp [total, entry, rowOf, rowAt, hj, this])
  revert this
  decide +kernel

/-- A row that looks like a unit row on one rank and has further entries on another is reported. -/
theorem essential_rows_wrong_refuted :
    ¬ ∀ (n : ℕ) (ms : List RankMat) (i : ℕ), i < n → i ∈ findEssential n ms → IsUnitRow ms i := by
  intro h
  have := h 2 [[[(0, 1)], []], [[(0, 1), (1, 3)], [(1, 2)]]] 0 (by decide) (by decide +kernel) 1
  revert this
  decide +kernel

/-- Rows 0 and 2 are unit rows on one rank each, row 1 is not. -/
example : findEssential 3 [[[(0, 1)], [(0, 2)], []], [[], [(1, 4)], [(2, 1)]]] = [0, 2] := by
  decide +kernel

example : IsUnitRow [[[(0, 1)], [(0, 2)], []], [[], [(1, 4)], [(2, 1)]]] 2 := by
  have h := (essential_rows_partial 3 [[[(0, 1)], [(0, 2)], []], [[], [(1, 4)], [(2, 1)]]] 2 (by decide)
    ⟨1, _, rfl, by
      intro k' m' hk' hne
      match k', hk' with
      | 0, hk' => cases hk'; rfl
      | 1, _ => exact absurd rfl hne
      | k' + 2, hk' => simp at hk'⟩
    (by decide +kernel)).mp (by decide +kernel)
  exact h

end Phyem.Precond
