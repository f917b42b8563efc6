import Verif.Metric.Model
import Mathlib.LinearAlgebra.Matrix.Determinant.Basic
import Mathlib.LinearAlgebra.Matrix.NonsingularInverse
import Mathlib.Data.Matrix.Mul
import Mathlib.Tactic.Ring
import Mathlib.Tactic.FieldSimp
import Mathlib.Tactic.FinCases
import Mathlib.Tactic.NormNum
import Mathlib.Tactic.LinearCombination

/-!
C72: the metric quantities of an element are those of its Jacobian matrix. The specification is Mathlib's
determinant, product, transpose of matrices.
-/

namespace Phyem.Metric

open Matrix

variable {K : Type} [Field K]

/-- The Jacobian matrix as a matrix. -/
def toM (m n : ℕ) (jm : ℕ → ℕ → K) : Matrix (Fin m) (Fin n) K := fun i j => jm i j

/-- `Jacobian` is the determinant. -/
theorem jacobian_is_det (n : ℕ) (hn : n = 1 ∨ n = 2 ∨ n = 3) (jm : ℕ → ℕ → K) :
    jacobian n n jm = some (toM n n jm).det := by
  rcases hn with rfl | rfl | rfl
  · simp [jacobian, toM]
  · simp [jacobian, toM, Matrix.det_fin_two]
  · simp [jacobian, toM, Matrix.det_fin_three]; ring

/-- In all other dimensions, or when the element is not of the dimension of the space, it raises. -/
theorem jacobian_raises (m n : ℕ) (h : m ≠ n ∨ n = 0 ∨ 4 ≤ n) (jm : ℕ → ℕ → K) :
    jacobian m n jm = none ∧ metric m n jm = none ∧ inverseJM m n jm = none ∧ inverseJacobian m n jm = none := by
  have h1 : ¬ (m = 1 ∧ n = 1) := by omega
  have h2 : ¬ (m = 2 ∧ n = 2) := by omega
  have h3 : ¬ (m = 3 ∧ n = 3) := by omega
  simp [jacobian, metric, inverseJM, inverseJacobian, h1, h2, h3]

theorem inverseJM_shape (n : ℕ) (hn : n = 1 ∨ n = 2 ∨ n = 3) (jm : ℕ → ℕ → K) :
    ∃ l, inverseJM n n jm = some l := by
  rcases hn with rfl | rfl | rfl <;> exact ⟨_, by simp [inverseJM]; rfl⟩

/-- `inverse_Jacobian_matrix` is a two-sided inverse wherever the Jacobian does not vanish. -/
theorem inverse_is_inverse (n : ℕ) (hn : n = 1 ∨ n = 2 ∨ n = 3) (jm : ℕ → ℕ → K)
    (hd : (toM n n jm).det ≠ 0) :
    ∃ l, inverseJM n n jm = some l ∧ toM n n (rows l) * toM n n jm = 1 ∧ toM n n jm * toM n n (rows l) = 1 := by
  have key : ∃ l, inverseJM n n jm = some l ∧ toM n n (rows l) * toM n n jm = 1 := by
    rcases hn with rfl | rfl | rfl
    · refine ⟨_, by simp [inverseJM]; rfl, ?_⟩
      simp [toM] at hd
      ext i j
      fin_cases i; fin_cases j
      simp [toM, rows, Matrix.mul_apply, hd]
    · refine ⟨_, by simp [inverseJM]; rfl, ?_⟩
      simp [toM, Matrix.det_fin_two] at hd
      ext i j
      fin_cases i <;> fin_cases j <;>
        simp [toM, rows, Matrix.mul_apply, Fin.sum_univ_two] <;> field_simp <;> ring
    · have hd' : jm 0 0 * jm 1 1 * jm 2 2 + jm 0 1 * jm 1 2 * jm 2 0
        + jm 0 2 * jm 1 0 * jm 2 1 - jm 0 0 * jm 1 2 * jm 2 1
        - jm 0 1 * jm 1 0 * jm 2 2 - jm 0 2 * jm 1 1 * jm 2 0 ≠ 0 := by
        intro e; apply hd
        rw [Matrix.det_fin_three]; simp [toM]; rw [← e]; ring
      refine ⟨_, rfl, ?_⟩
      have hr := one_div_mul_cancel hd'
      generalize 1 / (jm 0 0 * jm 1 1 * jm 2 2 + jm 0 1 * jm 1 2 * jm 2 0
        + jm 0 2 * jm 1 0 * jm 2 1 - jm 0 0 * jm 1 2 * jm 2 1
        - jm 0 1 * jm 1 0 * jm 2 2 - jm 0 2 * jm 1 1 * jm 2 0) = r at hr ⊢
      ext i j
      fin_cases i <;> fin_cases j <;>
        simp [toM, rows, Matrix.mul_apply, Fin.sum_univ_three] <;>
        first
        | ring1
        | linear_combination hr
  obtain ⟨l, h1, h2⟩ := key
  exact ⟨l, h1, h2, mul_eq_one_comm.1 h2⟩

/-- `inverse_Jacobian` is the reciprocal of `Jacobian`. -/
theorem inverse_jacobian_is_reciprocal (n : ℕ) (hn : n = 1 ∨ n = 2 ∨ n = 3) (jm : ℕ → ℕ → K)
    (hd : (toM n n jm).det ≠ 0) :
    inverseJacobian n n jm = some ((toM n n jm).det)⁻¹ := by
  obtain ⟨l, h1, h2, _⟩ := inverse_is_inverse n hn jm hd
  unfold inverseJacobian
  rw [h1]
  change jacobian n n (rows l) = _
  rw [jacobian_is_det n hn]
  congr 1
  have h3 := congrArg Matrix.det h2
  rw [Matrix.det_mul, Matrix.det_one] at h3
  exact eq_inv_of_mul_eq_one_left h3

theorem foldl_sum (f : ℕ → K) (l : List ℕ) (a : K) : l.foldl (fun g L => g + f L) a = a + (l.map f).sum := by
  induction l generalizing a with
  | nil => simp
  | cons x l ih => simp [ih]; ring

theorem sum_first (m : ℕ) (hm : 0 < m) (f : ℕ → K) :
    f 0 + ((List.range' 1 (m - 1)).map f).sum = ∑ L : Fin m, f L := by
  obtain ⟨k, rfl⟩ : ∃ k, m = k + 1 := ⟨m - 1, by omega⟩
  rw [Fin.sum_univ_succ]
  simp only [Nat.add_sub_cancel]
  congr 1
  rw [← List.sum_ofFn]
  congr 1
  apply List.ext_getElem
  · simp
  · intro i h1 h2
    simp [List.getElem_range']
    congr 1; omega

theorem gsum_eq (m : ℕ) (hm : 0 < m) (jm : ℕ → ℕ → K) (i j : ℕ) :
    gsum m jm i j = ∑ L : Fin m, jm L i * jm L j := by
  unfold gsum
  rw [foldl_sum (fun L => jm L i * jm L j)]
  exact sum_first m hm (fun L => jm L i * jm L j)

theorem igsum_eq (n : ℕ) (hn : 0 < n) (ijm : ℕ → ℕ → K) (i j : ℕ) :
    igsum n ijm i j = ∑ L : Fin n, ijm i L * ijm j L := by
  unfold igsum
  rw [foldl_sum (fun L => ijm i L * ijm j L)]
  exact sum_first n hn (fun L => ijm i L * ijm j L)

/-- `metric_matrix` is `Jᵀ J`, for every shape of the Jacobian matrix (also for surfaces in space). -/
theorem metric_matrix_is_JtJ (m n : ℕ) (hm : 0 < m) (jm : ℕ → ℕ → K) (i j : Fin n) :
    metricMatrix m n jm i j = some (((toM m n jm)ᵀ * toM m n jm) i j) := by
  unfold metricMatrix
  rw [if_pos ⟨i.2, j.2⟩]
  have e : ((toM m n jm)ᵀ * toM m n jm) i j = ∑ L : Fin m, jm L i * jm L j := by
    simp [Matrix.mul_apply, toM]
  rw [e]
  split_ifs
  · rw [gsum_eq m hm]
  · rw [gsum_eq m hm]; congr 1; apply Finset.sum_congr rfl; intro L _; ring

/-- `metric` is the determinant of the metric matrix. -/
theorem metric_is_det_of_metric_matrix (n : ℕ) (hn : n = 1 ∨ n = 2 ∨ n = 3) (jm : ℕ → ℕ → K) :
    metric n n jm = some (((toM n n jm)ᵀ * toM n n jm).det) := by
  unfold metric
  rw [jacobian_is_det n hn, Matrix.det_mul, Matrix.det_transpose]
  simp [pow_two]

/-- `inverse_metric_matrix` is `J⁻¹ J⁻ᵀ`, the inverse of the metric matrix. -/
theorem inverse_metric_matrix_is_inverse (n : ℕ) (hn : n = 1 ∨ n = 2 ∨ n = 3) (jm : ℕ → ℕ → K)
    (hd : (toM n n jm).det ≠ 0) :
    ∃ G : Matrix (Fin n) (Fin n) K, (∀ i j : Fin n, inverseMetricMatrix n n jm i j = some (G i j)) ∧
      G * ((toM n n jm)ᵀ * toM n n jm) = 1 ∧ ((toM n n jm)ᵀ * toM n n jm) * G = 1 := by
  obtain ⟨l, h1, h2, h3⟩ := inverse_is_inverse n hn jm hd
  refine ⟨toM n n (rows l) * (toM n n (rows l))ᵀ, ?_, ?_⟩
  · intro i j
    unfold inverseMetricMatrix
    rw [h1]
    simp only []
    rw [if_pos ⟨i.2, j.2⟩]
    have e : (toM n n (rows l) * (toM n n (rows l))ᵀ) i j = ∑ L : Fin n, rows l i L * rows l j L := by
      simp [Matrix.mul_apply, toM]
    rw [e]
    have hn0 : 0 < n := by omega
    split_ifs
    · rw [igsum_eq n hn0]
    · rw [igsum_eq n hn0]; congr 1; apply Finset.sum_congr rfl; intro L _; ring
  · have h2t : (toM n n jm)ᵀ * (toM n n (rows l))ᵀ = 1 := by
      rw [← Matrix.transpose_mul, h2, Matrix.transpose_one]
    have h3t : (toM n n (rows l))ᵀ * (toM n n jm)ᵀ = 1 := by
      rw [← Matrix.transpose_mul, h3, Matrix.transpose_one]
    constructor
    · calc toM n n (rows l) * (toM n n (rows l))ᵀ * ((toM n n jm)ᵀ * toM n n jm)
          = toM n n (rows l) * ((toM n n (rows l))ᵀ * (toM n n jm)ᵀ) * toM n n jm := by
            simp only [Matrix.mul_assoc]
        _ = 1 := by rw [h3t, Matrix.mul_one, h2]
    · calc (toM n n jm)ᵀ * toM n n jm * (toM n n (rows l) * (toM n n (rows l))ᵀ)
          = (toM n n jm)ᵀ * (toM n n jm * toM n n (rows l)) * (toM n n (rows l))ᵀ := by
            simp only [Matrix.mul_assoc]
        _ = 1 := by rw [h3, Matrix.mul_one, h2t]

/-- The constants an orthogonal rectangle keeps are those the general formulas give for its Jacobian matrix. -/
theorem orth2_agrees (rx ry : K) (hx : rx ≠ 0) (hy : ry ≠ 0) :
    some (orth2 rx ry).jac = jacobian 2 2 (rows (orth2 rx ry).jm) ∧
    some (orth2 rx ry).met = metric 2 2 (rows (orth2 rx ry).jm) ∧
    some (orth2 rx ry).ijac = inverseJacobian 2 2 (rows (orth2 rx ry).jm) ∧
    some (orth2 rx ry).ijm = inverseJM 2 2 (rows (orth2 rx ry).jm) ∧
    (∀ i j : Fin 2, some (rows (orth2 rx ry).mm i j) = metricMatrix 2 2 (rows (orth2 rx ry).jm) i j) ∧
    (∀ i j : Fin 2, some (rows (orth2 rx ry).imm i j) = inverseMetricMatrix 2 2 (rows (orth2 rx ry).jm) i j) := by
  refine ⟨?_, ?_, ?_, ?_, ?_, ?_⟩
  · simp [orth2, jacobian, rows]
  · simp [orth2, metric, jacobian, rows]
  · simp [orth2, inverseJacobian, inverseJM, jacobian, rows]
  · simp [orth2, inverseJM, rows]
  · intro i j
    fin_cases i <;> fin_cases j <;>
      simp [orth2, metricMatrix, gsum, rows, List.range'] <;> ring
  · intro i j
    fin_cases i <;> fin_cases j <;>
      simp [orth2, inverseMetricMatrix, inverseJM, igsum, rows, List.range'] <;> ring

/-- The same for an orthogonal hexahedron. -/
theorem orth3_agrees (rx ry rz : K) (hx : rx ≠ 0) (hy : ry ≠ 0) (hz : rz ≠ 0) :
    some (orth3 rx ry rz).jac = jacobian 3 3 (rows (orth3 rx ry rz).jm) ∧
    some (orth3 rx ry rz).met = metric 3 3 (rows (orth3 rx ry rz).jm) ∧
    some (orth3 rx ry rz).ijac = inverseJacobian 3 3 (rows (orth3 rx ry rz).jm) ∧
    some (orth3 rx ry rz).ijm = inverseJM 3 3 (rows (orth3 rx ry rz).jm) ∧
    (∀ i j : Fin 3, some (rows (orth3 rx ry rz).mm i j) = metricMatrix 3 3 (rows (orth3 rx ry rz).jm) i j) ∧
    (∀ i j : Fin 3, some (rows (orth3 rx ry rz).imm i j) =
      inverseMetricMatrix 3 3 (rows (orth3 rx ry rz).jm) i j) := by
  refine ⟨?_, ?_, ?_, ?_, ?_, ?_⟩
  · simp [orth3, jacobian, rows]
  · simp [orth3, metric, jacobian, rows]
  · simp [orth3, inverseJacobian, inverseJM, jacobian, rows]; ring
  · simp [orth3, inverseJM, rows]; refine ⟨?_, ?_, ?_⟩ <;> ring
  · intro i j
    fin_cases i <;> fin_cases j <;>
      simp [orth3, metricMatrix, gsum, rows, List.range'] <;> ring
  · intro i j
    fin_cases i <;> fin_cases j <;>
      simp [orth3, inverseMetricMatrix, inverseJM, igsum, rows, List.range'] <;> ring

/-- A deformed element meets the hypotheses. -/
example : (toM 2 2 (rows [[(2 : ℚ), 1], [1, 3]])).det ≠ 0 ∧
    jacobian 2 2 (rows [[(2 : ℚ), 1], [1, 3]]) = some 5 ∧
    inverseJM 2 2 (rows [[(2 : ℚ), 1], [1, 3]]) = some [[3/5, -1/5], [-1/5, 2/5]] := by
  refine ⟨?_, ?_, ?_⟩
  · simp [toM, rows, Matrix.det_fin_two]; norm_num
  · simp [jacobian, rows]; norm_num
  · simp [inverseJM, rows]; norm_num

/-! ### The scaling to the element -/

theorem mem_positions (n i j : ℕ) : (i, j) ∈ positions n ↔ i < n ∧ j < n := by
  simp [positions]

theorem nodup_positions (n : ℕ) : (positions n).Nodup := by
  unfold positions
  rw [List.nodup_flatMap]
  refine ⟨fun i _ => ?_, ?_⟩
  · exact (List.nodup_range).map (fun a b h => by simpa using h)
  · refine (List.nodup_range).imp ?_
    intro a b hab
    simp only [Function.onFun]
    rw [List.disjoint_left]
    intro x hx hy
    simp only [List.mem_map] at hx hy
    obtain ⟨_, _, rfl⟩ := hx
    obtain ⟨_, _, h⟩ := hy
    exact hab (by simpa using (congrArg Prod.fst h).symm)

theorem scaleAll_untouched (r : ℕ → K) (jm : ℕ → ℕ → Entry) (a : ℕ) :
    ∀ (l : List (ℕ × ℕ)) (heap : ℕ → K), (∀ p ∈ l, jm p.1 p.2 ≠ .arr a) → scaleAll r l jm heap a = heap a
  | [], heap, _ => rfl
  | (i, j) :: l, heap, h => by
    rw [scaleAll, scaleAll_untouched r jm a l _ (fun p hp => h p (List.mem_cons_of_mem _ hp))]
    have h0 := h (i, j) (List.mem_cons_self)
    cases e : jm i j with
    | zero => rfl
    | arr b =>
      simp only [e] at h0 ⊢
      rw [if_neg]
      rintro rfl; exact h0 rfl

theorem scaleAll_once (r : ℕ → K) (jm : ℕ → ℕ → Entry) (a i j : ℕ) (hij : jm i j = .arr a) :
    ∀ (l : List (ℕ × ℕ)) (heap : ℕ → K), l.Nodup → (i, j) ∈ l →
      (∀ p ∈ l, jm p.1 p.2 = .arr a → p = (i, j)) → scaleAll r l jm heap a = heap a * r j
  | [], _, _, h, _ => by simp at h
  | (i', j') :: l, heap, hn, hm, hu => by
    rw [List.nodup_cons] at hn
    rcases List.mem_cons.1 hm with e | hm'
    · obtain ⟨rfl, rfl⟩ := Prod.mk.injEq .. ▸ e
      rw [scaleAll, scaleAll_untouched]
      · simp [hij]
      · intro p hp e'
        exact hn.1 (hu p (List.mem_cons_of_mem _ hp) e' ▸ hp)
    · rw [scaleAll, scaleAll_once r jm a i j hij l _ hn.2 hm' (fun p hp => hu p (List.mem_cons_of_mem _ hp))]
      congr 1
      cases e : jm i' j' with
      | zero => rfl
      | arr b =>
        simp only []
        rw [if_neg]
        rintro rfl
        have := hu (i', j') (List.mem_cons_self) e
        exact hn.1 (this ▸ hm')

/-- If the region returns a separate array for every entry of its Jacobian matrix, the element's entry is the region's
times half the element's size along that axis: the chain rule for `r = (ξ + 1)/2 · δ + o`. -/
theorem element_entry_partial (n : ℕ) (r : ℕ → K) (jm : ℕ → ℕ → Entry) (heap : ℕ → K)
    (hsep : ∀ i j i' j' a, i < n → j < n → i' < n → j' < n → jm i j = .arr a → jm i' j' = .arr a → i = i' ∧ j = j')
    (i j : ℕ) (hi : i < n) (hj : j < n) :
    elementJM n r jm heap i j = val heap (jm i j) * r j := by
  unfold elementJM
  cases e : jm i j with
  | zero => simp [val]
  | arr a =>
    simp only [val]
    refine scaleAll_once r jm a i j e _ _ (nodup_positions n) ((mem_positions n i j).2 ⟨hi, hj⟩) ?_
    rintro ⟨i', j'⟩ hp e'
    obtain ⟨h1, h2⟩ := (mem_positions n i' j').1 hp
    obtain ⟨rfl, rfl⟩ := hsep i' j' i j a h1 h2 hi hj e' e
    rfl

/-- A rotated square: all four arrays separate. -/
example : ∃ jm : ℕ → ℕ → Entry, (∀ i j i' j' a, i < 2 → j < 2 → i' < 2 → j' < 2 →
    jm i j = .arr a → jm i' j' = .arr a → i = i' ∧ j = j') ∧ jm 0 1 ≠ .zero := by
  refine ⟨fun i j => .arr (2 * i + j), ?_, by simp⟩
  intro i j i' j' a h1 h2 h3 h4 h5 h6
  simp only [Entry.arr.injEq] at h5 h6
  omega

/-- A region whose Jacobian matrix returns one array for two entries (for instance the same `ones_like(r)` on the
diagonal) gets that array scaled once per entry. -/
theorem element_entry_refuted :
    ¬ ∀ (r : ℕ → ℚ) (jm : ℕ → ℕ → Entry) (heap : ℕ → ℚ) (i j : ℕ), i < 2 → j < 2 →
      elementJM 2 r jm heap i j = val heap (jm i j) * r j := by
  intro h
  have := h (fun _ => 1/2) (fun i j => if i = j then .arr 0 else .zero) (fun _ => 1) 0 0 (by omega) (by omega)
  simp [elementJM, positions, scaleAll, val, List.range, List.range.loop] at this

end Phyem.Metric
