import Verif.Regions.Props
import Mathlib.LinearAlgebra.Matrix.Notation
import Mathlib.Tactic.NormNum
import Mathlib.Tactic.FinCases

/-! Cases that meet the hypotheses, and what does not hold. -/

namespace Phyem.Regions

open Phyem.Dict

/-- A convex quadrilateral that is not a rectangle. -/
example : Convex (0, 0) (1, 0) (2, 1) (0, 2) := by
  constructor <;> norm_num [cross]

/-- Bounds that are accepted. -/
example : (rectangle 0 2 (-1) 1 false).isSome := (rectangle_spec 0 2 (-1) 1).1.2 (by norm_num)

/-- C194, refuted for the given points: four points are accepted that make a region folded onto one point. -/
theorem quad_refuted : ¬ ∀ (A B C D : Pt) (r s r' s' : ℝ), (0 ≤ r ∧ r ≤ 1) → (0 ≤ s ∧ s ≤ 1) → (0 ≤ r' ∧ r' ≤ 1) → (0 ≤ s' ∧ s' ≤ 1) →
    quad A B C D r s = quad A B C D r' s' → r = r' ∧ s = s' := by
  intro h
  have := h (0, 0) (0, 0) (0, 0) (0, 0) 0 0 1 0 (by norm_num) (by norm_num) (by norm_num) (by norm_num) (by norm_num [quad, bilin, coef])
  norm_num at this

/-- Two elements that share the dof 1 and say the same of it. -/
def gmEx : Dict ℕ (List ℕ) := [(0, [0, 1]), (1, [1, 2])]

def lookEx (e i : ℕ) : Option ℕ := some (10 * (e + i))

example : info lookEx gmEx [] = some [(0, 0), (1, 10), (2, 20)] := by decide +kernel

example : ∀ e i e' i' n, At gmEx e i n → At gmEx e' i' n → lookEx e i = lookEx e' i' := by
  have key : ∀ e i n, At gmEx e i n → n = e + i := by
    rintro e i n ⟨row, hm, hi⟩
    simp only [gmEx, List.mem_cons, Prod.mk.injEq, List.not_mem_nil, or_false] at hm
    rcases hm with ⟨rfl, rfl⟩ | ⟨rfl, rfl⟩ <;>
    · rcases i with _ | _ | i
      · simp at hi; omega
      · simp at hi; omega
      · simp at hi
  intro e i e' i' n h h'
  have h1 := key e i n h
  have h2 := key e' i' n h'
  simp only [lookEx, ← h1, ← h2]

/-- A square matrix with a singular mode. -/
example : singular (!![1, 1; 1, 1] : Matrix (Fin 2) (Fin 2) ℝ) ≠ 0 := by
  intro h
  have := (singular_square (!![1, 1; 1, 1] : Matrix (Fin 2) (Fin 2) ℝ)).2.1 h
  exact this (by simp [Matrix.det_fin_two])

/-- C196, refuted: for a matrix with more columns than rows, singular modes are not counted. -/
theorem singular_refuted : ¬ ∀ (m n : ℕ) (M : Matrix (Fin m) (Fin n) ℝ), singular M = Module.finrank ℝ (LinearMap.ker M.mulVecLin) := by
  intro h
  have h1 := h 1 2 0
  have h2 := LinearMap.finrank_range_add_finrank_ker (0 : Matrix (Fin 1) (Fin 2) ℝ).mulVecLin
  have h3 : Module.finrank ℝ (LinearMap.range (0 : Matrix (Fin 1) (Fin 2) ℝ).mulVecLin) = (0 : Matrix (Fin 1) (Fin 2) ℝ).rank := rfl
  rw [h3, Module.finrank_fin_fun, Matrix.rank_zero] at h2
  unfold singular at h1
  rw [Matrix.rank_zero] at h1
  omega

end Phyem.Regions
