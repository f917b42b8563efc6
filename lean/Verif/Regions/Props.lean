import Verif.Regions.Model
import Mathlib.Tactic.Linarith
import Mathlib.Tactic.Ring
import Mathlib.Tactic.LinearCombination
import Mathlib.LinearAlgebra.Matrix.NonsingularInverse
import Mathlib.LinearAlgebra.Matrix.ToLinearEquiv
import Mathlib.Analysis.Calculus.Deriv.Add
import Mathlib.Analysis.Calculus.Deriv.Mul

/-! What regions, tables of dofs and numbers of singular modes are. -/

namespace Phyem.Regions

open Phyem.Dict

/-- C194: the corners of the reference region are mapped to the given points, and its sides to the straight lines between them. -/
theorem quad_sides (A B C D : Pt) (t : ℝ) :
    quad A B C D t 0 = ((1 - t) * A.1 + t * B.1, (1 - t) * A.2 + t * B.2) ∧ quad A B C D 1 t = ((1 - t) * B.1 + t * C.1, (1 - t) * B.2 + t * C.2) ∧
    quad A B C D t 1 = ((1 - t) * D.1 + t * C.1, (1 - t) * D.2 + t * C.2) ∧ quad A B C D 0 t = ((1 - t) * A.1 + t * D.1, (1 - t) * A.2 + t * D.2) := by
  refine ⟨?_, ?_, ?_, ?_⟩ <;> (simp only [quad, bilin, coef, Prod.mk.injEq]; constructor <;> ring)

/-- Twice the signed area of a triangle. -/
def cross (P Q R : Pt) : ℝ := (Q.1 - P.1) * (R.2 - P.2) - (R.1 - P.1) * (Q.2 - P.2)

/-- A quadrilateral that turns left at each corner. -/
structure Convex (A B C D : Pt) : Prop where
  a : 0 < cross D A B
  b : 0 < cross A B C
  c : 0 < cross B C D
  d : 0 < cross C D A

/-- C194: the map of a convex quadrilateral does not fold: different points of the reference region are mapped to different points. -/
theorem quad_injective (A B C D : Pt) (h : Convex A B C D) (r s r' s' : ℝ) (hr : 0 ≤ r ∧ r ≤ 1) (hs : 0 ≤ s ∧ s ≤ 1) (hr' : 0 ≤ r' ∧ r' ≤ 1)
    (hs' : 0 ≤ s' ∧ s' ≤ 1) (e : quad A B C D r s = quad A B C D r' s') : r = r' ∧ s = s' := by
  obtain ⟨a1, a2⟩ := A
  obtain ⟨b1, b2⟩ := B
  obtain ⟨c1, c2⟩ := C
  obtain ⟨d1, d2⟩ := D
  obtain ⟨ha, hb, hc, hd⟩ := h
  simp only [cross] at ha hb hc hd
  simp only [quad, bilin, coef, Prod.mk.injEq] at e
  obtain ⟨e1, e2⟩ := e
  set R := (r + r') / 2 with hR
  set S := (s + s') / 2 with hS
  have hR0 : 0 ≤ R ∧ R ≤ 1 := ⟨by rw [hR]; linarith, by rw [hR]; linarith⟩
  have hS0 : 0 ≤ S ∧ S ≤ 1 := ⟨by rw [hS]; linarith, by rw [hS]; linarith⟩
  -- the matrix of derivatives at the middle of the two points
  let p := (-a1 + b1) + (a1 - b1 + c1 - d1) * S
  let q := (-a1 + d1) + (a1 - b1 + c1 - d1) * R
  let u := (-a2 + b2) + (a2 - b2 + c2 - d2) * S
  let v := (-a2 + d2) + (a2 - b2 + c2 - d2) * R
  have f1 : p * (r - r') + q * (s - s') = 0 := by simp only [p, q, hR, hS]; linear_combination e1
  have f2 : u * (r - r') + v * (s - s') = 0 := by simp only [u, v, hR, hS]; linear_combination e2
  have hdet : p * v - q * u = (1 - R) * (1 - S) * ((a1 - d1) * (b2 - d2) - (b1 - d1) * (a2 - d2)) + R * (1 - S) * ((b1 - a1) * (c2 - a2) - (c1 - a1) * (b2 - a2)) +
      R * S * ((c1 - b1) * (d2 - b2) - (d1 - b1) * (c2 - b2)) + (1 - R) * S * ((d1 - c1) * (a2 - c2) - (a1 - c1) * (d2 - c2)) := by
    simp only [p, q, u, v]; ring
  have hpos : 0 < p * v - q * u := by
    rw [hdet]
    have w1 : 0 ≤ (1 - R) * (1 - S) := mul_nonneg (by linarith) (by linarith)
    have w2 : 0 ≤ R * (1 - S) := mul_nonneg hR0.1 (by linarith)
    have w3 : 0 ≤ R * S := mul_nonneg hR0.1 hS0.1
    have w4 : 0 ≤ (1 - R) * S := mul_nonneg (by linarith) hS0.1
    have hsum : (1 - R) * (1 - S) + R * (1 - S) + R * S + (1 - R) * S = 1 := by ring
    have m1 := mul_nonneg w1 ha.le
    have m2 := mul_nonneg w2 hb.le
    have m3 := mul_nonneg w3 hc.le
    have m4 := mul_nonneg w4 hd.le
    by_contra hle
    have z1 : (1 - R) * (1 - S) = 0 := (mul_eq_zero.1 (le_antisymm (by linarith) m1)).resolve_right ha.ne'
    have z2 : R * (1 - S) = 0 := (mul_eq_zero.1 (le_antisymm (by linarith) m2)).resolve_right hb.ne'
    have z3 : R * S = 0 := (mul_eq_zero.1 (le_antisymm (by linarith) m3)).resolve_right hc.ne'
    have z4 : (1 - R) * S = 0 := (mul_eq_zero.1 (le_antisymm (by linarith) m4)).resolve_right hd.ne'
    linarith
  have g1 : (p * v - q * u) * (r - r') = 0 := by linear_combination v * f1 - q * f2
  have g2 : (p * v - q * u) * (s - s') = 0 := by linear_combination p * f2 - u * f1
  exact ⟨sub_eq_zero.1 ((mul_eq_zero.1 g1).resolve_left hpos.ne'), sub_eq_zero.1 ((mul_eq_zero.1 g2).resolve_left hpos.ne')⟩

/-- C194: bounds are accepted iff they are increasing; then each point of the rectangle is the image of exactly one point of the reference region, and the
Jacobian matrix has the derivatives. -/
theorem rectangle_spec (lx ux ly uy : ℝ) :
    ((rectangle lx ux ly uy false).isSome ↔ lx < ux ∧ ly < uy) ∧ (rectangle lx ux ly uy true).isNone ∧
    ∀ R, rectangle lx ux ly uy false = some R →
      (∀ x y, lx ≤ x ∧ x ≤ ux ∧ ly ≤ y ∧ y ≤ uy ↔ ∃ r s, (0 ≤ r ∧ r ≤ 1 ∧ 0 ≤ s ∧ s ≤ 1) ∧ R.map r s = (x, y)) ∧
      (∀ r s r' s', R.map r s = R.map r' s' → r = r' ∧ s = s') ∧
      ∀ r s, HasDerivAt (fun r => (R.map r s).1) (R.jac r s).1.1 r ∧ HasDerivAt (fun s => (R.map r s).1) (R.jac r s).1.2 s ∧
        HasDerivAt (fun r => (R.map r s).2) (R.jac r s).2.1 r ∧ HasDerivAt (fun s => (R.map r s).2) (R.jac r s).2.2 s := by
  unfold rectangle
  refine ⟨?_, by simp, ?_⟩
  · by_cases h : lx < ux ∧ ly < uy <;> simp [h]
  · intro R hR
    simp only [Bool.false_eq_true, if_false] at hR
    split at hR
    · rename_i h
      obtain ⟨hx, hy⟩ := h
      rw [Option.some.injEq] at hR
      subst hR
      have hX : 0 < ux - lx := by linarith
      have hY : 0 < uy - ly := by linarith
      refine ⟨?_, ?_, ?_⟩
      · intro x y
        simp only [Rect.map, Prod.mk.injEq]
        constructor
        · rintro ⟨h1, h2, h3, h4⟩
          refine ⟨(x - lx) / (ux - lx), (y - ly) / (uy - ly), ⟨div_nonneg (by linarith) hX.le, (div_le_one hX).2 (by linarith),
            div_nonneg (by linarith) hY.le, (div_le_one hY).2 (by linarith)⟩, ?_, ?_⟩
          · rw [div_mul_cancel₀ _ hX.ne']; ring
          · rw [div_mul_cancel₀ _ hY.ne']; ring
        · rintro ⟨r, s, ⟨h1, h2, h3, h4⟩, rfl, rfl⟩
          have m1 := mul_nonneg h1 hX.le
          have m2 := mul_nonneg h3 hY.le
          have m3 := mul_le_mul_of_nonneg_right h2 hX.le
          have m4 := mul_le_mul_of_nonneg_right h4 hY.le
          exact ⟨by linarith, by linarith, by linarith, by linarith⟩
      · intro r s r' s' e
        simp only [Rect.map, Prod.mk.injEq, add_left_inj] at e
        exact ⟨mul_right_cancel₀ hX.ne' e.1, mul_right_cancel₀ hY.ne' e.2⟩
      · intro r s
        simp only [Rect.map, Rect.jac]
        refine ⟨?_, hasDerivAt_const _ _, hasDerivAt_const _ _, ?_⟩
        · simpa using ((hasDerivAt_id r).mul_const (ux - lx)).add_const lx
        · simpa using ((hasDerivAt_id s).mul_const (uy - ly)).add_const ly
    · cases hR

/-! Dofs by their number. -/

/-- Place `i` of element `e` has number `n`. -/
def At (gm : Dict ℕ (List ℕ)) (e i n : ℕ) : Prop := ∃ row, (e, row) ∈ gm ∧ row[i]? = some n

lemma infoRow_spec {V : Type} (look : ℕ → ℕ → Option V) (e : ℕ) : ∀ (row : List ℕ) (i : ℕ) (d r : Dict ℕ V), infoRow look e i row d = some r →
    (∀ n, n ∈ keys r ↔ n ∈ keys d ∨ n ∈ row) ∧
    ∀ n v, get r n = some v → get d n = some v ∨ ∃ j, row[j]? = some n ∧ look e (i + j) = some v
  | [], i, d, r, h => by
    rw [infoRow, Option.some.injEq] at h
    subst h
    exact ⟨by simp, fun n v hv => Or.inl hv⟩
  | m :: row, i, d, r, h => by
    rw [infoRow] at h
    obtain ⟨u, hu, h⟩ := Option.bind_eq_some_iff.1 h
    obtain ⟨h1, h2⟩ := infoRow_spec look e row (i + 1) _ r h
    refine ⟨fun n => ?_, fun n v hv => ?_⟩
    · rw [h1, mem_keys_put, List.mem_cons]; tauto
    · rcases h2 n v hv with h3 | ⟨j, hj, hl⟩
      · rw [get_put] at h3
        split at h3
        · rename_i hn
          subst hn
          rw [Option.some.injEq] at h3
          exact Or.inr ⟨0, rfl, by rw [← h3]; exact hu⟩
        · exact Or.inl h3
      · exact Or.inr ⟨j + 1, hj, by rw [← hl]; congr 1; omega⟩

lemma info_aux {V : Type} (look : ℕ → ℕ → Option V) : ∀ (gm : Dict ℕ (List ℕ)) (d r : Dict ℕ V), info look gm d = some r →
    (∀ n, n ∈ keys r ↔ n ∈ keys d ∨ ∃ e i, At gm e i n) ∧
    ∀ n v, get r n = some v → get d n = some v ∨ ∃ e i, At gm e i n ∧ look e i = some v
  | [], d, r, h => by
    rw [info, Option.some.injEq] at h
    subst h
    exact ⟨by simp [At], fun n v hv => Or.inl hv⟩
  | (e, row) :: gm, d, r, h => by
    rw [info] at h
    obtain ⟨d', hd, h⟩ := Option.bind_eq_some_iff.1 h
    obtain ⟨h1, h2⟩ := info_aux look gm d' r h
    obtain ⟨h3, h4⟩ := infoRow_spec look e row 0 d d' hd
    refine ⟨fun n => ?_, fun n v hv => ?_⟩
    · rw [h1, h3]
      constructor
      · rintro ((h | h) | ⟨e', i, row', hr, hi⟩)
        · exact Or.inl h
        · obtain ⟨i, hi⟩ := List.mem_iff_getElem?.1 h
          exact Or.inr ⟨e, i, row, List.mem_cons_self, hi⟩
        · exact Or.inr ⟨e', i, row', List.mem_cons_of_mem _ hr, hi⟩
      · rintro (h | ⟨e', i, row', hr, hi⟩)
        · exact Or.inl (Or.inl h)
        · rcases List.mem_cons.1 hr with hr | hr
          · cases hr
            exact Or.inl (Or.inr (List.mem_of_getElem? hi))
          · exact Or.inr ⟨e', i, row', hr, hi⟩
    · rcases h2 n v hv with h5 | ⟨e', i, ⟨row', hr, hi⟩, hl⟩
      · rcases h4 n v h5 with h6 | ⟨j, hj, hl⟩
        · exact Or.inl h6
        · rw [Nat.zero_add] at hl
          exact Or.inr ⟨e, j, ⟨row, List.mem_cons_self, hj⟩, hl⟩
      · exact Or.inr ⟨e', i, ⟨row', List.mem_cons_of_mem _ hr, hi⟩, hl⟩

/-- C195: the table has exactly the dofs of the rank, and what it says of a dof is what is known of one of its places. -/
theorem info_spec {V : Type} (look : ℕ → ℕ → Option V) (gm : Dict ℕ (List ℕ)) (r : Dict ℕ V) (h : info look gm [] = some r) :
    (∀ n, n ∈ keys r ↔ ∃ e i, At gm e i n) ∧ ∀ n v, get r n = some v → ∃ e i, At gm e i n ∧ look e i = some v := by
  obtain ⟨h1, h2⟩ := info_aux look gm [] r h
  refine ⟨fun n => by rw [h1]; simp [keys], fun n v hv => ?_⟩
  rcases h2 n v hv with h3 | h3
  · cases h3
  · exact h3

/-- C195: so if elements that share a dof say the same of it, the table says the same as each of them. -/
theorem info_conforming {V : Type} (look : ℕ → ℕ → Option V) (gm : Dict ℕ (List ℕ)) (r : Dict ℕ V) (h : info look gm [] = some r)
    (hc : ∀ e i e' i' n, At gm e i n → At gm e' i' n → look e i = look e' i') (e i n : ℕ) (hn : At gm e i n) : get r n = look e i := by
  obtain ⟨h1, h2⟩ := info_spec look gm r h
  have hk := (h1 n).2 ⟨e, i, hn⟩
  rw [← get_isSome] at hk
  obtain ⟨v, hv⟩ := Option.isSome_iff_exists.1 hk
  obtain ⟨e', i', hn', hl⟩ := h2 n v hv
  rw [hv, ← hl]
  exact hc e' i' e i n hn' hn

/-! Singular modes. -/

/-- C196: what is given is the number of independent vectors that give zero when multiplied from the left. -/
theorem singular_left {m n : ℕ} (M : Matrix (Fin m) (Fin n) ℝ) : singular M = Module.finrank ℝ (LinearMap.ker M.transpose.mulVecLin) := by
  have h := LinearMap.finrank_range_add_finrank_ker M.transpose.mulVecLin
  have h2 : Module.finrank ℝ (LinearMap.range M.transpose.mulVecLin) = M.rank := by rw [← Matrix.rank_transpose]; rfl
  rw [h2, Module.finrank_fin_fun] at h
  unfold singular
  omega

/-- C196: for square matrices this is the number of singular modes, and it is zero iff the matrix is regular. -/
theorem singular_square {n : ℕ} (M : Matrix (Fin n) (Fin n) ℝ) :
    singular M = Module.finrank ℝ (LinearMap.ker M.mulVecLin) ∧ (singular M = 0 ↔ M.det ≠ 0) := by
  have h := LinearMap.finrank_range_add_finrank_ker M.mulVecLin
  have h2 : Module.finrank ℝ (LinearMap.range M.mulVecLin) = M.rank := rfl
  rw [h2, Module.finrank_fin_fun] at h
  have h3 : singular M = Module.finrank ℝ (LinearMap.ker M.mulVecLin) := by unfold singular; omega
  refine ⟨h3, ?_⟩
  rw [h3]
  have hk : ((Module.finrank ℝ (LinearMap.ker M.mulVecLin) : ℕ) : ℤ) = 0 ↔ LinearMap.ker M.mulVecLin = ⊥ := by
    rw [Int.natCast_eq_zero, Submodule.finrank_eq_zero]
  rw [hk, LinearMap.ker_eq_bot']
  rw [Ne, ← Matrix.exists_mulVec_eq_zero_iff]
  push Not
  constructor
  · intro hz v hv he
    exact hv (hz v (by simpa using he))
  · intro hz v hv
    by_contra hne
    exact hz v hne (by simpa using hv)

end Phyem.Regions
