import Verif.Poly.Forms
import Mathlib.Analysis.Calculus.Deriv.Prod
import Mathlib.Analysis.Calculus.Deriv.Comp
import Mathlib.Analysis.Calculus.FDeriv.Prod

/-!
C46 (nodal and edge basis functions are dual to nodes and edges) and C47 (the reconstruction commutes
with the derivative).

The code asserts that the nodes increase from -1 to 1; only that they are distinct is used here.
-/

namespace Phyem.Poly

open Finset Phyem.Incidence Phyem.Numbering

/-! ### C46 -/

/-- C46: a Lagrange basis function is 1 at its node and 0 at the others. -/
theorem lagrange_kronecker {K : Type} [Field K] {xs : List K} (h : xs.Nodup) {i k : ℕ}
    (hi : i < xs.length) (hk : k < xs.length) :
    lagrange xs i (xs[k]) = if i = k then 1 else 0 := by
  have := lagrange_node h hi hk
  unfold node unit at this
  rwa [List.getD_eq_getElem _ _ hk] at this

/-- C46: the Lagrange basis functions sum to 1, at every point. -/
theorem lagrange_partition_of_unity {K : Type} [Field K] {xs : List K} (h : xs.Nodup) (hn : xs ≠ [])
    (x : K) : ((List.range xs.length).map fun i => lagrange xs i x).sum = 1 := by
  rw [sum_range_list]
  simp_rw [lagrange_eq]
  rw [← Polynomial.eval_finsetSum]
  unfold L
  rw [Lagrange.sum_basis (Distinct.injOn h) ⟨0, by simpa [List.length_pos_iff] using hn⟩]
  simp

/-- C46: the integral of edge basis function `i` over the edge from node `k` to node `k + 1` is 1 if
`i = k`, and 0 otherwise. -/
theorem edge_kronecker {xs : List ℝ} (h : xs.Nodup) {i k : ℕ} (hi : i + 1 < xs.length)
    (hk : k + 1 < xs.length) :
    ∫ x in (xs[k])..(xs[k + 1]), edge xs i x = if i = k then 1 else 0 := by
  have := integral_edge h (i := i) (k := k) (by omega) (by omega)
  unfold node unit at this
  rwa [List.getD_eq_getElem _ _ hk, List.getD_eq_getElem _ _ (by omega : k < xs.length)] at this

/-! C46 in more dimensions: evaluating (nodes) and integrating (edges, faces, cells) the reconstruction
on the reference element gives back the cochain. -/

section
variable {xs ys zs : List ℝ} (hx : xs.Nodup) (hy : ys.Nodup) (hz : zs.Nodup) {p q r : ℕ}
  (px : xs.length = p + 1) (py : ys.length = q + 1) (pz : zs.length = r + 1) (c : ℕ → ℝ)

include hx hy px py in
/-- C46, 0-forms in 2d. -/
theorem dofs20 :
    (∀ i j, i < p + 1 → j < q + 1 →
      (rec20 xs ys c (node xs i) (node ys j)) =
        c (snum (ln20 p q) (0, i, j, 0))) := by
  intro i j hi hj
  · simp_rw [rec20_0 xs ys px py c]
    exact (T2_congr (fun a ha => lagrange_node hx ha (by omega)) (fun a ha => lagrange_node hy ha (by omega)) (fun _ _ _ _ => rfl)).trans
      (T2_unit (by omega) (by omega) _)

include hx hy px py in
/-- C46, inner 1-forms in 2d (integrals along edges). -/
theorem dofs21i :
    (∀ i j, i < p → j < q + 1 →
      (∫ x in (node xs i)..(node xs (i + 1)), (rec21i xs ys c x (node ys j)).1) =
        c (snum (ln21i p q) (0, i, j, 0))) ∧
    (∀ i j, i < p + 1 → j < q →
      (∫ y in (node ys j)..(node ys (j + 1)), (rec21i xs ys c (node xs i) y).2) =
        c (snum (ln21i p q) (1, i, j, 0))) := by
  refine ⟨?_, ?_⟩ <;> intro i j hi hj
  · simp_rw [rec21i_0 xs ys px py c]
    rw [iX2 hx (by omega : i < xs.length - 1) _ _ _]
    exact (T2_congr (fun _ _ => rfl) (fun a ha => lagrange_node hy ha (by omega)) (fun _ _ _ _ => rfl)).trans
      (T2_unit (by omega) (by omega) _)
  · simp_rw [rec21i_1 xs ys px py c]
    rw [iY2 hy (by omega : j < ys.length - 1) _ _ _]
    exact (T2_congr (fun a ha => lagrange_node hx ha (by omega)) (fun _ _ => rfl) (fun _ _ _ _ => rfl)).trans
      (T2_unit (by omega) (by omega) _)

include hx hy px py in
/-- C46, outer 1-forms in 2d (integrals along edges). -/
theorem dofs21o :
    (∀ i j, i < p + 1 → j < q →
      (∫ y in (node ys j)..(node ys (j + 1)), (rec21o xs ys c (node xs i) y).1) =
        c (snum (ln21o p q) (0, i, j, 0))) ∧
    (∀ i j, i < p → j < q + 1 →
      (∫ x in (node xs i)..(node xs (i + 1)), (rec21o xs ys c x (node ys j)).2) =
        c (snum (ln21o p q) (1, i, j, 0))) := by
  refine ⟨?_, ?_⟩ <;> intro i j hi hj
  · simp_rw [rec21o_0 xs ys px py c]
    rw [iY2 hy (by omega : j < ys.length - 1) _ _ _]
    exact (T2_congr (fun a ha => lagrange_node hx ha (by omega)) (fun _ _ => rfl) (fun _ _ _ _ => rfl)).trans
      (T2_unit (by omega) (by omega) _)
  · simp_rw [rec21o_1 xs ys px py c]
    rw [iX2 hx (by omega : i < xs.length - 1) _ _ _]
    exact (T2_congr (fun _ _ => rfl) (fun a ha => lagrange_node hy ha (by omega)) (fun _ _ _ _ => rfl)).trans
      (T2_unit (by omega) (by omega) _)

include hx hy px py in
/-- C46, 2-forms in 2d (integrals over cells). -/
theorem dofs22 :
    (∀ i j, i < p → j < q →
      (∫ y in (node ys j)..(node ys (j + 1)), ∫ x in (node xs i)..(node xs (i + 1)), (rec22 xs ys c x y)) =
        c (snum (ln22 p q) (0, i, j, 0))) := by
  intro i j hi hj
  · simp_rw [rec22_0 xs ys px py c]
    rw [intervalIntegral.integral_congr fun _ _ => iX2 hx (by omega : i < xs.length - 1) _ _ _]
    rw [iY2 hy (by omega : j < ys.length - 1) _ _ _]
    exact (T2_congr (fun _ _ => rfl) (fun _ _ => rfl) (fun _ _ _ _ => rfl)).trans
      (T2_unit (by omega) (by omega) _)

include hx hy hz px py pz in
/-- C46, 0-forms in 3d. -/
theorem dofs30 :
    (∀ i j k, i < p + 1 → j < q + 1 → k < r + 1 →
      (rec30 xs ys zs c (node xs i) (node ys j) (node zs k)) =
        c (snum (ln30 p q r) (0, i, j, k))) := by
  intro i j k hi hj hk
  · simp_rw [rec30_0 xs ys zs px py pz c]
    exact (T3_congr (fun a ha => lagrange_node hx ha (by omega)) (fun a ha => lagrange_node hy ha (by omega)) (fun a ha => lagrange_node hz ha (by omega)) (fun _ _ _ _ _ _ => rfl)).trans
      (T3_unit (by omega) (by omega) (by omega) _)

include hx hy hz px py pz in
/-- C46, 1-forms in 3d (integrals along edges). -/
theorem dofs31 :
    (∀ i j k, i < p → j < q + 1 → k < r + 1 →
      (∫ x in (node xs i)..(node xs (i + 1)), (rec31 xs ys zs c x (node ys j) (node zs k)).1) =
        c (snum (ln31 p q r) (0, i, j, k))) ∧
    (∀ i j k, i < p + 1 → j < q → k < r + 1 →
      (∫ y in (node ys j)..(node ys (j + 1)), (rec31 xs ys zs c (node xs i) y (node zs k)).2.1) =
        c (snum (ln31 p q r) (1, i, j, k))) ∧
    (∀ i j k, i < p + 1 → j < q + 1 → k < r →
      (∫ z in (node zs k)..(node zs (k + 1)), (rec31 xs ys zs c (node xs i) (node ys j) z).2.2) =
        c (snum (ln31 p q r) (2, i, j, k))) := by
  refine ⟨?_, ?_, ?_⟩ <;> intro i j k hi hj hk
  · simp_rw [rec31_0 xs ys zs px py pz c]
    rw [iX hx (by omega : i < xs.length - 1) _ _ _ _ _]
    exact (T3_congr (fun _ _ => rfl) (fun a ha => lagrange_node hy ha (by omega)) (fun a ha => lagrange_node hz ha (by omega)) (fun _ _ _ _ _ _ => rfl)).trans
      (T3_unit (by omega) (by omega) (by omega) _)
  · simp_rw [rec31_1 xs ys zs px py pz c]
    rw [iY hy (by omega : j < ys.length - 1) _ _ _ _ _]
    exact (T3_congr (fun a ha => lagrange_node hx ha (by omega)) (fun _ _ => rfl) (fun a ha => lagrange_node hz ha (by omega)) (fun _ _ _ _ _ _ => rfl)).trans
      (T3_unit (by omega) (by omega) (by omega) _)
  · simp_rw [rec31_2 xs ys zs px py pz c]
    rw [iZ hz (by omega : k < zs.length - 1) _ _ _ _ _]
    exact (T3_congr (fun a ha => lagrange_node hx ha (by omega)) (fun a ha => lagrange_node hy ha (by omega)) (fun _ _ => rfl) (fun _ _ _ _ _ _ => rfl)).trans
      (T3_unit (by omega) (by omega) (by omega) _)

include hx hy hz px py pz in
/-- C46, 2-forms in 3d (integrals over faces). -/
theorem dofs32 :
    (∀ i j k, i < p + 1 → j < q → k < r →
      (∫ z in (node zs k)..(node zs (k + 1)), ∫ y in (node ys j)..(node ys (j + 1)), (rec32 xs ys zs c (node xs i) y z).1) =
        c (snum (ln32 p q r) (0, i, j, k))) ∧
    (∀ i j k, i < p → j < q + 1 → k < r →
      (∫ z in (node zs k)..(node zs (k + 1)), ∫ x in (node xs i)..(node xs (i + 1)), (rec32 xs ys zs c x (node ys j) z).2.1) =
        c (snum (ln32 p q r) (1, i, j, k))) ∧
    (∀ i j k, i < p → j < q → k < r + 1 →
      (∫ y in (node ys j)..(node ys (j + 1)), ∫ x in (node xs i)..(node xs (i + 1)), (rec32 xs ys zs c x y (node zs k)).2.2) =
        c (snum (ln32 p q r) (2, i, j, k))) := by
  refine ⟨?_, ?_, ?_⟩ <;> intro i j k hi hj hk
  · simp_rw [rec32_0 xs ys zs px py pz c]
    rw [intervalIntegral.integral_congr fun _ _ => iY hy (by omega : j < ys.length - 1) _ _ _ _ _]
    rw [iZ hz (by omega : k < zs.length - 1) _ _ _ _ _]
    exact (T3_congr (fun a ha => lagrange_node hx ha (by omega)) (fun _ _ => rfl) (fun _ _ => rfl) (fun _ _ _ _ _ _ => rfl)).trans
      (T3_unit (by omega) (by omega) (by omega) _)
  · simp_rw [rec32_1 xs ys zs px py pz c]
    rw [intervalIntegral.integral_congr fun _ _ => iX hx (by omega : i < xs.length - 1) _ _ _ _ _]
    rw [iZ hz (by omega : k < zs.length - 1) _ _ _ _ _]
    exact (T3_congr (fun _ _ => rfl) (fun a ha => lagrange_node hy ha (by omega)) (fun _ _ => rfl) (fun _ _ _ _ _ _ => rfl)).trans
      (T3_unit (by omega) (by omega) (by omega) _)
  · simp_rw [rec32_2 xs ys zs px py pz c]
    rw [intervalIntegral.integral_congr fun _ _ => iX hx (by omega : i < xs.length - 1) _ _ _ _ _]
    rw [iY hy (by omega : j < ys.length - 1) _ _ _ _ _]
    exact (T3_congr (fun _ _ => rfl) (fun _ _ => rfl) (fun a ha => lagrange_node hz ha (by omega)) (fun _ _ _ _ _ _ => rfl)).trans
      (T3_unit (by omega) (by omega) (by omega) _)

include hx hy hz px py pz in
/-- C46, 3-forms in 3d (integrals over cells). -/
theorem dofs33 :
    (∀ i j k, i < p → j < q → k < r →
      (∫ z in (node zs k)..(node zs (k + 1)), ∫ y in (node ys j)..(node ys (j + 1)), ∫ x in (node xs i)..(node xs (i + 1)), (rec33 xs ys zs c x y z)) =
        c (snum (ln33 p q r) (0, i, j, k))) := by
  intro i j k hi hj hk
  · simp_rw [rec33_0 xs ys zs px py pz c]
    rw [intervalIntegral.integral_congr fun _ _ => intervalIntegral.integral_congr fun _ _ => iX hx (by omega : i < xs.length - 1) _ _ _ _ _]
    rw [intervalIntegral.integral_congr fun _ _ => iY hy (by omega : j < ys.length - 1) _ _ _ _ _]
    rw [iZ hz (by omega : k < zs.length - 1) _ _ _ _ _]
    exact (T3_congr (fun _ _ => rfl) (fun _ _ => rfl) (fun _ _ => rfl) (fun _ _ _ _ _ _ => rfl)).trans
      (T3_unit (by omega) (by omega) (by omega) _)

end

end Phyem.Poly
