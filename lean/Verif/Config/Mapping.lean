import Verif.Config.Elements
import Mathlib.Analysis.Calculus.Deriv.Comp
import Mathlib.Analysis.Calculus.Deriv.Mul
import Mathlib.Analysis.Calculus.Deriv.Add

/-!
# Mappings of elements that are parts of a region
-/

namespace Phyem.Config

open Phyem

/-- **Mapping of an element.** The mapping takes the corners of the reference square to the corners of the element, the point that divides the
reference square in some way to the image of the point that divides the element in the same way; two elements that share a line give the
same points on it. -/
theorem element_mapping (m : RegMap) (e : Elem) :
    e.places m = [e.mapping m (-1) (-1), e.mapping m 1 (-1), e.mapping m 1 1, e.mapping m (-1) 1] ∧
    (∀ s t : ℚ, e.mapping m (2 * s - 1) (2 * t - 1) = m ((1 - s) * e.x0 + s * e.x1) ((1 - t) * e.y0 + t * e.y1)) ∧
    (∀ (e' : Elem) (t : ℚ), e'.x0 = e.x1 → e'.y0 = e.y0 → e'.y1 = e.y1 → e.mapping m 1 t = e'.mapping m (-1) t) ∧
    (∀ (e' : Elem) (s : ℚ), e'.y0 = e.y1 → e'.x0 = e.x0 → e'.x1 = e.x1 → e.mapping m s 1 = e'.mapping m s (-1)) := by
  refine ⟨?_, fun s t => ?_, fun e' t h1 h2 h3 => ?_, fun e' s h1 h2 h3 => ?_⟩
  · simp only [Elem.places, Elem.corners, List.map_cons, List.map_nil, Elem.mapping]
    norm_num
  · simp only [Elem.mapping]
    congr 1 <;> ring
  · simp only [Elem.mapping, h1, h2, h3]
    congr 1; ring
  · simp only [Elem.mapping, h1, h2, h3]
    congr 1; ring

/-- **Different points.** If the mapping of the region takes different points of the unit square to different points, the mapping of an element
takes different points of the reference square to different points. -/
theorem element_mapping_injective (m : RegMap) (hm : ∀ x y x' y', 0 ≤ x → x ≤ 1 → 0 ≤ y → y ≤ 1 → 0 ≤ x' → x' ≤ 1 → 0 ≤ y' → y' ≤ 1 →
      m x y = m x' y' → x = x' ∧ y = y') {r : ℕ} {l : List ℚ × List ℚ} (h1 : Good l.1) (h2 : Good l.2) {e : Elem} (he : e ∈ elemsOf r l)
    {s t s' t' : ℚ} (hs : -1 ≤ s) (hs1 : s ≤ 1) (ht : -1 ≤ t) (ht1 : t ≤ 1) (hs' : -1 ≤ s') (hs1' : s' ≤ 1) (ht' : -1 ≤ t')
    (ht1' : t' ≤ 1) (h : e.mapping m s t = e.mapping m s' t') : s = s' ∧ t = t' := by
  obtain ⟨-, ⟨a0, a1, a2⟩, b0, b1, b2⟩ := elem_in h1 h2 he
  have low : ∀ u lo hi : ℚ, -1 ≤ u → u ≤ 1 → 0 ≤ lo → lo < hi → hi ≤ 1 →
      0 ≤ (u + 1) * (1 / 2) * (hi - lo) + lo ∧ (u + 1) * (1 / 2) * (hi - lo) + lo ≤ 1 := by
    intro u lo hi u0 u1 l0 l1 l2
    have p1 : 0 ≤ (u + 1) * (1 / 2) * (hi - lo) := mul_nonneg (by linarith) (by linarith)
    have p2 : (u + 1) * (1 / 2) * (hi - lo) ≤ 1 * (hi - lo) := mul_le_mul_of_nonneg_right (by linarith) (by linarith)
    exact ⟨by linarith, by linarith⟩
  have cancel : ∀ u v lo hi : ℚ, lo < hi → (u + 1) * (1 / 2) * (hi - lo) + lo = (v + 1) * (1 / 2) * (hi - lo) + lo → u = v := by
    intro u v lo hi hlt e
    have : (u - v) * (hi - lo) = 0 := by linarith
    rcases mul_eq_zero.1 this with h | h
    · linarith
    · linarith
  have p := low s _ _ hs hs1 a0 a1 a2
  have q := low t _ _ ht ht1 b0 b1 b2
  have p' := low s' _ _ hs' hs1' a0 a1 a2
  have q' := low t' _ _ ht' ht1' b0 b1 b2
  obtain ⟨g1, g2⟩ := hm _ _ _ _ p.1 p.2 q.1 q.2 p'.1 p'.2 q'.1 q'.2 h
  exact ⟨cancel _ _ _ _ a1 g1, cancel _ _ _ _ b1 g2⟩

/-- A mapping that takes different points to different points, and an element of a layout. -/
example : (∀ x y x' y' : ℚ, shifted 3 4 x y = shifted 3 4 x' y' → x = x' ∧ y = y') ∧
    (⟨7, 0, 1 / 2, 1 / 3, 2 / 3⟩ : Elem) ∈ elemsOf 7 ([1 / 2, 1 / 2], [1 / 3, 1 / 3, 1 / 3]) := by
  refine ⟨fun x y x' y' h => ?_, by decide +kernel⟩
  simp only [shifted, Prod.mk.injEq] at h
  exact ⟨by linarith [h.1], by linarith [h.2]⟩

/-! ### Jacobian matrix, with real numbers -/

/-- One coordinate of `_RegionElementCT_2d_.mapping` (`msehtt_.py:492-496`); `m` is the coordinate of the mapping of the region. -/
noncomputable def ctMap (m : ℝ → ℝ → ℝ) (x0 x1 y0 y1 : ℝ) (xi et : ℝ) : ℝ :=
  m ((xi + 1) * (1 / 2) * (x1 - x0) + x0) ((et + 1) * (1 / 2) * (y1 - y0) + y0)

/-- One row of `_RegionElementCT_2d_.Jacobian_matrix` (`msehtt_.py:498-519`); `mr` and `ms` are the row of the Jacobian matrix of the
region. -/
noncomputable def ctRow (mr ms : ℝ → ℝ → ℝ) (x0 x1 y0 y1 : ℝ) (xi et : ℝ) : ℝ × ℝ :=
  (mr ((xi + 1) * (1 / 2) * (x1 - x0) + x0) ((et + 1) * (1 / 2) * (y1 - y0) + y0) * (1 / 2 * (x1 - x0)),
   ms ((xi + 1) * (1 / 2) * (x1 - x0) + x0) ((et + 1) * (1 / 2) * (y1 - y0) + y0) * (1 / 2 * (y1 - y0)))

/-- **Jacobian matrix of an element.** If the region gives the derivatives of its mapping, the element gives the derivatives of its mapping. -/
theorem element_jacobian (m mr ms : ℝ → ℝ → ℝ) (hr : ∀ r s, HasDerivAt (fun r => m r s) (mr r s) r)
    (hs : ∀ r s, HasDerivAt (fun s => m r s) (ms r s) s) (x0 x1 y0 y1 xi et : ℝ) :
    HasDerivAt (fun xi => ctMap m x0 x1 y0 y1 xi et) (ctRow mr ms x0 x1 y0 y1 xi et).1 xi ∧
    HasDerivAt (fun et => ctMap m x0 x1 y0 y1 xi et) (ctRow mr ms x0 x1 y0 y1 xi et).2 et := by
  have lin : ∀ a b u : ℝ, HasDerivAt (fun u : ℝ => (u + 1) * (1 / 2) * (b - a) + a) (1 / 2 * (b - a)) u := by
    intro a b u
    have := ((((hasDerivAt_id u).add_const (1 : ℝ)).mul_const (1 / 2)).mul_const (b - a)).add_const a
    simpa using this
  constructor
  · exact (hr _ ((et + 1) * (1 / 2) * (y1 - y0) + y0)).comp xi (lin x0 x1 xi)
  · exact (hs ((xi + 1) * (1 / 2) * (x1 - x0) + x0) _).comp et (lin y0 y1 et)

/-- A mapping with its derivatives. -/
example : (∀ r s : ℝ, HasDerivAt (fun r => r * s) s r) ∧ ∀ r s : ℝ, HasDerivAt (fun s => r * s) r s := by
  constructor
  · intro r s; simpa using (hasDerivAt_id r).mul_const s
  · intro r s; simpa using (hasDerivAt_id s).const_mul r

end Phyem.Config
