import Verif.Trf.Shape
import Verif.Geometry.Jac

/-! The triangles in the domain, for base cells with curved sides. -/

namespace Phyem.Trf

open Phyem.Geometry

/-- The coordinates of the vertices; msehtt_trf.py:94-95, 821. -/
noncomputable def xs (V : Three) : List ℝ := [(V.a.x : ℝ), (V.b.x : ℝ), (V.c.x : ℝ)]
noncomputable def ys (V : Three) : List ℝ := [(V.a.y : ℝ), (V.b.y : ℝ), (V.c.y : ℝ)]

/-- `___TCTinUQ___.mapping`; msehtt_trf.py:809-844.  The coefficients are those of a triangle with straight sides. -/
noncomputable def curvedMap (f : ℝ → ℝ → ℝ × ℝ) (V : Three) (xi et : ℝ) : ℝ × ℝ :=
  f (triMap (xs V) (ys V) xi et).1 (triMap (xs V) (ys V) xi et).2

/-- `___TCTinUQ___.Jacobian_matrix`; msehtt_trf.py:846-885. -/
noncomputable def curvedJ (J : ℝ → ℝ → List (List ℝ)) (V : Three) (xi et : ℝ) : List (List ℝ) :=
  let t := triJ (xs V) (ys V) xi et
  let e := J (triMap (xs V) (ys V) xi et).1 (triMap (xs V) (ys V) xi et).2
  [[at2 e 0 0 * at2 t 0 0 + at2 e 0 1 * at2 t 1 0, at2 e 0 0 * at2 t 0 1 + at2 e 0 1 * at2 t 1 1],
    [at2 e 1 0 * at2 t 0 0 + at2 e 1 1 * at2 t 1 0, at2 e 1 0 * at2 t 0 1 + at2 e 1 1 * at2 t 1 1]]

/-- The point of the triangle with given weights. -/
noncomputable def weighted (V : Three) (a b c : ℝ) : ℝ × ℝ :=
  (a * V.a.x + b * V.b.x + c * V.c.x, a * V.a.y + b * V.b.y + c * V.c.y)

/-- The point of the segment from `p` to `q`. -/
noncomputable def segment (p q : Pt) (s : ℝ) : ℝ × ℝ := ((1 - s) * p.x + s * q.x, (1 - s) * p.y + s * q.y)

/-- The determinant of a matrix. -/
noncomputable def det (l : List (List ℝ)) : ℝ := at2 l 0 0 * at2 l 1 1 - at2 l 0 1 * at2 l 1 0

lemma triMap_weighted (V : Three) (xi et : ℝ) :
    triMap (xs V) (ys V) xi et = weighted V ((1 - xi) / 2) ((1 + xi) * (1 - et) / 4) ((1 + xi) * (1 + et) / 4) := by
  simp only [triMap, triCoef, triInvA, xs, ys, weighted, Geometry.dot, List.map_cons, List.map_nil,
    List.zipWith_cons_cons, List.zipWith_nil_left, List.sum_cons, List.sum_nil, List.getD_cons_zero,
    List.getD_cons_succ, List.range, List.range.loop]
  ext <;> simp only [] <;> ring

/-- The Jacobian matrix of a curved triangle is the derivative of its mapping, if that of the cell is. -/
theorem curved_jacobian {f : ℝ → ℝ → ℝ × ℝ} {J : ℝ → ℝ → List (List ℝ)} (hf : IsJac2 f J) (V : Three) :
    IsJac2 (curvedMap f V) (curvedJ J V) := by
  intro xi et
  have a := tri_coord ((triCoef (xs V)).getD 0 0) ((triCoef (xs V)).getD 1 0) ((triCoef (xs V)).getD 2 0) xi et
  have b := tri_coord ((triCoef (ys V)).getD 0 0) ((triCoef (ys V)).getD 1 0) ((triCoef (ys V)).getD 2 0) xi et
  refine (comp2 hf _ _ _ _ _ _ _ a b).congr_fderiv ?_
  ext <;> simp [lin2, curvedJ, triJ, triMap, at2]

/-- The square is mapped onto the image of the triangle under the mapping of the cell, and its four sides to the
first vertex and the images of the three edges: the image of an edge is the same curve for both triangles that
have it. -/
theorem curved_points (f : ℝ → ℝ → ℝ × ℝ) (V : Three) :
    (∀ q, (∃ xi et, -1 ≤ xi ∧ xi ≤ 1 ∧ -1 ≤ et ∧ et ≤ 1 ∧ curvedMap f V xi et = q) ↔
      ∃ a b c, 0 ≤ a ∧ 0 ≤ b ∧ 0 ≤ c ∧ a + b + c = 1 ∧ q = f (weighted V a b c).1 (weighted V a b c).2) ∧
    (∀ et, curvedMap f V (-1) et = f V.a.x V.a.y) ∧
    (∀ xi, curvedMap f V xi (-1) = f (segment V.a V.b ((1 + xi) / 2)).1 (segment V.a V.b ((1 + xi) / 2)).2) ∧
    (∀ xi, curvedMap f V xi 1 = f (segment V.a V.c ((1 + xi) / 2)).1 (segment V.a V.c ((1 + xi) / 2)).2) ∧
    (∀ et, curvedMap f V 1 et = f (segment V.b V.c ((1 + et) / 2)).1 (segment V.b V.c ((1 + et) / 2)).2) := by
  refine ⟨?_, ?_, ?_, ?_, ?_⟩
  · intro q
    constructor
    · rintro ⟨xi, et, h1, h2, h3, h4, rfl⟩
      refine ⟨(1 - xi) / 2, (1 + xi) * (1 - et) / 4, (1 + xi) * (1 + et) / 4, by linarith, ?_, ?_, by ring, ?_⟩
      · have := mul_nonneg (show 0 ≤ 1 + xi by linarith) (show 0 ≤ 1 - et by linarith); linarith
      · have := mul_nonneg (show 0 ≤ 1 + xi by linarith) (show 0 ≤ 1 + et by linarith); linarith
      · simp only [curvedMap, triMap_weighted]
    · rintro ⟨a, b, c, ha, hb, hc, hs, rfl⟩
      rcases (add_nonneg hb hc).eq_or_lt with h | h
      · refine ⟨-1, 0, by norm_num, by norm_num, by norm_num, by norm_num, ?_⟩
        have hb0 : b = 0 := by linarith
        have hc0 : c = 0 := by linarith
        have ha1 : a = 1 := by linarith
        simp only [curvedMap, triMap_weighted, hb0, hc0, ha1]
        norm_num
      · refine ⟨1 - 2 * a, (c - b) / (b + c), by linarith, by linarith, ?_, ?_, ?_⟩
        · rw [le_div_iff₀ h]; linarith
        · rw [div_le_iff₀ h]; linarith
        · have e1 : (1 + (1 - 2 * a)) * (1 - (c - b) / (b + c)) / 4 = b := by
            have : 1 + (1 - 2 * a) = 2 * (b + c) := by linarith
            rw [this]; field_simp; ring
          have e2 : (1 + (1 - 2 * a)) * (1 + (c - b) / (b + c)) / 4 = c := by
            have : 1 + (1 - 2 * a) = 2 * (b + c) := by linarith
            rw [this]; field_simp; ring
          have e3 : (1 - (1 - 2 * a)) / 2 = a := by ring
          simp only [curvedMap, triMap_weighted, e1, e2, e3]
  all_goals
    intro t
    simp only [curvedMap, triMap_weighted, weighted, segment]
    congr 1 <;> ring

/-- The determinant of the Jacobian matrix is that of the cell times twice the area of the triangle times
`(1 + xi) / 8`: it does not vanish but at the first vertex, where the square is collapsed. -/
theorem curved_determinant (J : ℝ → ℝ → List (List ℝ)) (V : Three) (xi et : ℝ) :
    det (curvedJ J V xi et) =
      det (J (triMap (xs V) (ys V) xi et).1 (triMap (xs V) (ys V) xi et).2) * (area2 V.a V.b V.c : ℚ) * (1 + xi) / 8 := by
  have e : det (triJ (xs V) (ys V) xi et) = (area2 V.a V.b V.c : ℚ) * (1 + xi) / 8 := by
    simp only [det, triJ, triCoef, triInvA, xs, ys, Geometry.dot, at2, List.map_cons, List.map_nil,
      List.zipWith_cons_cons, List.zipWith_nil_left, List.sum_cons, List.sum_nil, List.getD_cons_zero,
      List.getD_cons_succ, List.range, List.range.loop, area2]
    push_cast
    ring
  have h : det (curvedJ J V xi et) = det (J (triMap (xs V) (ys V) xi et).1 (triMap (xs V) (ys V) xi et).2) *
      det (triJ (xs V) (ys V) xi et) := by
    generalize hE : J (triMap (xs V) (ys V) xi et).1 (triMap (xs V) (ys V) xi et).2 = E
    simp only [curvedJ, hE]
    simp only [det, at2, List.getD_cons_zero, List.getD_cons_succ]
    ring
  rw [h, e]
  ring

/-- For the triangles of a refined mesh the determinant is positive wherever that of the cell is, apart from the
first vertex. -/
theorem curved_positive (J : ℝ → ℝ → List (List ℝ)) (t : Tri) {xi et : ℝ} (h : -1 < xi)
    (hJ : 0 < det (J (triMap (xs (verts t)) (ys (verts t)) xi et).1 (triMap (xs (verts t)) (ys (verts t)) xi et).2)) :
    0 < det (curvedJ J (verts t) xi et) := by
  rw [curved_determinant]
  have h1 : (0 : ℝ) < (area2 (verts t).a (verts t).b (verts t).c : ℚ) := by
    have := size_pos t
    simp only [size] at this
    exact_mod_cast this
  have h2 : 0 < 1 + xi := by linarith
  positivity

/-- The hypotheses are met: a triangle of the second level in a curved cell, and one in a cell that is mapped by the
identity. -/
example : IsJac2 (curvedMap (chaosMap 0 1 0 1 (1 / 10)) (verts ⟨0, .N, [.two]⟩))
    (curvedJ (chaosJ 0 1 0 1 (1 / 10)) (verts ⟨0, .N, [.two]⟩)) :=
  curved_jacobian (chaos_jacobian 0 1 0 1 (1 / 10)) _

example : 0 < det (curvedJ (fun _ _ => [[1, 0], [0, 1]]) (verts ⟨0, .N, [.two]⟩) 0 (1 / 2)) :=
  curved_positive _ _ (by norm_num) (by simp [det, at2])

end Phyem.Trf
