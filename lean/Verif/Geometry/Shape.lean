import Verif.Geometry.Jac
import Mathlib.Analysis.Real.Pi.Bounds

/-!
C74: a coordinate transformation realises the geometry it was asked for: curves start and end where they should and stay
on their circle, a transfinite mapping has the given curves as its four sides, elements have the given nodes as corners.
-/

namespace Phyem.Geometry

open Real

/-! ### angle, arcs -/

theorem distance_pos {p o : ℝ × ℝ} (h : p ≠ o) : 0 < distance p o := by
  unfold distance
  apply Real.sqrt_pos.2
  by_contra hc
  have h1 : (p.1 - o.1) ^ 2 = 0 := by nlinarith [sq_nonneg (p.1 - o.1), sq_nonneg (p.2 - o.2)]
  have h2 : (p.2 - o.2) ^ 2 = 0 := by nlinarith [sq_nonneg (p.1 - o.1), sq_nonneg (p.2 - o.2)]
  apply h
  ext
  · nlinarith [pow_eq_zero_iff (n := 2) (by norm_num) |>.1 h1]
  · nlinarith [pow_eq_zero_iff (n := 2) (by norm_num) |>.1 h2]

theorem distance_sq (p o : ℝ × ℝ) : distance p o ^ 2 = (p.1 - o.1) ^ 2 + (p.2 - o.2) ^ 2 := by
  unfold distance
  exact Real.sq_sqrt (by positivity)

/-- `angle(o, p)` is the polar angle of `p` around `o`, in `[0, 2π)`. -/
theorem angle_spec (o p : ℝ × ℝ) (h : p ≠ o) :
    distance p o * cos (angle o p) = p.1 - o.1 ∧ distance p o * sin (angle o p) = p.2 - o.2 ∧
      0 ≤ angle o p ∧ angle o p < 2 * π := by
  have hL := distance_pos h
  have hL2 := distance_sq p o
  have hd : √((p.1 - o.1) ^ 2 + (p.2 - o.2) ^ 2) = distance p o := rfl
  unfold angle
  simp only [one_mul, zero_mul, add_zero, one_pow, ne_eq, OfNat.ofNat_ne_zero, not_false_eq_true, zero_pow,
    Real.sqrt_one, hd]
  generalize distance p o = L at hL hL2
  generalize p.1 - o.1 = x at hL2
  generalize p.2 - o.2 = y at hL2
  have hx1 : -1 ≤ x / L := by
    rw [le_div_iff₀ hL]; nlinarith [sq_nonneg y, abs_le_of_sq_le_sq' (by nlinarith [sq_nonneg y] : x ^ 2 ≤ L ^ 2) hL.le]
  have hx2 : x / L ≤ 1 := by
    rw [div_le_one hL]; exact (abs_le_of_sq_le_sq' (by nlinarith [sq_nonneg y] : x ^ 2 ≤ L ^ 2) hL.le).2
  have hs : sin (arccos (x / L)) = |y| / L := by
    rw [Real.sin_arccos]
    have : 1 - (x / L) ^ 2 = (y / L) ^ 2 := by field_simp; linarith
    rw [this, Real.sqrt_sq_eq_abs, abs_div, abs_of_pos hL]
  have hc : cos (arccos (x / L)) = x / L := Real.cos_arccos hx1 hx2
  split_ifs with hy
  · refine ⟨?_, ?_, ?_, ?_⟩
    · rw [Real.cos_two_pi_sub, hc]; field_simp
    · rw [Real.sin_two_pi_sub, hs, abs_of_neg hy]; field_simp
    · linarith [Real.arccos_le_pi (x / L), Real.pi_pos]
    · have : 0 < arccos (x / L) := by
        rw [Real.arccos_pos, div_lt_one hL]
        nlinarith [sq_nonneg (L + x), sq_nonneg (L - x), abs_le_of_sq_le_sq' (by nlinarith [sq_nonneg y] : x ^ 2 ≤ L ^ 2) hL.le]
      linarith
  · push Not at hy
    refine ⟨?_, ?_, Real.arccos_nonneg _, ?_⟩
    · rw [hc]; field_simp
    · rw [hs, abs_of_nonneg hy]; field_simp
    · linarith [Real.arccos_le_pi (x / L), Real.pi_pos]

/-- What is promised of an arc: it starts at `p`, ends at `q` (within the tolerance of the constructor's test), and stays
on the circle through `p`. -/
theorem arc_geometry (center p q : ℝ × ℝ) (c : Curve)
    (h : arcAnti center p q = some c ∨ arcClock center p q = some c) (hp : p ≠ center) (hq : q ≠ center) :
    c.gamma 0 = p ∧ distance (c.gamma 1) q < 10e-13 ∧ (distance p center = distance q center → c.gamma 1 = q) ∧
      ∀ o, distance (c.gamma o) center = distance p center := by
  obtain ⟨p1, p2, _, _⟩ := angle_spec center p hp
  obtain ⟨q1, q2, _, _⟩ := angle_spec center q hq
  have key : ∃ t1, c = arcOf center (distance p center) (angle center p) t1 ∧
      cos t1 = cos (angle center q) ∧ sin t1 = sin (angle center q) ∧
      |distance p center - distance q center| < 10e-13 := by
    unfold arcAnti arcClock at h
    rcases h with h | h
    · by_cases hb : |distance p center - distance q center| < 10e-13
      · rw [if_pos hb] at h
        obtain rfl := Option.some.inj h
        refine ⟨_, rfl, ?_, ?_, hb⟩ <;> split_ifs <;> simp
      · rw [if_neg hb] at h; simp at h
    · by_cases hb : |distance p center - distance q center| < 10e-13
      · rw [if_pos hb] at h
        obtain rfl := Option.some.inj h
        refine ⟨_, rfl, ?_, ?_, hb⟩ <;> split_ifs <;> simp [Real.cos_sub_two_pi, Real.sin_sub_two_pi]
      · rw [if_neg hb] at h; simp at h
  obtain ⟨t1, rfl, hc, hs, hb⟩ := key
  have e1 : (arcOf center (distance p center) (angle center p) t1).gamma 1 =
      (center.1 + distance p center * cos (angle center q), center.2 + distance p center * sin (angle center q)) := by
    simp [arcOf, hc, hs]
  refine ⟨?_, ?_, ?_, ?_⟩
  · simp only [arcOf, zero_mul, zero_add, p1, p2]
    ext <;> simp
  · rw [e1]
    have e3 : distance (center.1 + distance p center * cos (angle center q),
        center.2 + distance p center * sin (angle center q)) q = |distance p center - distance q center| := by
      have a1 : q.1 = center.1 + distance q center * cos (angle center q) := by rw [q1]; ring
      have a2 : q.2 = center.2 + distance q center * sin (angle center q) := by rw [q2]; ring
      rw [distance, a1, a2, ← Real.sqrt_sq_eq_abs]
      generalize distance p center = d1
      generalize distance q center = d2
      simp only
      congr 1
      have := Real.sin_sq_add_cos_sq (angle center q)
      linear_combination (d1 - d2) ^ 2 * this
    rw [e3]; exact hb
  · intro e
    rw [e1, e, q1, q2]
    ext <;> simp
  · intro o
    have hd := distance_pos hp
    generalize distance p center = d1 at hd
    unfold distance
    simp only [arcOf, add_sub_cancel_left]
    have : (d1 * cos (o * (t1 - angle center p) + angle center p)) ^ 2 +
        (d1 * sin (o * (t1 - angle center p) + angle center p)) ^ 2 = d1 ^ 2 := by
      have := Real.sin_sq_add_cos_sq (o * (t1 - angle center p) + angle center p)
      linear_combination d1 ^ 2 * this
    rw [this, Real.sqrt_sq hd.le]

/-- The anticlockwise arc turns anticlockwise around its centre, by less than a full turn; the clockwise one clockwise. -/
theorem arc_direction (center p q : ℝ × ℝ) (hp : p ≠ center) (hq : q ≠ center) :
    (∀ c, arcAnti center p q = some c → ∃ w, 0 ≤ w ∧ w < 2 * π ∧ ∀ o,
      ((c.gamma o).1 - center.1) * (c.dgamma o).2 - ((c.gamma o).2 - center.2) * (c.dgamma o).1 =
        distance p center ^ 2 * w) ∧
    (∀ c, arcClock center p q = some c → ∃ w, 0 ≤ w ∧ w < 2 * π ∧ ∀ o,
      ((c.gamma o).1 - center.1) * (c.dgamma o).2 - ((c.gamma o).2 - center.2) * (c.dgamma o).1 =
        - (distance p center ^ 2 * w)) := by
  obtain ⟨_, _, p3, p4⟩ := angle_spec center p hp
  obtain ⟨_, _, q3, q4⟩ := angle_spec center q hq
  have cross : ∀ d t0 t1 o, (((arcOf center d t0 t1).gamma o).1 - center.1) * ((arcOf center d t0 t1).dgamma o).2 -
      (((arcOf center d t0 t1).gamma o).2 - center.2) * ((arcOf center d t0 t1).dgamma o).1 = d ^ 2 * (t1 - t0) := by
    intro d t0 t1 o
    simp only [arcOf, add_sub_cancel_left]
    have := Real.sin_sq_add_cos_sq (o * (t1 - t0) + t0)
    linear_combination d ^ 2 * (t1 - t0) * this
  constructor
  · intro c h
    unfold arcAnti at h
    by_cases hb : |distance p center - distance q center| < 10e-13
    · rw [if_pos hb] at h
      obtain rfl := Option.some.inj h
      refine ⟨(if angle center q < angle center p then angle center q + 2 * π else angle center q) - angle center p,
        ?_, ?_, fun o => cross _ _ _ o⟩ <;> split_ifs <;> linarith
    · rw [if_neg hb] at h; simp at h
  · intro c h
    unfold arcClock at h
    by_cases hb : |distance p center - distance q center| < 10e-13
    · rw [if_pos hb] at h
      obtain rfl := Option.some.inj h
      refine ⟨angle center p - (if angle center p < angle center q then angle center q - 2 * π else angle center q),
        ?_, ?_, fun o => by rw [cross]; ring⟩ <;> split_ifs <;> linarith
    · rw [if_neg hb] at h; simp at h

/-- A circle's centre accepts any two of its points: the lower arc of the cylinder. -/
example : ∃ c, arcAnti (0, 0) (-1, -1) (1, -1) = some c ∧ ((-1 : ℝ), (-1 : ℝ)) ≠ (0, 0) ∧ ((1 : ℝ), (-1 : ℝ)) ≠ (0, 0) := by
  have h : ∃ c, arcAnti (0, 0) (-1, -1) (1, -1) = some c := by
    unfold arcAnti
    rw [if_pos (by norm_num [distance])]
    exact ⟨_, rfl⟩
  obtain ⟨c, h⟩ := h
  exact ⟨c, h, by simp, by simp⟩

theorem straightLine_geometry (p q : ℝ × ℝ) :
    (straightLine p q).gamma 0 = p ∧ (straightLine p q).gamma 1 = q ∧
      ∀ o, (straightLine p q).gamma o = ((1 - o) * p.1 + o * q.1, (1 - o) * p.2 + o * q.2) := by
  refine ⟨by simp [straightLine], by simp [straightLine], fun o => ?_⟩
  simp only [straightLine, Prod.mk.injEq]
  constructor <;> ring

/-! ### Transfinite mapping -/

/-- If the four curves meet in the corners, the transfinite mapping has them as its four sides. -/
theorem transfinite_sides (x0 x1 y0 y1 : Curve)
    (c00 : x0.gamma 0 = y0.gamma 0) (c10 : x1.gamma 0 = y0.gamma 1)
    (c01 : x0.gamma 1 = y1.gamma 0) (c11 : x1.gamma 1 = y1.gamma 1) :
    (∀ s, tfMap x0 x1 y0 y1 0 s = x0.gamma s) ∧ (∀ s, tfMap x0 x1 y0 y1 1 s = x1.gamma s) ∧
    (∀ r, tfMap x0 x1 y0 y1 r 0 = y0.gamma r) ∧ (∀ r, tfMap x0 x1 y0 y1 r 1 = y1.gamma r) := by
  rw [Prod.ext_iff] at c00 c10 c01 c11
  refine ⟨fun s => ?_, fun s => ?_, fun r => ?_, fun r => ?_⟩ <;>
  · ext
    · simp only [tfMap, tf]; try simp only [c00.1, c10.1, c01.1, c11.1]
      ring
    · simp only [tfMap, tf]; try simp only [c00.2, c10.2, c01.2, c11.2]
      ring

/-- Four straight sides of a trapezium meet in the corners. -/
example : (straightLine (0, 0) (1, 2)).gamma 0 = (straightLine (0, 0) (4, 0)).gamma 0 ∧
    (straightLine (4, 0) (3, 2)).gamma 0 = (straightLine (0, 0) (4, 0)).gamma 1 ∧
    (straightLine (0, 0) (1, 2)).gamma 1 = (straightLine (1, 2) (3, 2)).gamma 0 ∧
    (straightLine (4, 0) (3, 2)).gamma 1 = (straightLine (1, 2) (3, 2)).gamma 1 := by
  simp [straightLine]

/-! ### Elements -/

/-- `___invA___` is the inverse of `___A___`: the coefficients reproduce the nodes. -/
theorem quadInvA_inverse (x0 x1 x2 x3 : ℝ) :
    quadA.map (fun row => dot row (quadCoef [x0, x1, x2, x3])) = [x0, x1, x2, x3] := by
  simp only [quadA, quadCoef, quadInvA, dot, List.map_cons, List.map_nil, List.zipWith_cons_cons,
    List.zipWith_nil_left, List.sum_cons, List.sum_nil, List.cons.injEq, and_true]
  refine ⟨?_, ?_, ?_, ?_⟩ <;> ring

/-- The corners of the reference square go to the nodes of the quadrilateral, in order; its sides to the straight segments
between them. -/
theorem quad_corners (x0 x1 x2 x3 y0 y1 y2 y3 : ℝ) :
    let f := quadMap [x0, x1, x2, x3] [y0, y1, y2, y3]
    f (-1) (-1) = (x0, y0) ∧ f 1 (-1) = (x1, y1) ∧ f 1 1 = (x2, y2) ∧ f (-1) 1 = (x3, y3) ∧
    (∀ t, f t (-1) = (straightLine (x0, y0) (x1, y1)).gamma ((t + 1) / 2)) ∧
    (∀ t, f 1 t = (straightLine (x1, y1) (x2, y2)).gamma ((t + 1) / 2)) ∧
    (∀ t, f t 1 = (straightLine (x3, y3) (x2, y2)).gamma ((t + 1) / 2)) ∧
    (∀ t, f (-1) t = (straightLine (x0, y0) (x3, y3)).gamma ((t + 1) / 2)) := by
  simp only [quadMap, bilin, quadCoef, quadInvA, dot, straightLine, List.map_cons, List.map_nil, List.zipWith_cons_cons,
    List.zipWith_nil_left, List.sum_cons, List.sum_nil, List.getD_cons_zero, List.getD_cons_succ, Prod.mk.injEq]
  refine ⟨⟨?_, ?_⟩, ⟨?_, ?_⟩, ⟨?_, ?_⟩, ⟨?_, ?_⟩, fun t => ⟨?_, ?_⟩, fun t => ⟨?_, ?_⟩, fun t => ⟨?_, ?_⟩,
    fun t => ⟨?_, ?_⟩⟩ <;> ring

/-- The triangle: the side `ξ = -1` collapses to node 0, the two other corners are nodes 1 and 2, the sides are straight. -/
theorem triangle_corners (x0 x1 x2 y0 y1 y2 : ℝ) :
    let f := triMap [x0, x1, x2] [y0, y1, y2]
    (∀ t, f (-1) t = (x0, y0)) ∧ f 1 (-1) = (x1, y1) ∧ f 1 1 = (x2, y2) ∧
    (∀ t, f t (-1) = (straightLine (x0, y0) (x1, y1)).gamma ((t + 1) / 2)) ∧
    (∀ t, f 1 t = (straightLine (x1, y1) (x2, y2)).gamma ((t + 1) / 2)) ∧
    (∀ t, f t 1 = (straightLine (x0, y0) (x2, y2)).gamma ((t + 1) / 2)) := by
  simp only [triMap, triCoef, triInvA, dot, straightLine, List.map_cons, List.map_nil, List.zipWith_cons_cons,
    List.zipWith_nil_left, List.sum_cons, List.sum_nil, List.getD_cons_zero, List.getD_cons_succ, Prod.mk.injEq,
    List.range, List.range.loop]
  refine ⟨fun t => ⟨?_, ?_⟩, ⟨?_, ?_⟩, ⟨?_, ?_⟩, fun t => ⟨?_, ?_⟩, fun t => ⟨?_, ?_⟩, fun t => ⟨?_, ?_⟩⟩ <;> ring

/-- The orthogonal rectangle is the box with the given origin and extents. -/
theorem rect_corners (ox oy dx dy : ℝ) :
    rectMap ox oy dx dy (-1) (-1) = (ox, oy) ∧ rectMap ox oy dx dy 1 1 = (ox + dx, oy + dy) ∧
    ∀ t, (rectMap ox oy dx dy (-1) t).1 = ox ∧ (rectMap ox oy dx dy 1 t).1 = ox + dx ∧
      (rectMap ox oy dx dy t (-1)).2 = oy ∧ (rectMap ox oy dx dy t 1).2 = oy + dy := by
  simp only [rectMap, Prod.mk.injEq]
  refine ⟨⟨?_, ?_⟩, ⟨?_, ?_⟩, fun t => ⟨?_, ?_, ?_, ?_⟩⟩ <;> ring

/-- A linear transformation takes the corners of the unit cube to the corners of the box. -/
theorem linear_corners : ∀ (l : List ℝ) (p : List (ℝ × ℝ)), linBounds l = some p →
    ∀ i, i < p.length → (∃ lb ub, l[2 * i]? = some lb ∧ l[2 * i + 1]? = some ub ∧ lb < ub ∧
      p[i]? = some (lb, ub - lb))
  | [], p, h => by
    simp only [linBounds, Option.some.injEq] at h
    subst h
    simp
  | [x], p, h => by
    simp only [linBounds, Option.some.injEq] at h
    subst h
    simp
  | lb :: ub :: l, p, h => by
    simp only [linBounds] at h
    by_cases hlt : lb < ub
    · rw [if_pos hlt] at h
      cases hp' : linBounds l with
      | none => rw [hp'] at h; simp at h
      | some p' =>
        rw [hp'] at h
        obtain rfl := Option.some.inj h
        intro i hi
        cases i with
        | zero => exact ⟨lb, ub, rfl, rfl, hlt, rfl⟩
        | succ i =>
          obtain ⟨a, b, h1, h2, h3, h4⟩ := linear_corners l p' hp' i (by simpa using hi)
          exact ⟨a, b, by rw [show 2 * (i + 1) = 2 * i + 1 + 1 from by ring]; simpa using h1,
            by rw [show 2 * (i + 1) + 1 = 2 * i + 1 + 1 + 1 from by ring]; simpa using h2, h3, by simpa using h4⟩
    · rw [if_neg hlt] at h
      simp at h

theorem linear_box (l : List ℝ) (p : List (ℝ × ℝ)) (h : linInit l = some p) (rst : List ℝ)
    (hr : rst.length = p.length) (i : ℕ) (hi : i < p.length) :
    ∃ lb ub x, l[2 * i]? = some lb ∧ l[2 * i + 1]? = some ub ∧ lb < ub ∧ linMap p rst = some x ∧
      x.getD i 0 = (1 - rst.getD i 0) * lb + rst.getD i 0 * ub := by
  unfold linInit at h
  split_ifs at h with hc
  obtain ⟨lb, ub, h1, h2, h3, h4⟩ := linear_corners l p h i hi
  refine ⟨lb, ub, _, h1, h2, h3, by unfold linMap; rw [if_pos hr], ?_⟩
  have hi' : i < rst.length := by omega
  rw [List.getD_eq_getElem?_getD, List.getElem?_zipWith, h4, List.getElem?_eq_getElem hi',
    List.getD_eq_getElem?_getD, List.getElem?_eq_getElem hi']
  simp
  ring

/-- A box in space. -/
example : ∃ p, linInit [0, 2, -1, 1, 3, 7] = some p ∧ p.length = 3 := by
  refine ⟨[(0, 2 - 0), (-1, 1 - -1), (3, 7 - 3)], ?_, rfl⟩
  unfold linInit
  rw [if_pos (by simp)]
  simp only [linBounds]
  norm_num

/-! ### chaotic -/

/-- The chaotic domain has the requested bounds when it is not deformed, or when the bounds are `[a, a + 1] × [0, 1]`. -/
theorem chaos_bounds_partial (a b c d k : ℝ) (h : k = 0 ∨ (b = a + 1 ∧ c = 0 ∧ d = 1)) (p q : ℝ) :
    (chaosMap a b c d k a q).1 = a ∧ (chaosMap a b c d k b q).1 = b ∧
    (chaosMap a b c d k p c).2 = c ∧ (chaosMap a b c d k p d).2 = d := by
  by_cases hk : k = 0
  · simp [chaosMap, hk]
  · obtain ⟨rfl, rfl, rfl⟩ := h.resolve_left hk
    simp [chaosMap, hk]
    ring

/-- In general it has not: with bounds `[0, 2] × [0, 1]` and any deformation, the upper right corner is `(1, 1)`. -/
theorem chaos_bounds_refuted (k : ℝ) (hk : k ≠ 0) :
    chaosMap 0 2 0 1 k 2 1 = (1, 1) ∧ (chaosMap 0 2 0 1 k 2 1).1 ≠ 2 := by
  have : chaosMap 0 2 0 1 k 2 1 = (1, 1) := by simp [chaosMap, hk]
  refine ⟨this, by rw [this]; norm_num⟩

/-- Nor is the lower bound in `y` respected: with bounds `[0, 1] × [5, 6]` the domain lies at `y = 0 … 1`. -/
theorem chaos_lower_refuted (k : ℝ) (hk : k ≠ 0) (p : ℝ) : (chaosMap 0 1 5 6 k p 5).2 = 0 := by
  simp [chaosMap, hk]

end Phyem.Geometry
