import Verif.Geometry.Domain
import Mathlib.Tactic.FinCases

/-!
C75 for the backward step and the cylinder channel.
-/

namespace Phyem.Geometry

open Real

/-! ### Model: backward step -/

/-- Build several linear transformations; `none` if one of the constructors raises. -/
noncomputable def boxes : List (List ℝ) → Option (List (List (ℝ × ℝ)))
  | [] => some []
  | l :: ls => match linInit l, boxes ls with
    | some p, some ps => some (p :: ps)
    | _, _ => none

/-- The mapping of region `n` of a list of linear transformations (`mapping_dict` of `backward_step.py:259-263`). -/
noncomputable def boxMap (ps : List (List (ℝ × ℝ))) (n : ℕ) (x : List ℝ) : Option (List ℝ) :=
  match ps[n]? with
  | some p => linMap p x
  | none => none

/-- The regions of the two dimensional backward step (`backward_step.py:226-229`). -/
noncomputable def step2 (x0 y0 x1 x2 y1 y2 : ℝ) : Option (List (List (ℝ × ℝ))) :=
  boxes [[x0 + x1, x0 + x1 + x2, y0 + 0, y0 + y1], [x0 + x1, x0 + x1 + x2, y0 + y1, y0 + y1 + y2],
    [x0 + 0, x0 + x1, y0 + y1, y0 + y1 + y2]]

/-- The regions of the three dimensional backward step (`backward_step.py:230-233`), after the assertion `z > 0` (`:220`),
which `linInit` makes as well. -/
noncomputable def step3 (x0 y0 x1 x2 y1 y2 z : ℝ) : Option (List (List (ℝ × ℝ))) :=
  boxes [[x0 + x1, x0 + x1 + x2, y0 + 0, y0 + y1, 0, z], [x0 + x1, x0 + x1 + x2, y0 + y1, y0 + y1 + y2, 0, z],
    [x0 + 0, x0 + x1, y0 + y1, y0 + y1 + y2, 0, z]]

/-- The region map in two dimensions (`backward_step.py:238-242`). -/
def stepTable2 : List (ℕ × List (Option ℕ)) :=
  [(0, [none, none, none, some 1]), (1, [some 2, none, some 0, none]), (2, [none, some 1, none, none])]

/-- The region map in three dimensions (`backward_step.py:243-255`). -/
def stepTable3 (per : Bool) : List (ℕ × List (Option ℕ)) :=
  if per then
    [(0, [none, none, none, some 1, some 0, some 0]), (1, [some 2, none, some 0, none, some 1, some 1]),
      (2, [none, some 1, none, none, some 2, some 2])]
  else
    [(0, [none, none, none, some 1, none, none]), (1, [some 2, none, some 0, none, none, none]),
      (2, [none, some 1, none, none, none, none])]

/-! ### Specification: the outline of the step -/

/-- The six segments of the boundary of the step with corner `(x0, y0)` of its bounding box and corner
`(x0 + x1, y0 + y1)` of the step. -/
def StepOutline (x0 y0 x1 x2 y1 y2 : ℝ) (x y : ℝ) : Prop :=
  (x = x0 ∧ y0 + y1 ≤ y ∧ y ≤ y0 + y1 + y2) ∨ (y = y0 + y1 + y2 ∧ x0 ≤ x ∧ x ≤ x0 + x1 + x2) ∨
  (x = x0 + x1 + x2 ∧ y0 ≤ y ∧ y ≤ y0 + y1 + y2) ∨ (y = y0 ∧ x0 + x1 ≤ x ∧ x ≤ x0 + x1 + x2) ∨
  (x = x0 + x1 ∧ y0 ≤ y ∧ y ≤ y0 + y1) ∨ (y = y0 + y1 ∧ x0 ≤ x ∧ x ≤ x0 + x1)

/-! ### Proofs -/

theorem linInit2 {a b c d : ℝ} {p : List (ℝ × ℝ)} (h : linInit [a, b, c, d] = some p) :
    a < b ∧ c < d ∧ p = [(a, b - a), (c, d - c)] := by
  simp only [linInit, linBounds] at h
  simp only [List.length_cons, List.length_nil] at h
  norm_num at h
  by_cases h1 : a < b
  · by_cases h2 : c < d
    · simp [h1, h2] at h
      exact ⟨h1, h2, h.symm⟩
    · simp [h1, h2] at h
  · simp [h1] at h

theorem linInit3 {a b c d e f : ℝ} {p : List (ℝ × ℝ)} (h : linInit [a, b, c, d, e, f] = some p) :
    a < b ∧ c < d ∧ e < f ∧ p = [(a, b - a), (c, d - c), (e, f - e)] := by
  simp only [linInit, linBounds] at h
  simp only [List.length_cons, List.length_nil] at h
  norm_num at h
  by_cases h1 : a < b
  · by_cases h2 : c < d
    · by_cases h3 : e < f
      · simp [h1, h2, h3] at h
        exact ⟨h1, h2, h3, h.symm⟩
      · simp [h1, h2, h3] at h
    · simp [h1, h2] at h
  · simp [h1] at h

theorem boxes3 {a b c : List ℝ} {ps : List (List (ℝ × ℝ))} (h : boxes [a, b, c] = some ps) :
    ∃ p q r, linInit a = some p ∧ linInit b = some q ∧ linInit c = some r ∧ ps = [p, q, r] := by
  unfold boxes at h
  cases ha : linInit a with
  | none => simp [ha] at h
  | some p =>
    unfold boxes at h
    cases hb : linInit b with
    | none => simp [ha, hb] at h
    | some q =>
      unfold boxes at h
      cases hc : linInit c with
      | none => simp [ha, hb, hc] at h
      | some r =>
        simp [ha, hb, hc, boxes] at h
        exact ⟨p, q, r, rfl, rfl, rfl, h.symm⟩

/-- The backward step in two dimensions: whenever the domain can be built, its regions fit together, and the sides without
neighbour make up the outline of the step. -/
theorem backward_step2_conforming (x0 y0 x1 x2 y1 y2 : ℝ) (ps : List (List (ℝ × ℝ)))
    (h : step2 x0 y0 x1 x2 y1 y2 = some ps) :
    Conforming 2 stepTable2 (boxMap ps) (fun _ p => StepOutline x0 y0 x1 x2 y1 y2 (p.getD 0 0) (p.getD 1 0))
      (fun _ p q => p = q) := by
  obtain ⟨p, q, r, h1, h2, h3, rfl⟩ := boxes3 h
  obtain ⟨a1, b1, rfl⟩ := linInit2 h1
  obtain ⟨a2, b2, rfl⟩ := linInit2 h2
  obtain ⟨a3, b3, rfl⟩ := linInit2 h3
  clear h h1 h2 h3
  have hx1 : 0 < x1 := by linarith
  have hx2 : 0 < x2 := by linarith
  have hy1 : 0 < y1 := by linarith
  have hy2 : 0 < y2 := by linarith
  refine ⟨by decide, fun n row hm => ?_⟩
  simp only [stepTable2, List.mem_cons, List.not_mem_nil, or_false, Prod.mk.injEq] at hm
  rcases hm with ⟨rfl, rfl⟩ | ⟨rfl, rfl⟩ | ⟨rfl, rfl⟩ <;>
  · refine ⟨rfl, fun m hm x hx hu => ?_⟩
    obtain ⟨s, t, rfl⟩ : ∃ s t, x = [s, t] := by
      match x, hx with
      | [s, t], _ => exact ⟨s, t, rfl⟩
    have hs := hu s (by simp)
    have ht := hu t (by simp)
    have e1 : 0 ≤ s * x1 ∧ s * x1 ≤ x1 := ⟨mul_nonneg hs.1 hx1.le, by nlinarith⟩
    have e2 : 0 ≤ s * x2 ∧ s * x2 ≤ x2 := ⟨mul_nonneg hs.1 hx2.le, by nlinarith⟩
    have e3 : 0 ≤ t * y1 ∧ t * y1 ≤ y1 := ⟨mul_nonneg ht.1 hy1.le, by nlinarith⟩
    have e4 : 0 ≤ t * y2 ∧ t * y2 ≤ y2 := ⟨mul_nonneg ht.1 hy2.le, by nlinarith⟩
    have hm' : m = 0 ∨ m = 1 ∨ m = 2 ∨ m = 3 := by omega
    rcases hm' with rfl | rfl | rfl | rfl <;>
    · refine ⟨_, rfl, rfl, ?_⟩
      simp only [List.getD_cons_zero, List.getD_cons_succ]
      first
      | (refine ⟨⟨_, by simp [stepTable2]; rfl, rfl⟩, _, rfl, ?_⟩
         simp [opp, face]; try ring)
      | (refine Or.inl ⟨?_, ?_, ?_⟩ <;> norm_num [face] <;> linarith)
      | (refine Or.inr (Or.inl ⟨?_, ?_, ?_⟩) <;> norm_num [face] <;> linarith)
      | (refine Or.inr (Or.inr (Or.inl ⟨?_, ?_, ?_⟩)) <;> norm_num [face] <;> linarith)
      | (refine Or.inr (Or.inr (Or.inr (Or.inl ⟨?_, ?_, ?_⟩))) <;> norm_num [face] <;> linarith)
      | (refine Or.inr (Or.inr (Or.inr (Or.inr (Or.inl ⟨?_, ?_, ?_⟩)))) <;> norm_num [face] <;> linarith)
      | (refine Or.inr (Or.inr (Or.inr (Or.inr (Or.inr ⟨?_, ?_, ?_⟩)))) <;> norm_num [face] <;> linarith)


/-- The backward step in three dimensions: as in the plane; in `z` either both ends are boundary or the region is its own
neighbour one period away. -/
theorem backward_step3_conforming (per : Bool) (x0 y0 x1 x2 y1 y2 z : ℝ) (ps : List (List (ℝ × ℝ)))
    (h : step3 x0 y0 x1 x2 y1 y2 z = some ps) :
    Conforming 3 (stepTable3 per) (boxMap ps)
      (fun m p => (m < 4 ∧ StepOutline x0 y0 x1 x2 y1 y2 (p.getD 0 0) (p.getD 1 0)) ∨
        (per = false ∧ m = 4 ∧ p.getD 2 0 = 0) ∨ (per = false ∧ m = 5 ∧ p.getD 2 0 = z))
      (fun m p q => p = q ∨ (per = true ∧ 4 ≤ m ∧ Wrapped 0 z 2 m p q)) := by
  obtain ⟨p, q, r, h1, h2, h3, rfl⟩ := boxes3 h
  obtain ⟨a1, b1, c1, rfl⟩ := linInit3 h1
  obtain ⟨a2, b2, _, rfl⟩ := linInit3 h2
  obtain ⟨a3, b3, _, rfl⟩ := linInit3 h3
  clear h h1 h2 h3
  have hx1 : 0 < x1 := by linarith
  have hx2 : 0 < x2 := by linarith
  have hy1 : 0 < y1 := by linarith
  have hy2 : 0 < y2 := by linarith
  refine ⟨by cases per <;> decide, fun n row hm => ?_⟩
  have three : ∀ x : List ℝ, x.length = 3 → (∀ t ∈ x, 0 ≤ t ∧ t ≤ 1) →
      ∃ s t u, x = [s, t, u] ∧ (0 ≤ s ∧ s ≤ 1) ∧ (0 ≤ t ∧ t ≤ 1) := by
    intro x hx hu
    match x, hx with
    | [s, t, u], _ => exact ⟨s, t, u, rfl, hu s (by simp), hu t (by simp)⟩
  have hrow : (n = 0 ∧ row = [none, none, none, some 1, if per then some 0 else none, if per then some 0 else none]) ∨
      (n = 1 ∧ row = [some 2, none, some 0, none, if per then some 1 else none, if per then some 1 else none]) ∨
      (n = 2 ∧ row = [none, some 1, none, none, if per then some 2 else none, if per then some 2 else none]) := by
    cases per <;> simpa [stepTable3] using hm
  have mem : ∀ j, j < 3 → (j, [if j = 1 then some 2 else none, if j = 2 then some 1 else none, if j = 1 then some 0 else none,
      if j = 0 then some 1 else none, if per then some j else none, if per then some j else none]) ∈ stepTable3 per := by
    cases per <;> decide
  clear hm
  rcases hrow with ⟨rfl, rfl⟩ | ⟨rfl, rfl⟩ | ⟨rfl, rfl⟩
  · refine ⟨rfl, fun m hm x hx hu => ?_⟩
    obtain ⟨s, t, u, rfl, hs, ht⟩ := three x hx hu
    have e1 : 0 ≤ s * x1 ∧ s * x1 ≤ x1 := ⟨mul_nonneg hs.1 hx1.le, by nlinarith⟩
    have e2 : 0 ≤ s * x2 ∧ s * x2 ≤ x2 := ⟨mul_nonneg hs.1 hx2.le, by nlinarith⟩
    have e3 : 0 ≤ t * y1 ∧ t * y1 ≤ y1 := ⟨mul_nonneg ht.1 hy1.le, by nlinarith⟩
    have e4 : 0 ≤ t * y2 ∧ t * y2 ≤ y2 := ⟨mul_nonneg ht.1 hy2.le, by nlinarith⟩
    obtain rfl | rfl | rfl | rfl | rfl | rfl : m = 0 ∨ m = 1 ∨ m = 2 ∨ m = 3 ∨ m = 4 ∨ m = 5 := by omega
    · refine ⟨_, rfl, rfl, Or.inl ⟨by decide, Or.inr (Or.inr (Or.inr (Or.inr (Or.inl ⟨?_, ?_, ?_⟩))))⟩⟩ <;> norm_num [face] <;> linarith
    · refine ⟨_, rfl, rfl, Or.inl ⟨by decide, Or.inr (Or.inr (Or.inl ⟨?_, ?_, ?_⟩))⟩⟩ <;> norm_num [face] <;> linarith
    · refine ⟨_, rfl, rfl, Or.inl ⟨by decide, Or.inr (Or.inr (Or.inr (Or.inl ⟨?_, ?_, ?_⟩)))⟩⟩ <;> norm_num [face] <;> linarith
    · refine ⟨_, rfl, rfl, ⟨_, mem 1 (by decide), rfl⟩, _, rfl, Or.inl ?_⟩
      simp [opp, face] <;> ring
    · cases per
      · refine ⟨_, rfl, rfl, Or.inr (Or.inl ⟨rfl, rfl, ?_⟩)⟩
        norm_num [face]
      · refine ⟨_, rfl, rfl, ⟨_, mem 0 (by decide), rfl⟩, _, rfl, Or.inr ⟨rfl, by decide, ?_⟩⟩
        norm_num [opp, face, Wrapped]
    · cases per
      · refine ⟨_, rfl, rfl, Or.inr (Or.inr ⟨rfl, rfl, ?_⟩)⟩
        norm_num [face]
      · refine ⟨_, rfl, rfl, ⟨_, mem 0 (by decide), rfl⟩, _, rfl, Or.inr ⟨rfl, by decide, ?_⟩⟩
        norm_num [opp, face, Wrapped]
  · refine ⟨rfl, fun m hm x hx hu => ?_⟩
    obtain ⟨s, t, u, rfl, hs, ht⟩ := three x hx hu
    have e1 : 0 ≤ s * x1 ∧ s * x1 ≤ x1 := ⟨mul_nonneg hs.1 hx1.le, by nlinarith⟩
    have e2 : 0 ≤ s * x2 ∧ s * x2 ≤ x2 := ⟨mul_nonneg hs.1 hx2.le, by nlinarith⟩
    have e3 : 0 ≤ t * y1 ∧ t * y1 ≤ y1 := ⟨mul_nonneg ht.1 hy1.le, by nlinarith⟩
    have e4 : 0 ≤ t * y2 ∧ t * y2 ≤ y2 := ⟨mul_nonneg ht.1 hy2.le, by nlinarith⟩
    obtain rfl | rfl | rfl | rfl | rfl | rfl : m = 0 ∨ m = 1 ∨ m = 2 ∨ m = 3 ∨ m = 4 ∨ m = 5 := by omega
    · refine ⟨_, rfl, rfl, ⟨_, mem 2 (by decide), rfl⟩, _, rfl, Or.inl ?_⟩
      simp [opp, face] <;> ring
    · refine ⟨_, rfl, rfl, Or.inl ⟨by decide, Or.inr (Or.inr (Or.inl ⟨?_, ?_, ?_⟩))⟩⟩ <;> norm_num [face] <;> linarith
    · refine ⟨_, rfl, rfl, ⟨_, mem 0 (by decide), rfl⟩, _, rfl, Or.inl ?_⟩
      simp [opp, face] <;> ring
    · refine ⟨_, rfl, rfl, Or.inl ⟨by decide, Or.inr (Or.inl ⟨?_, ?_, ?_⟩)⟩⟩ <;> norm_num [face] <;> linarith
    · cases per
      · refine ⟨_, rfl, rfl, Or.inr (Or.inl ⟨rfl, rfl, ?_⟩)⟩
        norm_num [face]
      · refine ⟨_, rfl, rfl, ⟨_, mem 1 (by decide), rfl⟩, _, rfl, Or.inr ⟨rfl, by decide, ?_⟩⟩
        norm_num [opp, face, Wrapped]
    · cases per
      · refine ⟨_, rfl, rfl, Or.inr (Or.inr ⟨rfl, rfl, ?_⟩)⟩
        norm_num [face]
      · refine ⟨_, rfl, rfl, ⟨_, mem 1 (by decide), rfl⟩, _, rfl, Or.inr ⟨rfl, by decide, ?_⟩⟩
        norm_num [opp, face, Wrapped]
  · refine ⟨rfl, fun m hm x hx hu => ?_⟩
    obtain ⟨s, t, u, rfl, hs, ht⟩ := three x hx hu
    have e1 : 0 ≤ s * x1 ∧ s * x1 ≤ x1 := ⟨mul_nonneg hs.1 hx1.le, by nlinarith⟩
    have e2 : 0 ≤ s * x2 ∧ s * x2 ≤ x2 := ⟨mul_nonneg hs.1 hx2.le, by nlinarith⟩
    have e3 : 0 ≤ t * y1 ∧ t * y1 ≤ y1 := ⟨mul_nonneg ht.1 hy1.le, by nlinarith⟩
    have e4 : 0 ≤ t * y2 ∧ t * y2 ≤ y2 := ⟨mul_nonneg ht.1 hy2.le, by nlinarith⟩
    obtain rfl | rfl | rfl | rfl | rfl | rfl : m = 0 ∨ m = 1 ∨ m = 2 ∨ m = 3 ∨ m = 4 ∨ m = 5 := by omega
    · refine ⟨_, rfl, rfl, Or.inl ⟨by decide, Or.inl ⟨?_, ?_, ?_⟩⟩⟩ <;> norm_num [face] <;> linarith
    · refine ⟨_, rfl, rfl, ⟨_, mem 1 (by decide), rfl⟩, _, rfl, Or.inl ?_⟩
      simp [opp, face] <;> ring
    · refine ⟨_, rfl, rfl, Or.inl ⟨by decide, Or.inr (Or.inr (Or.inr (Or.inr (Or.inr ⟨?_, ?_, ?_⟩))))⟩⟩ <;> norm_num [face] <;> linarith
    · refine ⟨_, rfl, rfl, Or.inl ⟨by decide, Or.inr (Or.inl ⟨?_, ?_, ?_⟩)⟩⟩ <;> norm_num [face] <;> linarith
    · cases per
      · refine ⟨_, rfl, rfl, Or.inr (Or.inl ⟨rfl, rfl, ?_⟩)⟩
        norm_num [face]
      · refine ⟨_, rfl, rfl, ⟨_, mem 2 (by decide), rfl⟩, _, rfl, Or.inr ⟨rfl, by decide, ?_⟩⟩
        norm_num [opp, face, Wrapped]
    · cases per
      · refine ⟨_, rfl, rfl, Or.inr (Or.inr ⟨rfl, rfl, ?_⟩)⟩
        norm_num [face]
      · refine ⟨_, rfl, rfl, ⟨_, mem 2 (by decide), rfl⟩, _, rfl, Or.inr ⟨rfl, by decide, ?_⟩⟩
        norm_num [opp, face, Wrapped]

/-- The default steps can be built. -/
example : (step2 0 0 1 1 0.25 0.25).isSome ∧ (step3 0 0 1 1 0.25 0.25 0.25).isSome := by
  constructor <;> norm_num [step2, step3, boxes, linInit, linBounds]

/-! ### Model: cylinder channel -/

/-- A region is a linear transformation or a transfinite mapping. -/
inductive Region
  | lin (p : List (ℝ × ℝ))
  | tf (x0 x1 y0 y1 : Curve)

/-- The mapping of a region. -/
noncomputable def Region.map : Region → List ℝ → Option (List ℝ)
  | .lin p, x => linMap p x
  | .tf x0 x1 y0 y1, [r, s] => some [(tfMap x0 x1 y0 y1 r s).1, (tfMap x0 x1 y0 y1 r s).2]
  | .tf _ _ _ _, _ => none

/-- The eight regions (`cylinder_channel.py:328-371`, two dimensions); `hr = 0.5 * r * sqrt(2)`, `hu = h - hl`. `none` if a
constructor raises. -/
noncomputable def cylinder (r dl dr hl hu : ℝ) : Option (List Region) :=
  let hr := 0.5 * r * √2
  match arcAnti (0, 0) (-hr, -hr) (hr, -hr), arcClock (0, 0) (-hr, -hr) (-hr, hr), arcAnti (0, 0) (hr, -hr) (hr, hr),
    arcClock (0, 0) (-hr, hr) (hr, hr), linInit [-dl, -hr, -hl, -hr], linInit [hr, dr, -hl, -hr],
    linInit [-dl, -hr, hr, hu], linInit [hr, dr, hr, hu] with
  | some a1, some a3, some a4, some a6, some p0, some p2, some p5, some p7 =>
    some [.lin p0,
      .tf (straightLine (-hr, -hl) (-hr, -hr)) (straightLine (hr, -hl) (hr, -hr)) (straightLine (-hr, -hl) (hr, -hl)) a1,
      .lin p2,
      .tf (straightLine (-dl, -hr) (-dl, hr)) a3 (straightLine (-dl, -hr) (-hr, -hr)) (straightLine (-dl, hr) (-hr, hr)),
      .tf a4 (straightLine (dr, -hr) (dr, hr)) (straightLine (hr, -hr) (dr, -hr)) (straightLine (hr, hr) (dr, hr)),
      .lin p5,
      .tf (straightLine (-hr, hr) (-hr, hu)) (straightLine (hr, hr) (hr, hu)) a6 (straightLine (-hr, hu) (hr, hu)),
      .lin p7]
  | _, _, _, _, _, _, _, _ => none

/-- The region map (`cylinder_channel.py:287-296`). -/
def cylTable : List (ℕ × List (Option ℕ)) :=
  [(0, [none, some 1, none, some 3]), (1, [some 0, some 2, none, none]), (2, [some 1, none, none, some 4]),
    (3, [none, none, some 0, some 5]), (4, [none, none, some 2, some 7]), (5, [none, some 6, some 3, none]),
    (6, [some 5, some 7, none, none]), (7, [some 6, none, some 4, none])]

/-- The mapping of region `n` (`mapping_dict`, `cylinder_channel.py:378-387`). -/
noncomputable def regionMap (R : List Region) (n : ℕ) (x : List ℝ) : Option (List ℝ) :=
  match R[n]? with
  | some g => g.map x
  | none => none

/-- `_cylinder_channel_default_element_layout` (`cylinder_channel.py:427-464`) as a function of its three counts. -/
def cylLayout (left right height c : ℕ) : List (List ℕ) :=
  [[left, height], [c, height], [right, height], [left, c], [right, c], [left, height], [c, height], [right, height]]

/-! ### Proofs: cylinder channel -/

/-- A region's four sides are these four curves. -/
def Sides (g : Region) (x0 x1 y0 y1 : ℝ → ℝ × ℝ) : Prop :=
  ∀ t, g.map [0, t] = some [(x0 t).1, (x0 t).2] ∧ g.map [1, t] = some [(x1 t).1, (x1 t).2] ∧
    g.map [t, 0] = some [(y0 t).1, (y0 t).2] ∧ g.map [t, 1] = some [(y1 t).1, (y1 t).2]

theorem sides_lin {a b c d : ℝ} {p : List (ℝ × ℝ)} (h : linInit [a, b, c, d] = some p) :
    Sides (.lin p) (straightLine (a, c) (a, d)).gamma (straightLine (b, c) (b, d)).gamma
      (straightLine (a, c) (b, c)).gamma (straightLine (a, d) (b, d)).gamma := by
  obtain ⟨_, _, rfl⟩ := linInit2 h
  intro t
  simp only [Region.map, linMap, straightLine]
  refine ⟨?_, ?_, ?_, ?_⟩ <;> norm_num <;> ring

theorem sides_tf (x0 x1 y0 y1 : Curve)
    (c00 : x0.gamma 0 = y0.gamma 0) (c10 : x1.gamma 0 = y0.gamma 1)
    (c01 : x0.gamma 1 = y1.gamma 0) (c11 : x1.gamma 1 = y1.gamma 1) :
    Sides (.tf x0 x1 y0 y1) x0.gamma x1.gamma y0.gamma y1.gamma := by
  obtain ⟨h0, h1, h2, h3⟩ := transfinite_sides x0 x1 y0 y1 c00 c10 c01 c11
  intro t
  simp only [Region.map, h0, h1, h2, h3, and_self]

/-- The outline of the channel: the circle of radius `r` around the origin and the four sides of the outer rectangle. -/
def ChannelOutline (r dl dr hl hu : ℝ) (x y : ℝ) : Prop :=
  distance (x, y) (0, 0) = r ∨ (x = -dl ∧ -hl ≤ y ∧ y ≤ hu) ∨ (x = dr ∧ -hl ≤ y ∧ y ≤ hu) ∨
    (y = -hl ∧ -dl ≤ x ∧ x ≤ dr) ∨ (y = hu ∧ -dl ≤ x ∧ x ≤ dr)

theorem outline_line {r dl dr hl hu : ℝ} {p q : ℝ × ℝ} {t : ℝ} (ht : 0 ≤ t ∧ t ≤ 1)
    (hp : -dl ≤ p.1 ∧ p.1 ≤ dr ∧ -hl ≤ p.2 ∧ p.2 ≤ hu) (hq : -dl ≤ q.1 ∧ q.1 ≤ dr ∧ -hl ≤ q.2 ∧ q.2 ≤ hu)
    (h : (p.1 = -dl ∧ q.1 = -dl) ∨ (p.1 = dr ∧ q.1 = dr) ∨ (p.2 = -hl ∧ q.2 = -hl) ∨ (p.2 = hu ∧ q.2 = hu)) :
    ChannelOutline r dl dr hl hu ((straightLine p q).gamma t).1 ((straightLine p q).gamma t).2 := by
  rw [(straightLine_geometry p q).2.2 t]
  obtain ⟨h0, h1⟩ := ht
  have h2 : 0 ≤ 1 - t := by linarith
  obtain ⟨p1, p2, p3, p4⟩ := hp
  obtain ⟨q1, q2, q3, q4⟩ := hq
  have a1 := mul_le_mul_of_nonneg_left p1 h2
  have a2 := mul_le_mul_of_nonneg_left p2 h2
  have a3 := mul_le_mul_of_nonneg_left p3 h2
  have a4 := mul_le_mul_of_nonneg_left p4 h2
  have b1 := mul_le_mul_of_nonneg_left q1 h0
  have b2 := mul_le_mul_of_nonneg_left q2 h0
  have b3 := mul_le_mul_of_nonneg_left q3 h0
  have b4 := mul_le_mul_of_nonneg_left q4 h0
  rcases h with ⟨e1, e2⟩ | ⟨e1, e2⟩ | ⟨e1, e2⟩ | ⟨e1, e2⟩
  · refine Or.inr (Or.inl ⟨?_, ?_, ?_⟩)
    · rw [e1, e2]; ring
    · simp only; linarith
    · simp only; linarith
  · refine Or.inr (Or.inr (Or.inl ⟨?_, ?_, ?_⟩))
    · rw [e1, e2]; ring
    · simp only; linarith
    · simp only; linarith
  · refine Or.inr (Or.inr (Or.inr (Or.inl ⟨?_, ?_, ?_⟩)))
    · rw [e1, e2]; ring
    · simp only; linarith
    · simp only; linarith
  · refine Or.inr (Or.inr (Or.inr (Or.inr ⟨?_, ?_, ?_⟩)))
    · rw [e1, e2]; ring
    · simp only; linarith
    · simp only; linarith

/-- The cylinder channel: whenever it can be built, its eight regions fit together, the sides without neighbour lie on the
circle of radius `r` or on the outer rectangle. -/
theorem cylinder_conforming (r dl dr hl hu : ℝ) (hr : 0 < r) (R : List Region) (h : cylinder r dl dr hl hu = some R) :
    Conforming 2 cylTable (regionMap R) (fun _ p => ChannelOutline r dl dr hl hu (p.getD 0 0) (p.getD 1 0))
      (fun _ p q => p = q) := by
  unfold cylinder at h
  simp only at h
  have hc0 : 0 < 0.5 * r * √2 := by positivity
  have hc2 : (0.5 * r * √2) ^ 2 * 2 = r ^ 2 := by
    have := Real.sq_sqrt (by norm_num : (0 : ℝ) ≤ 2)
    rw [mul_pow, mul_pow, this]
    norm_num
    ring
  generalize 0.5 * r * √2 = c at h hc0 hc2
  split at h
  case h_2 => simp at h
  case h_1 a1 a3 a4 a6 p0 p2 p5 p7 e1 e3 e4 e6 l0 l2 l5 l7 =>
  obtain rfl := Option.some.inj h
  clear h
  have dist : ∀ x y : ℝ, x ^ 2 = c ^ 2 → y ^ 2 = c ^ 2 → distance (x, y) (0, 0) = r := by
    intro x y hx hy
    unfold distance
    simp only [sub_zero]
    rw [hx, hy, ← two_mul, mul_comm, hc2, Real.sqrt_sq hr.le]
  have ne : ∀ x y : ℝ, x ^ 2 = c ^ 2 → (x, y) ≠ ((0 : ℝ), (0 : ℝ)) := by
    intro x y hx e
    rw [Prod.mk.injEq] at e
    rw [e.1] at hx
    nlinarith
  have sq : (-c) ^ 2 = c ^ 2 := by ring
  obtain ⟨g10, -, g11, g1c⟩ := arc_geometry _ _ _ _ (Or.inl e1) (ne _ _ sq) (ne _ _ rfl)
  obtain ⟨g30, -, g31, g3c⟩ := arc_geometry _ _ _ _ (Or.inr e3) (ne _ _ sq) (ne _ _ sq)
  obtain ⟨g40, -, g41, g4c⟩ := arc_geometry _ _ _ _ (Or.inl e4) (ne _ _ rfl) (ne _ _ rfl)
  obtain ⟨g60, -, g61, g6c⟩ := arc_geometry _ _ _ _ (Or.inr e6) (ne _ _ sq) (ne _ _ rfl)
  replace g11 := g11 (by rw [dist _ _ sq sq, dist _ _ rfl sq])
  replace g31 := g31 (by rw [dist _ _ sq sq, dist _ _ sq rfl])
  replace g41 := g41 (by rw [dist _ _ rfl sq, dist _ _ rfl rfl])
  replace g61 := g61 (by rw [dist _ _ sq rfl, dist _ _ rfl rfl])
  rw [dist _ _ sq sq] at g1c g3c
  rw [dist _ _ rfl sq] at g4c
  rw [dist _ _ sq rfl] at g6c
  have L0 := fun p q => (straightLine_geometry p q).1
  have L1 := fun p q => (straightLine_geometry p q).2.1
  have S0 := sides_lin l0
  have S2 := sides_lin l2
  have S5 := sides_lin l5
  have S7 := sides_lin l7
  have S1 := sides_tf (straightLine (-c, -hl) (-c, -c)) (straightLine (c, -hl) (c, -c))
    (straightLine (-c, -hl) (c, -hl)) a1 (by simp only [L0]) (by simp only [L0, L1]) (by simp only [L1, g10])
    (by simp only [L1, g11])
  have S3 := sides_tf (straightLine (-dl, -c) (-dl, c)) a3 (straightLine (-dl, -c) (-c, -c))
    (straightLine (-dl, c) (-c, c)) (by simp only [L0]) (by simp only [L1, g30]) (by simp only [L0, L1])
    (by simp only [L1, g31])
  have S4 := sides_tf a4 (straightLine (dr, -c) (dr, c)) (straightLine (c, -c) (dr, -c)) (straightLine (c, c) (dr, c))
    (by simp only [L0, g40]) (by simp only [L0, L1]) (by simp only [L0, g41]) (by simp only [L1])
  have S6 := sides_tf (straightLine (-c, c) (-c, hu)) (straightLine (c, c) (c, hu)) a6 (straightLine (-c, hu) (c, hu))
    (by simp only [L0, g60]) (by simp only [L0, g61]) (by simp only [L0, L1]) (by simp only [L1])
  obtain ⟨i0, i1, -⟩ := linInit2 l0
  obtain ⟨i2, -, -⟩ := linInit2 l2
  obtain ⟨-, i5, -⟩ := linInit2 l5
  clear e1 e3 e4 e6 l0 l2 l5 l7
  have two : ∀ x : List ℝ, x.length = 2 → (∀ t ∈ x, 0 ≤ t ∧ t ≤ 1) →
      ∃ s t, x = [s, t] ∧ (0 ≤ s ∧ s ≤ 1) ∧ (0 ≤ t ∧ t ≤ 1) := by
    intro x hx hu
    match x, hx with
    | [s, t], _ => exact ⟨s, t, rfl, hu s (by simp), hu t (by simp)⟩
  refine ⟨by decide, fun n row hm => ?_⟩
  simp only [cylTable, List.mem_cons, List.not_mem_nil, or_false, Prod.mk.injEq] at hm
  rcases hm with ⟨rfl, rfl⟩ | ⟨rfl, rfl⟩ | ⟨rfl, rfl⟩ | ⟨rfl, rfl⟩ | ⟨rfl, rfl⟩ | ⟨rfl, rfl⟩ | ⟨rfl, rfl⟩ | ⟨rfl, rfl⟩
  · refine ⟨rfl, fun m hm x hx hu' => ?_⟩
    obtain ⟨s, t, rfl, hs, ht⟩ := two x hx hu'
    obtain rfl | rfl | rfl | rfl : m = 0 ∨ m = 1 ∨ m = 2 ∨ m = 3 := by omega
    · refine ⟨_, (S0 t).1, rfl, ?_⟩
      exact outline_line ht (by refine ⟨?_, ?_, ?_, ?_⟩ <;> simp only <;> linarith)
        (by refine ⟨?_, ?_, ?_, ?_⟩ <;> simp only <;> linarith) (Or.inl ⟨rfl, rfl⟩)
    · refine ⟨_, (S0 t).2.1, rfl, ?_⟩
      exact ⟨⟨[some 0, some 2, none, none], by decide, rfl⟩, _, (S1 t).1, rfl⟩
    · refine ⟨_, (S0 s).2.2.1, rfl, ?_⟩
      exact outline_line hs (by refine ⟨?_, ?_, ?_, ?_⟩ <;> simp only <;> linarith)
        (by refine ⟨?_, ?_, ?_, ?_⟩ <;> simp only <;> linarith) (Or.inr (Or.inr (Or.inl ⟨rfl, rfl⟩)))
    · refine ⟨_, (S0 s).2.2.2, rfl, ?_⟩
      exact ⟨⟨[none, none, some 0, some 5], by decide, rfl⟩, _, (S3 s).2.2.1, rfl⟩
  · refine ⟨rfl, fun m hm x hx hu' => ?_⟩
    obtain ⟨s, t, rfl, hs, ht⟩ := two x hx hu'
    obtain rfl | rfl | rfl | rfl : m = 0 ∨ m = 1 ∨ m = 2 ∨ m = 3 := by omega
    · refine ⟨_, (S1 t).1, rfl, ?_⟩
      exact ⟨⟨[none, some 1, none, some 3], by decide, rfl⟩, _, (S0 t).2.1, rfl⟩
    · refine ⟨_, (S1 t).2.1, rfl, ?_⟩
      exact ⟨⟨[some 1, none, none, some 4], by decide, rfl⟩, _, (S2 t).1, rfl⟩
    · refine ⟨_, (S1 s).2.2.1, rfl, ?_⟩
      exact outline_line hs (by refine ⟨?_, ?_, ?_, ?_⟩ <;> simp only <;> linarith)
        (by refine ⟨?_, ?_, ?_, ?_⟩ <;> simp only <;> linarith) (Or.inr (Or.inr (Or.inl ⟨rfl, rfl⟩)))
    · refine ⟨_, (S1 s).2.2.2, rfl, ?_⟩
      exact Or.inl (g1c _)
  · refine ⟨rfl, fun m hm x hx hu' => ?_⟩
    obtain ⟨s, t, rfl, hs, ht⟩ := two x hx hu'
    obtain rfl | rfl | rfl | rfl : m = 0 ∨ m = 1 ∨ m = 2 ∨ m = 3 := by omega
    · refine ⟨_, (S2 t).1, rfl, ?_⟩
      exact ⟨⟨[some 0, some 2, none, none], by decide, rfl⟩, _, (S1 t).2.1, rfl⟩
    · refine ⟨_, (S2 t).2.1, rfl, ?_⟩
      exact outline_line ht (by refine ⟨?_, ?_, ?_, ?_⟩ <;> simp only <;> linarith)
        (by refine ⟨?_, ?_, ?_, ?_⟩ <;> simp only <;> linarith) (Or.inr (Or.inl ⟨rfl, rfl⟩))
    · refine ⟨_, (S2 s).2.2.1, rfl, ?_⟩
      exact outline_line hs (by refine ⟨?_, ?_, ?_, ?_⟩ <;> simp only <;> linarith)
        (by refine ⟨?_, ?_, ?_, ?_⟩ <;> simp only <;> linarith) (Or.inr (Or.inr (Or.inl ⟨rfl, rfl⟩)))
    · refine ⟨_, (S2 s).2.2.2, rfl, ?_⟩
      exact ⟨⟨[none, none, some 2, some 7], by decide, rfl⟩, _, (S4 s).2.2.1, rfl⟩
  · refine ⟨rfl, fun m hm x hx hu' => ?_⟩
    obtain ⟨s, t, rfl, hs, ht⟩ := two x hx hu'
    obtain rfl | rfl | rfl | rfl : m = 0 ∨ m = 1 ∨ m = 2 ∨ m = 3 := by omega
    · refine ⟨_, (S3 t).1, rfl, ?_⟩
      exact outline_line ht (by refine ⟨?_, ?_, ?_, ?_⟩ <;> simp only <;> linarith)
        (by refine ⟨?_, ?_, ?_, ?_⟩ <;> simp only <;> linarith) (Or.inl ⟨rfl, rfl⟩)
    · refine ⟨_, (S3 t).2.1, rfl, ?_⟩
      exact Or.inl (g3c _)
    · refine ⟨_, (S3 s).2.2.1, rfl, ?_⟩
      exact ⟨⟨[none, some 1, none, some 3], by decide, rfl⟩, _, (S0 s).2.2.2, rfl⟩
    · refine ⟨_, (S3 s).2.2.2, rfl, ?_⟩
      exact ⟨⟨[none, some 6, some 3, none], by decide, rfl⟩, _, (S5 s).2.2.1, rfl⟩
  · refine ⟨rfl, fun m hm x hx hu' => ?_⟩
    obtain ⟨s, t, rfl, hs, ht⟩ := two x hx hu'
    obtain rfl | rfl | rfl | rfl : m = 0 ∨ m = 1 ∨ m = 2 ∨ m = 3 := by omega
    · refine ⟨_, (S4 t).1, rfl, ?_⟩
      exact Or.inl (g4c _)
    · refine ⟨_, (S4 t).2.1, rfl, ?_⟩
      exact outline_line ht (by refine ⟨?_, ?_, ?_, ?_⟩ <;> simp only <;> linarith)
        (by refine ⟨?_, ?_, ?_, ?_⟩ <;> simp only <;> linarith) (Or.inr (Or.inl ⟨rfl, rfl⟩))
    · refine ⟨_, (S4 s).2.2.1, rfl, ?_⟩
      exact ⟨⟨[some 1, none, none, some 4], by decide, rfl⟩, _, (S2 s).2.2.2, rfl⟩
    · refine ⟨_, (S4 s).2.2.2, rfl, ?_⟩
      exact ⟨⟨[some 6, none, some 4, none], by decide, rfl⟩, _, (S7 s).2.2.1, rfl⟩
  · refine ⟨rfl, fun m hm x hx hu' => ?_⟩
    obtain ⟨s, t, rfl, hs, ht⟩ := two x hx hu'
    obtain rfl | rfl | rfl | rfl : m = 0 ∨ m = 1 ∨ m = 2 ∨ m = 3 := by omega
    · refine ⟨_, (S5 t).1, rfl, ?_⟩
      exact outline_line ht (by refine ⟨?_, ?_, ?_, ?_⟩ <;> simp only <;> linarith)
        (by refine ⟨?_, ?_, ?_, ?_⟩ <;> simp only <;> linarith) (Or.inl ⟨rfl, rfl⟩)
    · refine ⟨_, (S5 t).2.1, rfl, ?_⟩
      exact ⟨⟨[some 5, some 7, none, none], by decide, rfl⟩, _, (S6 t).1, rfl⟩
    · refine ⟨_, (S5 s).2.2.1, rfl, ?_⟩
      exact ⟨⟨[none, none, some 0, some 5], by decide, rfl⟩, _, (S3 s).2.2.2, rfl⟩
    · refine ⟨_, (S5 s).2.2.2, rfl, ?_⟩
      exact outline_line hs (by refine ⟨?_, ?_, ?_, ?_⟩ <;> simp only <;> linarith)
        (by refine ⟨?_, ?_, ?_, ?_⟩ <;> simp only <;> linarith) (Or.inr (Or.inr (Or.inr ⟨rfl, rfl⟩)))
  · refine ⟨rfl, fun m hm x hx hu' => ?_⟩
    obtain ⟨s, t, rfl, hs, ht⟩ := two x hx hu'
    obtain rfl | rfl | rfl | rfl : m = 0 ∨ m = 1 ∨ m = 2 ∨ m = 3 := by omega
    · refine ⟨_, (S6 t).1, rfl, ?_⟩
      exact ⟨⟨[none, some 6, some 3, none], by decide, rfl⟩, _, (S5 t).2.1, rfl⟩
    · refine ⟨_, (S6 t).2.1, rfl, ?_⟩
      exact ⟨⟨[some 6, none, some 4, none], by decide, rfl⟩, _, (S7 t).1, rfl⟩
    · refine ⟨_, (S6 s).2.2.1, rfl, ?_⟩
      exact Or.inl (g6c _)
    · refine ⟨_, (S6 s).2.2.2, rfl, ?_⟩
      exact outline_line hs (by refine ⟨?_, ?_, ?_, ?_⟩ <;> simp only <;> linarith)
        (by refine ⟨?_, ?_, ?_, ?_⟩ <;> simp only <;> linarith) (Or.inr (Or.inr (Or.inr ⟨rfl, rfl⟩)))
  · refine ⟨rfl, fun m hm x hx hu' => ?_⟩
    obtain ⟨s, t, rfl, hs, ht⟩ := two x hx hu'
    obtain rfl | rfl | rfl | rfl : m = 0 ∨ m = 1 ∨ m = 2 ∨ m = 3 := by omega
    · refine ⟨_, (S7 t).1, rfl, ?_⟩
      exact ⟨⟨[some 5, some 7, none, none], by decide, rfl⟩, _, (S6 t).2.1, rfl⟩
    · refine ⟨_, (S7 t).2.1, rfl, ?_⟩
      exact outline_line ht (by refine ⟨?_, ?_, ?_, ?_⟩ <;> simp only <;> linarith)
        (by refine ⟨?_, ?_, ?_, ?_⟩ <;> simp only <;> linarith) (Or.inr (Or.inl ⟨rfl, rfl⟩))
    · refine ⟨_, (S7 s).2.2.1, rfl, ?_⟩
      exact ⟨⟨[none, none, some 2, some 7], by decide, rfl⟩, _, (S4 s).2.2.2, rfl⟩
    · refine ⟨_, (S7 s).2.2.2, rfl, ?_⟩
      exact outline_line hs (by refine ⟨?_, ?_, ?_, ?_⟩ <;> simp only <;> linarith)
        (by refine ⟨?_, ?_, ?_, ?_⟩ <;> simp only <;> linarith) (Or.inr (Or.inr (Or.inr ⟨rfl, rfl⟩)))

/-- The default channel can be built. -/
example : (cylinder 1 8 25 3 3).isSome := by
  have h0 : (0.5 : ℝ) * 1 * √2 < 1 := by
    have := Real.sqrt_lt_sqrt (by norm_num) (by norm_num : (2 : ℝ) < 2 ^ 2)
    rw [Real.sqrt_sq (by norm_num)] at this
    linarith
  have h1 : 0 < (0.5 : ℝ) * 1 * √2 := by positivity
  unfold cylinder
  simp only
  generalize (0.5 : ℝ) * 1 * √2 = c at h0 h1
  have box : ∀ a b c d : ℝ, a < b → c < d → linInit [a, b, c, d] = some [(a, b - a), (c, d - c)] := by
    intro a b c d h h'
    norm_num [linInit, linBounds, h, h']
  rw [box _ _ _ _ (by linarith) (by linarith), box _ _ _ _ (by linarith) (by linarith),
    box _ _ _ _ (by linarith) (by linarith), box _ _ _ _ (by linarith) (by linarith)]
  have d : ∀ p q : ℝ × ℝ, distance p (0, 0) = distance q (0, 0) → |distance p (0, 0) - distance q (0, 0)| < 10e-13 := by
    intro p q h
    rw [h]
    norm_num
  unfold arcAnti arcClock
  rw [if_pos (d _ _ (by simp [distance])), if_pos (d _ _ (by simp [distance])), if_pos (d _ _ (by simp [distance])),
    if_pos (d _ _ (by simp [distance]))]
  rfl

/-- The default element layout has the same number of elements on both sides of every interface. -/
theorem cylinder_layout_matches (left right height c : ℕ) :
    ∀ n row, (n, row) ∈ cylTable → ∀ m, m < 4 → ∀ j, row.getD m none = some j →
      ((cylLayout left right height c).getD n []).getD (1 - m / 2) 0 =
        ((cylLayout left right height c).getD j []).getD (1 - m / 2) 0 := by
  intro n row h m hm j hj
  simp only [cylTable, List.mem_cons, List.not_mem_nil, or_false, Prod.mk.injEq] at h
  have hm' : m = 0 ∨ m = 1 ∨ m = 2 ∨ m = 3 := by omega
  rcases h with ⟨rfl, rfl⟩ | ⟨rfl, rfl⟩ | ⟨rfl, rfl⟩ | ⟨rfl, rfl⟩ | ⟨rfl, rfl⟩ | ⟨rfl, rfl⟩ | ⟨rfl, rfl⟩ | ⟨rfl, rfl⟩ <;>
  rcases hm' with rfl | rfl | rfl | rfl <;>
  simp at hj <;> subst hj <;> rfl

/-- The default layout has a pair of counts for each of the eight regions; the side at the cylinder of each of the four regions around
it (above and below along `x`, left and right along `y`) has `c` elements, which makes `4 * c` around the cylinder, as documented; the
columns left and right of the cylinder have `left` and `right` elements along `x`, the rows above and below `height` along `y`. -/
theorem cylinder_layout_counts (left right height c : ℕ) :
    (cylLayout left right height c).length = 8 ∧
    (∀ n ∈ [1, 6], ((cylLayout left right height c).getD n []).head? = some c) ∧
    (∀ n ∈ [3, 4], ((cylLayout left right height c).getD n [])[1]? = some c) ∧
    (∀ n ∈ [0, 3, 5], ((cylLayout left right height c).getD n []).head? = some left) ∧
    (∀ n ∈ [2, 4, 7], ((cylLayout left right height c).getD n []).head? = some right) ∧
    (∀ n ∈ [0, 1, 2, 5, 6, 7], ((cylLayout left right height c).getD n [])[1]? = some height) ∧
    ∀ l ∈ cylLayout left right height c, l.length = 2 := by
  simp [cylLayout]

end Phyem.Geometry
