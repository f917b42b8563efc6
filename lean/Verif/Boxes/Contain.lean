import Verif.Boxes.Dofs
import Mathlib.Data.Set.Basic
import Mathlib.Data.Fin.VecNotation
import Mathlib.Data.Fintype.Basic
import Mathlib.Tactic.FinCases

/-!
# What the containment tests decide

A point is a triple of coordinates. One object contains another exactly if every point of the other is, in every coordinate, within `1e-8` of a point
of it.
-/

namespace Phyem.Boxes

/-- The points of a segment. -/
def segPts (s : OSeg) : Set (Fin 3 → ℚ) := {p | s.bounds.1 ≤ p s.axis ∧ p s.axis ≤ s.bounds.2 ∧ p (s.axis + 1) = s.line.1 ∧ p (s.axis + 2) = s.line.2}

/-- The points of a rectangle. -/
def rectPts (r : PRect) : Set (Fin 3 → ℚ) := {p | p r.axis = r.face ∧ (r.bounds0.1 ≤ p (r.axis + 1) ∧ p (r.axis + 1) ≤ r.bounds0.2) ∧
  (r.bounds1.1 ≤ p (r.axis + 2) ∧ p (r.axis + 2) ≤ r.bounds1.2)}

/-- The points between the bounds of a box. -/
def hexaPts (h : Hexa) : Set (Fin 3 → ℚ) := {p | (h.bounds0.1 ≤ p 0 ∧ p 0 ≤ h.bounds0.2) ∧ (h.bounds1.1 ≤ p 1 ∧ p 1 ≤ h.bounds1.2) ∧
  (h.bounds2.1 ≤ p 2 ∧ p 2 ≤ h.bounds2.2)}

/-- Every point of `B` is, in every coordinate, within the tolerance of a point of `A`. -/
def Within (A B : Set (Fin 3 → ℚ)) : Prop := ∀ p ∈ B, ∃ q ∈ A, ∀ c, |p c - q c| ≤ tol

/-- `x` is between `a` and `a + d`. -/
def Between (a d x : ℚ) : Prop := (a ≤ x ∧ x ≤ a + d) ∨ (a + d ≤ x ∧ x ≤ a)

lemma sort2_between (a d x : ℚ) : (sort2 a (a + d)).1 ≤ x ∧ x ≤ (sort2 a (a + d)).2 ↔ Between a d x := by
  unfold sort2 Between
  split_ifs with h
  · exact ⟨Or.inl, fun h' => h'.elim id fun h' => ⟨by linarith, by linarith⟩⟩
  · exact ⟨Or.inr, fun h' => h'.elim (fun h' => ⟨by linarith, by linarith⟩) id⟩

lemma sort2_wide {a d : ℚ} (h : |d| > least) : (sort2 a (a + d)).1 + least < (sort2 a (a + d)).2 := by
  unfold sort2
  split_ifs with h'
  · dsimp only; rw [abs_of_nonneg (by linarith)] at h; linarith
  · dsimp only; rw [abs_of_neg (by linarith)] at h; linarith

/-- **C159.** What the constructors give: a segment has the points from the origin on along its axis, and is accepted if it is longer than `1e-4`. -/
theorem mkSeg_points (axis : Fin 3) (o : P3) (l : ℚ) :
    (∀ s, mkSeg axis o l = some s → segPts s = {p | Between (o.at axis) l (p axis) ∧ p (axis + 1) = o.at (axis + 1) ∧ p (axis + 2) = o.at (axis + 2)}) ∧
      ((mkSeg axis o l).isSome = true ↔ least < |l|) := by
  unfold mkSeg
  refine ⟨fun s h => ?_, ?_⟩
  · split_ifs at h with h1
    · obtain rfl := Option.some.inj h
      ext p
      simp only [segPts, Set.mem_ofPred_eq, ← sort2_between, and_assoc]
  · split_ifs with h1
    · simpa using h1
    · simpa using h1

/-- **C159.** A rectangle has the points between its origin and the opposite corner. -/
theorem mkRect_points (axis : Fin 3) (o d : P3) :
    (∀ s, mkRect axis o d = some s → rectPts s = {p | p axis = o.at axis ∧ Between (o.at (axis + 1)) (d.at (axis + 1)) (p (axis + 1)) ∧
      Between (o.at (axis + 2)) (d.at (axis + 2)) (p (axis + 2))}) ∧
      ((mkRect axis o d).isSome = true ↔ d.at axis = 0 ∧ least < |d.at (axis + 1)| ∧ least < |d.at (axis + 2)|) := by
  unfold mkRect
  refine ⟨fun s h => ?_, ?_⟩
  · split_ifs at h with h1
    · obtain rfl := Option.some.inj h
      ext p
      simp only [rectPts, Set.mem_ofPred_eq, ← sort2_between]
  · split_ifs with h1
    · simpa using h1
    · simpa using h1

/-- **C159.** A box has the points between its origin and the opposite corner if its sides along x and y are the same. -/
theorem mkHexa_points_partial (o d : P3) (hd : d.1 = d.2.1) :
    (∀ s, mkHexa o d = some s → hexaPts s = {p | Between o.1 d.1 (p 0) ∧ Between o.2.1 d.2.1 (p 1) ∧ Between o.2.2 d.2.2 (p 2)}) ∧
      ((mkHexa o d).isSome = true ↔ least < |d.1| ∧ least < |d.2.1| ∧ least < |d.2.2|) := by
  unfold mkHexa
  refine ⟨fun s h => ?_, ?_⟩
  · split_ifs at h with h1
    · obtain rfl := Option.some.inj h
      ext p
      simp only [hexaPts, Set.mem_ofPred_eq, ← sort2_between, hd]
  · split_ifs with h1
    · simpa using h1
    · simpa using h1

/-- Longer than the least side; so are all segments the constructor gives. -/
def OSeg.Wide (s : OSeg) : Prop := s.bounds.1 + least < s.bounds.2
@[inherit_doc OSeg.Wide] def PRect.Wide (r : PRect) : Prop := r.bounds0.1 + least < r.bounds0.2 ∧ r.bounds1.1 + least < r.bounds1.2
@[inherit_doc OSeg.Wide] def Hexa.Wide (h : Hexa) : Prop := h.bounds0.1 + least < h.bounds0.2 ∧ h.bounds1.1 + least < h.bounds1.2 ∧ h.bounds2.1 + least < h.bounds2.2

lemma mkSeg_wide {axis : Fin 3} {o : P3} {l : ℚ} {s : OSeg} (h : mkSeg axis o l = some s) : s.Wide := by
  unfold mkSeg at h
  split_ifs at h with h1
  obtain rfl := Option.some.inj h
  exact sort2_wide h1

lemma mkRect_wide {axis : Fin 3} {o d : P3} {s : PRect} (h : mkRect axis o d = some s) : s.Wide := by
  unfold mkRect at h
  split_ifs at h with h1
  obtain rfl := Option.some.inj h
  exact ⟨sort2_wide h1.2.1, sort2_wide h1.2.2⟩

lemma mkHexa_wide {o d : P3} {s : Hexa} (h : mkHexa o d = some s) : s.Wide := by
  unfold mkHexa at h
  split_ifs at h with h1
  obtain rfl := Option.some.inj h
  exact ⟨sort2_wide h1.2.1, sort2_wide h1.2.1, sort2_wide h1.2.2⟩

lemma tol_least : 2 * tol < least := by norm_num [tol, least]

/-- The nearest number between bounds. -/
def clamp (b : ℚ × ℚ) (x : ℚ) : ℚ := max b.1 (min x b.2)

lemma clamp_in {b : ℚ × ℚ} (h : b.1 ≤ b.2) (x : ℚ) : b.1 ≤ clamp b x ∧ clamp b x ≤ b.2 := ⟨le_max_left _ _, max_le h (min_le_right _ _)⟩

lemma clamp_near {b : ℚ × ℚ} {x : ℚ} (h1 : b.1 - x ≤ tol) (h2 : x - b.2 ≤ tol) : |x - clamp b x| ≤ tol := by
  have ht := tol_pos
  unfold clamp
  rcases le_total x b.2 with h | h
  · rw [min_eq_left h]
    rcases le_total b.1 x with h' | h'
    · rw [max_eq_right h']; simpa using ht.le
    · rw [max_eq_left h', abs_of_nonpos (by linarith)]; linarith
  · rw [min_eq_right h]
    rcases le_total b.1 b.2 with h' | h'
    · rw [max_eq_right h', abs_of_nonneg (by linarith)]; linarith
    · rw [max_eq_left h', abs_le]; constructor <;> linarith

lemma axes (a b : Fin 3) : b = a ∨ b = a + 1 ∨ b = a + 2 := by revert a b; decide

lemma axes_ne (a : Fin 3) : a + 1 ≠ a ∧ a + 2 ≠ a ∧ a + 2 ≠ a + 1 := by revert a; decide

/-- A point with given coordinates along an axis, the next and the one after. -/
def place (a : Fin 3) (u v w : ℚ) : Fin 3 → ℚ := fun c => if c = a then u else if c = a + 1 then v else w

lemma place_at (a : Fin 3) (u v w : ℚ) : place a u v w a = u ∧ place a u v w (a + 1) = v ∧ place a u v w (a + 2) = w := by
  obtain ⟨h1, h2, h3⟩ := axes_ne a
  refine ⟨if_pos rfl, ?_, ?_⟩
  · unfold place; rw [if_neg h1, if_pos rfl]
  · unfold place; rw [if_neg h2, if_neg h3]

lemma forall_axes (a : Fin 3) {P : Fin 3 → Prop} : (∀ c, P c) ↔ P a ∧ P (a + 1) ∧ P (a + 2) :=
  ⟨fun h => ⟨h _, h _, h _⟩, fun ⟨h1, h2, h3⟩ c => by rcases axes a c with rfl | rfl | rfl <;> assumption⟩

lemma inSeg_iff (a b : OSeg) : inSeg a b = true ↔ a.axis = b.axis ∧ |a.line.1 - b.line.1| ≤ tol ∧ |a.line.2 - b.line.2| ≤ tol ∧
    a.bounds.1 - b.bounds.1 ≤ tol ∧ b.bounds.2 - a.bounds.2 ≤ tol := by
  unfold inSeg
  split_ifs with h1 h2 h3
  · exact ⟨fun h => (by cases h), fun h => absurd h.1 h1⟩
  · exact ⟨fun h => (by cases h), fun h => absurd h2 (by push Not; exact ⟨h.2.1, h.2.2.1⟩)⟩
  · exact ⟨fun h => (by cases h), fun h => absurd h3 (by push Not; exact ⟨h.2.2.2.1, h.2.2.2.2⟩)⟩
  · push Not at h1 h2 h3
    exact ⟨fun _ => ⟨h1, h2.1, h2.2, h3.1, h3.2⟩, fun _ => rfl⟩

/-- **C159.** A segment contains another one exactly if every point of the other is within `1e-8` of a point of it. -/
theorem inSeg_spec {a b : OSeg} (ha : a.Wide) (hb : b.Wide) : inSeg a b = true ↔ Within (segPts a) (segPts b) := by
  rw [inSeg_iff]
  have hl := least_pos
  have ht := tol_least
  have h0 := tol_pos
  unfold OSeg.Wide at ha hb
  obtain ⟨u1, u2, u3⟩ := place_at b.axis b.bounds.1 b.line.1 b.line.2
  obtain ⟨v1, v2, v3⟩ := place_at b.axis b.bounds.2 b.line.1 b.line.2
  constructor
  · rintro ⟨h1, h2, h3, h4, h5⟩ p ⟨p1, p2, p3, p4⟩
    rw [← h1] at p1 p2 p3 p4
    obtain ⟨q1, q2, q3⟩ := place_at a.axis (clamp a.bounds (p a.axis)) a.line.1 a.line.2
    refine ⟨place a.axis (clamp a.bounds (p a.axis)) a.line.1 a.line.2, ?_, (forall_axes a.axis).2 ⟨?_, ?_, ?_⟩⟩
    · have := clamp_in (b := a.bounds) (by linarith) (p a.axis)
      exact ⟨by rw [q1]; exact this.1, by rw [q1]; exact this.2, q2, q3⟩
    · rw [q1]; exact clamp_near (by linarith) (by linarith)
    · rw [q2, p3, abs_sub_comm]; exact h2
    · rw [q3, p4, abs_sub_comm]; exact h3
  · intro h
    obtain ⟨q, ⟨qa, qb, qc, qd⟩, hq⟩ := h _ (show place b.axis b.bounds.1 b.line.1 b.line.2 ∈ segPts b from ⟨u1.ge, by rw [u1]; linarith, u2, u3⟩)
    obtain ⟨r, ⟨ra, rb, rc, rd⟩, hr⟩ := h _ (show place b.axis b.bounds.2 b.line.1 b.line.2 ∈ segPts b from ⟨by rw [v1]; linarith, v1.le, v2, v3⟩)
    obtain ⟨q1, q2, q3⟩ := (forall_axes b.axis).1 hq
    obtain ⟨r1, r2, r3⟩ := (forall_axes b.axis).1 hr
    rw [u1] at q1; rw [u2] at q2; rw [u3] at q3
    rw [v1] at r1; rw [v2] at r2; rw [v3] at r3
    rcases axes a.axis b.axis with e | e | e
    · rw [e] at q1 q2 q3 r1 r2 r3
      rw [qc] at q2; rw [qd] at q3
      rw [abs_le] at q1 r1
      exact ⟨e.symm, by rw [abs_sub_comm]; exact q2, by rw [abs_sub_comm]; exact q3, by linarith, by linarith⟩
    · rw [e, qc, abs_le] at q1
      rw [e, rc, abs_le] at r1
      linarith
    · rw [e, qd, abs_le] at q1
      rw [e, rd, abs_le] at r1
      linarith

lemma inRect_iff (a b : PRect) : inRect a b = true ↔ a.axis = b.axis ∧ |a.face - b.face| ≤ tol ∧
    (a.bounds0.1 - b.bounds0.1 ≤ tol ∧ b.bounds0.2 - a.bounds0.2 ≤ tol) ∧ (a.bounds1.1 - b.bounds1.1 ≤ tol ∧ b.bounds1.2 - a.bounds1.2 ≤ tol) := by
  unfold inRect
  split_ifs with h1 h2 h3
  · refine ⟨fun h => (by cases h), fun h => ?_⟩
    rcases h1 with h1 | h1
    · exact absurd h.1 h1
    · exact absurd h.2.1 (by push Not; exact h1)
  · exact ⟨fun h => (by cases h), fun h => absurd h2 (by push Not; exact h.2.2.1)⟩
  · exact ⟨fun h => (by cases h), fun h => absurd h3 (by push Not; exact h.2.2.2)⟩
  · push Not at h1 h2 h3
    exact ⟨fun _ => ⟨h1.1, h1.2, h2, h3⟩, fun _ => rfl⟩

lemma rect_corner (b : PRect) {u v : ℚ} (hu : b.bounds0.1 ≤ u ∧ u ≤ b.bounds0.2) (hv : b.bounds1.1 ≤ v ∧ v ≤ b.bounds1.2) :
    place b.axis b.face u v ∈ rectPts b := by
  obtain ⟨u1, u2, u3⟩ := place_at b.axis b.face u v
  exact ⟨u1, by rw [u2]; exact hu, by rw [u3]; exact hv⟩

/-- **C159.** A rectangle contains another one exactly if every point of the other is within `1e-8` of a point of it. -/
theorem inRect_spec {a b : PRect} (ha : a.Wide) (hb : b.Wide) : inRect a b = true ↔ Within (rectPts a) (rectPts b) := by
  rw [inRect_iff]
  have hl := least_pos
  have ht := tol_least
  have h0 := tol_pos
  obtain ⟨a0, a1⟩ := ha
  obtain ⟨b0, b1⟩ := hb
  constructor
  · rintro ⟨h1, h2, ⟨h3, h4⟩, ⟨h5, h6⟩⟩ p ⟨p1, ⟨p2, p3⟩, ⟨p4, p5⟩⟩
    rw [← h1] at p1 p2 p3 p4 p5
    obtain ⟨q1, q2, q3⟩ := place_at a.axis a.face (clamp a.bounds0 (p (a.axis + 1))) (clamp a.bounds1 (p (a.axis + 2)))
    refine ⟨place a.axis a.face (clamp a.bounds0 (p (a.axis + 1))) (clamp a.bounds1 (p (a.axis + 2))), ?_, (forall_axes a.axis).2 ⟨?_, ?_, ?_⟩⟩
    · refine ⟨q1, ?_, ?_⟩
      · rw [q2]; exact clamp_in (by linarith) _
      · rw [q3]; exact clamp_in (by linarith) _
    · rw [q1, p1, abs_sub_comm]; exact h2
    · rw [q2]; exact clamp_near (by linarith) (by linarith)
    · rw [q3]; exact clamp_near (by linarith) (by linarith)
  · intro h
    obtain ⟨u1, u2, u3⟩ := place_at b.axis b.face b.bounds0.1 b.bounds1.1
    obtain ⟨v1, v2, v3⟩ := place_at b.axis b.face b.bounds0.2 b.bounds1.2
    obtain ⟨q, ⟨qa, ⟨qb, qc⟩, ⟨qd, qe⟩⟩, hq⟩ := h _ (rect_corner b (u := b.bounds0.1) (v := b.bounds1.1) ⟨le_refl _, by linarith⟩ ⟨le_refl _, by linarith⟩)
    obtain ⟨r, ⟨ra, ⟨rb, rc⟩, ⟨rd, re⟩⟩, hr⟩ := h _ (rect_corner b (u := b.bounds0.2) (v := b.bounds1.2) ⟨by linarith, le_refl _⟩ ⟨by linarith, le_refl _⟩)
    obtain ⟨q1, q2, q3⟩ := (forall_axes b.axis).1 hq
    obtain ⟨r1, r2, r3⟩ := (forall_axes b.axis).1 hr
    rw [u1] at q1; rw [u2] at q2; rw [u3] at q3
    rw [v1] at r1; rw [v2] at r2; rw [v3] at r3
    rcases axes b.axis a.axis with e | e | e
    · rw [e] at qa qb qc qd qe ra rb rc rd re
      rw [qa] at q1
      rw [abs_le] at q2 q3 r2 r3
      exact ⟨e, by rw [abs_sub_comm]; exact q1, ⟨by linarith, by linarith⟩, ⟨by linarith, by linarith⟩⟩
    · rw [e] at qa ra
      rw [qa, abs_le] at q2
      rw [ra, abs_le] at r2
      linarith
    · rw [e] at qa ra
      rw [qa, abs_le] at q3
      rw [ra, abs_le] at r3
      linarith

lemma inHexa_iff (a b : Hexa) : inHexa a b = true ↔ (a.bounds0.1 - b.bounds0.1 ≤ tol ∧ b.bounds0.2 - a.bounds0.2 ≤ tol) ∧
    (a.bounds1.1 - b.bounds1.1 ≤ tol ∧ b.bounds1.2 - a.bounds1.2 ≤ tol) ∧ (a.bounds2.1 - b.bounds2.1 ≤ tol ∧ b.bounds2.2 - a.bounds2.2 ≤ tol) := by
  unfold inHexa
  split_ifs with h1 h2 h3
  · exact ⟨fun h => (by cases h), fun h => absurd h1 (by push Not; exact h.1)⟩
  · exact ⟨fun h => (by cases h), fun h => absurd h2 (by push Not; exact h.2.1)⟩
  · exact ⟨fun h => (by cases h), fun h => absurd h3 (by push Not; exact h.2.2)⟩
  · push Not at h1 h2 h3
    exact ⟨fun _ => ⟨h1, h2, h3⟩, fun _ => rfl⟩

/-- **C159.** A box contains another one exactly if every point between the bounds of the other is within `1e-8` of a point between its own. -/
theorem inHexa_spec {a b : Hexa} (ha : a.Wide) (hb : b.Wide) : inHexa a b = true ↔ Within (hexaPts a) (hexaPts b) := by
  rw [inHexa_iff]
  have hl := least_pos
  obtain ⟨a0, a1, a2⟩ := ha
  obtain ⟨b0, b1, b2⟩ := hb
  have c01 : (0 : Fin 3) + 1 = 1 := rfl
  have c02 : (0 : Fin 3) + 2 = 2 := rfl
  constructor
  · rintro ⟨⟨h1, h2⟩, ⟨h3, h4⟩, ⟨h5, h6⟩⟩ p ⟨⟨p1, p2⟩, ⟨p3, p4⟩, ⟨p5, p6⟩⟩
    obtain ⟨q1, q2, q3⟩ := place_at 0 (clamp a.bounds0 (p 0)) (clamp a.bounds1 (p 1)) (clamp a.bounds2 (p 2))
    rw [c01] at q2; rw [c02] at q3
    refine ⟨place 0 (clamp a.bounds0 (p 0)) (clamp a.bounds1 (p 1)) (clamp a.bounds2 (p 2)), ?_, (forall_axes 0).2 ⟨?_, ?_, ?_⟩⟩
    · refine ⟨?_, ?_, ?_⟩
      · rw [q1]; exact clamp_in (by linarith) _
      · rw [q2]; exact clamp_in (by linarith) _
      · rw [q3]; exact clamp_in (by linarith) _
    · rw [q1]; exact clamp_near (by linarith) (by linarith)
    · rw [c01, q2]; exact clamp_near (by linarith) (by linarith)
    · rw [c02, q3]; exact clamp_near (by linarith) (by linarith)
  · intro h
    obtain ⟨u1, u2, u3⟩ := place_at 0 b.bounds0.1 b.bounds1.1 b.bounds2.1
    obtain ⟨v1, v2, v3⟩ := place_at 0 b.bounds0.2 b.bounds1.2 b.bounds2.2
    rw [c01] at u2 v2; rw [c02] at u3 v3
    obtain ⟨q, ⟨⟨qa, qb⟩, ⟨qc, qd⟩, ⟨qe, qf⟩⟩, hq⟩ := h (place 0 b.bounds0.1 b.bounds1.1 b.bounds2.1)
      ⟨by rw [u1]; exact ⟨le_refl _, by linarith⟩, by rw [u2]; exact ⟨le_refl _, by linarith⟩, by rw [u3]; exact ⟨le_refl _, by linarith⟩⟩
    obtain ⟨r, ⟨⟨ra, rb⟩, ⟨rc, rd⟩, ⟨re, rf⟩⟩, hr⟩ := h (place 0 b.bounds0.2 b.bounds1.2 b.bounds2.2)
      ⟨by rw [v1]; exact ⟨by linarith, le_refl _⟩, by rw [v2]; exact ⟨by linarith, le_refl _⟩, by rw [v3]; exact ⟨by linarith, le_refl _⟩⟩
    have q1 := hq 0; have q2 := hq 1; have q3 := hq 2
    have r1 := hr 0; have r2 := hr 1; have r3 := hr 2
    rw [u1, abs_le] at q1; rw [u2, abs_le] at q2; rw [u3, abs_le] at q3
    rw [v1, abs_le] at r1; rw [v2, abs_le] at r2; rw [v3, abs_le] at r3
    exact ⟨⟨by linarith, by linarith⟩, ⟨by linarith, by linarith⟩, ⟨by linarith, by linarith⟩⟩

lemma eqSeg_iff (a b : OSeg) : eqSeg a b = true ↔ a.axis = b.axis ∧ |a.line.1 - b.line.1| ≤ tol ∧ |a.line.2 - b.line.2| ≤ tol ∧
    |a.bounds.1 - b.bounds.1| ≤ tol ∧ |b.bounds.2 - a.bounds.2| ≤ tol := by
  unfold eqSeg
  split_ifs with h1 h2 h3
  · exact ⟨fun h => (by cases h), fun h => absurd h.1 h1⟩
  · exact ⟨fun h => (by cases h), fun h => absurd h2 (by push Not; exact ⟨h.2.1, h.2.2.1⟩)⟩
  · exact ⟨fun h => (by cases h), fun h => absurd h3 (by push Not; exact ⟨h.2.2.2.1, h.2.2.2.2⟩)⟩
  · push Not at h1 h2 h3
    exact ⟨fun _ => ⟨h1, h2.1, h2.2, h3.1, h3.2⟩, fun _ => rfl⟩

lemma eqRect_iff (a b : PRect) : eqRect a b = true ↔ a.axis = b.axis ∧ |a.face - b.face| ≤ tol ∧
    (|a.bounds0.1 - b.bounds0.1| ≤ tol ∧ |b.bounds0.2 - a.bounds0.2| ≤ tol) ∧ (|a.bounds1.1 - b.bounds1.1| ≤ tol ∧ |b.bounds1.2 - a.bounds1.2| ≤ tol) := by
  unfold eqRect
  split_ifs with h1 h2 h3
  · refine ⟨fun h => (by cases h), fun h => ?_⟩
    rcases h1 with h1 | h1
    · exact absurd h.1 h1
    · exact absurd h.2.1 (by push Not; exact h1)
  · exact ⟨fun h => (by cases h), fun h => absurd h2 (by push Not; exact h.2.2.1)⟩
  · exact ⟨fun h => (by cases h), fun h => absurd h3 (by push Not; exact h.2.2.2)⟩
  · push Not at h1 h2 h3
    exact ⟨fun _ => ⟨h1.1, h1.2, h2, h3⟩, fun _ => rfl⟩

/-- **C159.** Segments are equal, and rectangles are, exactly if each contains the other. -/
theorem equal_contain (a b : OSeg) (c d : PRect) :
    (eqSeg a b = true ↔ inSeg a b = true ∧ inSeg b a = true) ∧ (eqRect c d = true ↔ inRect c d = true ∧ inRect d c = true) := by
  rw [eqSeg_iff, inSeg_iff, inSeg_iff, eqRect_iff, inRect_iff, inRect_iff]
  simp only [abs_le]
  refine ⟨⟨?_, ?_⟩, ⟨?_, ?_⟩⟩
  · rintro ⟨h1, h2, h3, h4, h5⟩
    refine ⟨⟨h1, h2, h3, by linarith, by linarith⟩, h1.symm, ⟨by linarith, by linarith⟩, ⟨by linarith, by linarith⟩, by linarith, by linarith⟩
  · rintro ⟨⟨h1, h2, h3, h4, h5⟩, -, -, -, h6, h7⟩
    exact ⟨h1, h2, h3, ⟨by linarith, by linarith⟩, ⟨by linarith, by linarith⟩⟩
  · rintro ⟨h1, h2, ⟨h3, h4⟩, ⟨h5, h6⟩⟩
    exact ⟨⟨h1, h2, ⟨by linarith, by linarith⟩, ⟨by linarith, by linarith⟩⟩, h1.symm, ⟨by linarith, by linarith⟩, ⟨by linarith, by linarith⟩, ⟨by linarith, by linarith⟩⟩
  · rintro ⟨⟨h1, h2, ⟨h3, h4⟩, ⟨h5, h6⟩⟩, -, -, ⟨h7, h8⟩, ⟨h9, h10⟩⟩
    exact ⟨h1, h2, ⟨⟨by linarith, by linarith⟩, ⟨by linarith, by linarith⟩⟩, ⟨⟨by linarith, by linarith⟩, ⟨by linarith, by linarith⟩⟩⟩

/-- The points of the box from the corner `o` along the sides `d`. -/
def solid (o d : P3) : Set (Fin 3 → ℚ) := {p | Between o.1 d.1 (p 0) ∧ Between o.2.1 d.2.1 (p 1) ∧ Between o.2.2 d.2.2 (p 2)}

lemma between_abs (a d x : ℚ) : Between a d x ↔ |x - (a + d / 2)| ≤ |d| / 2 := by
  unfold Between
  rw [abs_le]
  rcases abs_cases d with ⟨e, h⟩ | ⟨e, h⟩ <;> rw [e] <;> constructor
  · rintro (⟨h1, h2⟩ | ⟨h1, h2⟩) <;> constructor <;> linarith
  · rintro ⟨h1, h2⟩; exact .inl ⟨by linarith, by linarith⟩
  · rintro (⟨h1, h2⟩ | ⟨h1, h2⟩) <;> constructor <;> linarith
  · rintro ⟨h1, h2⟩; exact .inr ⟨by linarith, by linarith⟩

lemma near_axis {a d a' d' x : ℚ} (h1 : |a + d / 2 - (a' + d' / 2)| < tol) (h2 : |(|d| - |d'|)| < tol) (hx : Between a d x) :
    ∃ y, Between a' d' y ∧ |x - y| ≤ 3 / 2 * tol := by
  rw [between_abs, abs_le] at hx
  rw [abs_lt] at h1 h2
  have hd := abs_nonneg d'
  have ht : (0 : ℚ) < tol := by norm_num [tol]
  simp only [between_abs, abs_le]
  by_cases c1 : x ≤ a' + d' / 2 - |d'| / 2
  · exact ⟨a' + d' / 2 - |d'| / 2, ⟨by linarith, by linarith⟩, by linarith, by linarith⟩
  · by_cases c2 : a' + d' / 2 + |d'| / 2 ≤ x
    · exact ⟨a' + d' / 2 + |d'| / 2, ⟨by linarith, by linarith⟩, by linarith, by linarith⟩
    · exact ⟨x, ⟨by linarith, by linarith⟩, by linarith, by linarith⟩

lemma same_axis {a d a' d' : ℚ} (h1 : Between a' d' a) (h2 : Between a' d' (a + d)) (h3 : Between a d a') (h4 : Between a d (a' + d')) :
    a + d / 2 = a' + d' / 2 ∧ |d| = |d'| := by
  rw [between_abs, abs_le] at h1 h2 h3 h4
  rcases abs_cases d with ⟨e, h⟩ | ⟨e, h⟩ <;> rcases abs_cases d' with ⟨e', h'⟩ | ⟨e', h'⟩ <;> rw [e] at h3 h4 ⊢ <;> rw [e'] at h1 h2 ⊢ <;>
    constructor <;> linarith

/-- **C159.** Boxes with the same points are equal, whichever corner they are given by. If two boxes are equal, each point of one is, in every
coordinate, within one and a half times `1e-8` of a point of the other. -/
theorem hexa_equal_spec (o d o' d' : P3) (s s' : Hexa) (h : mkHexa o d = some s) (h' : mkHexa o' d' = some s') :
    (solid o d = solid o' d' → eqHexa s s' = true) ∧
      (eqHexa s s' = true → ∀ p ∈ solid o d, ∃ q ∈ solid o' d', ∀ c, |p c - q c| ≤ 3 / 2 * tol) := by
  have ht : (0 : ℚ) < tol := by norm_num [tol]
  unfold mkHexa at h h'
  rw [Option.ite_none_right_eq_some] at h h'
  obtain rfl := Option.some.inj h.2
  obtain rfl := Option.some.inj h'.2
  unfold eqHexa eqPoint
  simp only [Bool.and_eq_true, decide_eq_true_eq]
  constructor
  · intro e
    have mem : ∀ u : P3, ∀ v : P3, (![u.1, u.2.1, u.2.2] ∈ solid u v) ∧ (![u.1 + v.1, u.2.1 + v.2.1, u.2.2 + v.2.2] ∈ solid u v) := by
      intro u v
      have k : ∀ a b : ℚ, Between a b a ∧ Between a b (a + b) := fun a b => by
        rcases le_total 0 b with hb | hb
        · exact ⟨.inl ⟨le_refl _, by linarith⟩, .inl ⟨by linarith, le_refl _⟩⟩
        · exact ⟨.inr ⟨by linarith, le_refl _⟩, .inr ⟨le_refl _, by linarith⟩⟩
      exact ⟨⟨(k _ _).1, (k _ _).1, (k _ _).1⟩, ⟨(k _ _).2, (k _ _).2, (k _ _).2⟩⟩
    obtain ⟨m1, m2⟩ := mem o d
    obtain ⟨m3, m4⟩ := mem o' d'
    rw [e] at m1 m2
    rw [← e] at m3 m4
    obtain ⟨a1, a2, a3⟩ := m1; obtain ⟨b1, b2, b3⟩ := m2; obtain ⟨c1, c2, c3⟩ := m3; obtain ⟨e1, e2, e3⟩ := m4
    obtain ⟨p1, q1⟩ := same_axis (a := o.1) (d := d.1) (a' := o'.1) (d' := d'.1) a1 b1 c1 e1
    obtain ⟨p2, q2⟩ := same_axis (a := o.2.1) (d := d.2.1) (a' := o'.2.1) (d' := d'.2.1) a2 b2 c2 e2
    obtain ⟨p3, q3⟩ := same_axis (a := o.2.2) (d := d.2.2) (a' := o'.2.2) (d' := d'.2.2) a3 b3 c3 e3
    rw [p1, p2, p3, q1, q2, q3]
    simp [ht]
  · rintro ⟨⟨⟨p1, p2⟩, p3⟩, ⟨q1, q2⟩, q3⟩ p ⟨m1, m2, m3⟩
    obtain ⟨y1, r1, n1⟩ := near_axis p1 q1 m1
    obtain ⟨y2, r2, n2⟩ := near_axis p2 q2 m2
    obtain ⟨y3, r3, n3⟩ := near_axis p3 q3 m3
    refine ⟨![y1, y2, y3], ⟨r1, r2, r3⟩, fun c => ?_⟩
    fin_cases c
    · exact n1
    · exact n2
    · exact n3

/-- A box and the same box given by another corner; both are made, and equal. -/
example : (do let a ← mkHexa (0, 0, 0) (1, 2, 3); let b ← mkHexa (1, 0, 3) (-1, 2, -3); pure (eqHexa a b)) = some true := by decide +kernel

/-- **C159.** Boxes that are equal need not contain each other: centers and sides may each differ by up to `1e-8`, so bounds by up to `1.5e-8`. -/
theorem hexa_equal_refuted : (do let a ← mkHexa (0, 0, 0) (1, 1, 1); let b ← mkHexa (-13 / 10 ^ 9, 0, 0) (1 + 9 / 10 ^ 9, 1 + 9 / 10 ^ 9, 1)
                                 pure (eqHexa a b, inHexa a b)) = some (true, false) := by
  decide +kernel

/-- **C159.** A box that is longer along x than along y does not contain its second half, and contains a box that is half outside of it if it is
longer along y: the side along y is used for both. -/
theorem hexa_contain_refuted :
    (do let a ← mkHexa (0, 0, 0) (2, 1, 1); let b ← mkHexa (1, 0, 0) (1, 1, 1); pure (inHexa a b)) = some false ∧
      (do let a ← mkHexa (0, 0, 0) (1, 2, 1); let b ← mkHexa (1, 0, 0) (1, 1, 1); pure (inHexa a b)) = some true := by
  decide +kernel

example : (do let a ← mkSeg 1 (0, 0, 1) 1; let b ← mkSeg 1 (0, 1 / 2, 1) (-1 / 4); pure (inSeg a b, inSeg b a)) = some (true, false) := by decide +kernel

example : (do let a ← mkRect 2 (0, 0, 1) (1, 1, 0); let b ← mkRect 2 (1, 0, 1) (-1 / 2, 1, 0); pure (inRect a b, inRect b a)) = some (true, false) := by
  decide +kernel

end Phyem.Boxes
