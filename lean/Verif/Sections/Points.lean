import Verif.Sections.Lemmas
import Mathlib.Analysis.Complex.Norm

/-!
Points on lines and segments, for C124.
-/

namespace Phyem.Sections

open Classical

lemma distance2_complex (A B : ℝ × ℝ) : distance2 A B = ‖(⟨B.1, B.2⟩ : ℂ) - ⟨A.1, A.2⟩‖ := by
  rw [Complex.norm_eq_sqrt_sq_add_sq]
  rfl

lemma distance2_nonneg (A B : ℝ × ℝ) : 0 ≤ distance2 A B := Real.sqrt_nonneg _

lemma distance2_comm (A B : ℝ × ℝ) : distance2 A B = distance2 B A := by
  unfold distance2; congr 1; ring

lemma distance2_sq (A B : ℝ × ℝ) : distance2 A B ^ 2 = (B.1 - A.1) ^ 2 + (B.2 - A.2) ^ 2 :=
  Real.sq_sqrt (by positivity)

lemma distance2_tri (A B C : ℝ × ℝ) : distance2 A C ≤ distance2 A B + distance2 B C := by
  rw [distance2_complex, distance2_complex, distance2_complex]
  calc ‖(⟨C.1, C.2⟩ : ℂ) - ⟨A.1, A.2⟩‖ = ‖((⟨B.1, B.2⟩ : ℂ) - ⟨A.1, A.2⟩) + ((⟨C.1, C.2⟩ : ℂ) - ⟨B.1, B.2⟩)‖ := by
        congr 1; ring
    _ ≤ _ := norm_add_le _ _

/-- The distance of a point to points of a line is convex. -/
lemma distance2_between (P A B : ℝ × ℝ) (μ : ℝ) (h0 : 0 ≤ μ) (h1 : μ ≤ 1) :
    distance2 P (between A B μ) ≤ (1 - μ) * distance2 P A + μ * distance2 P B := by
  rw [distance2_complex, distance2_complex, distance2_complex]
  have e : (⟨(between A B μ).1, (between A B μ).2⟩ : ℂ) - ⟨P.1, P.2⟩ =
      ((1 - μ : ℝ) : ℂ) * ((⟨A.1, A.2⟩ : ℂ) - ⟨P.1, P.2⟩) + (μ : ℂ) * ((⟨B.1, B.2⟩ : ℂ) - ⟨P.1, P.2⟩) := by
    apply Complex.ext <;> simp [between] <;> ring
  rw [e]
  refine (norm_add_le _ _).trans ?_
  rw [norm_mul, norm_mul, Complex.norm_real, Complex.norm_real, Real.norm_eq_abs, Real.norm_eq_abs,
    abs_of_nonneg h0, abs_of_nonneg (by linarith : (0 : ℝ) ≤ 1 - μ)]

lemma distance2_from (A B : ℝ × ℝ) (μ : ℝ) : distance2 A (between A B μ) = |μ| * distance2 A B := by
  unfold distance2 between
  rw [← Real.sqrt_sq_eq_abs, ← Real.sqrt_mul (sq_nonneg μ)]
  congr 1; ring

lemma distance2_to (A B : ℝ × ℝ) (μ : ℝ) : distance2 B (between A B μ) = |1 - μ| * distance2 A B := by
  unfold distance2 between
  rw [← Real.sqrt_sq_eq_abs, ← Real.sqrt_mul (sq_nonneg (1 - μ))]
  congr 1; ring

lemma isclose_self (a tol : ℝ) (h : 0 ≤ tol) : isclose a a tol := by
  unfold isclose
  rw [sub_self, abs_zero]
  exact le_max_of_le_right h

lemma onSegment_eq (A B P : ℝ × ℝ) : onSegment (A, B) P = true ↔
    distance2 A P < 1e-8 ∨ distance2 B P < 1e-8 ∨ isclose (distance2 A P + distance2 B P) (distance2 A B) 1e-8 := by
  unfold onSegment
  dsimp only
  by_cases h1 : distance2 A P < 1e-8
  · simp only [h1, if_true, true_or]
  · by_cases h2 : distance2 B P < 1e-8
    · simp only [h1, h2, if_false, if_true, true_or, or_true]
    · simp only [h1, h2, if_false, false_or]
      by_cases h3 : isclose (distance2 A P + distance2 B P) (distance2 A B) 1e-8 <;> simp [h3]

lemma onLine_eq (A B P : ℝ × ℝ) : onLine (A, B) P = true ↔
    distance2 A P < 1e-8 ∨ distance2 B P < 1e-8 ∨ isclose (distance2 A P + distance2 B P) (distance2 A B) 1e-8 ∨
      isclose |distance2 A P - distance2 B P| (distance2 A B) 1e-8 := by
  unfold onLine
  dsimp only
  by_cases h1 : distance2 A P < 1e-8
  · simp only [h1, if_true, true_or]
  · by_cases h2 : distance2 B P < 1e-8
    · simp only [h1, h2, if_false, if_true, true_or, or_true]
    · simp only [h1, h2, if_false, false_or]
      by_cases h3 : isclose (distance2 A P + distance2 B P) (distance2 A B) 1e-8
      · simp [h3]
      · simp only [h3, if_false, false_or]
        by_cases h4 : isclose |distance2 A P - distance2 B P| (distance2 A B) 1e-8 <;> simp [h4]

/-- A point of a segment is found on it. -/
lemma onSegment_of (A B P : ℝ × ℝ) (h : P ∈ Segment A B) : onSegment (A, B) P = true := by
  obtain ⟨μ, h0, h1, rfl⟩ := h
  rw [onSegment_eq]
  right; right
  rw [distance2_from, distance2_to, abs_of_nonneg h0, abs_of_nonneg (by linarith : (0 : ℝ) ≤ 1 - μ)]
  have : μ * distance2 A B + (1 - μ) * distance2 A B = distance2 A B := by ring
  rw [this]
  exact isclose_self _ _ (by norm_num)

/-- A point of a line is found on it. -/
lemma onLine_of (A B P : ℝ × ℝ) (h : P ∈ Line A B) : onLine (A, B) P = true := by
  obtain ⟨μ, rfl⟩ := h
  rw [onLine_eq]
  right; right
  rw [distance2_from, distance2_to]
  have hd := distance2_nonneg A B
  rcases le_or_gt 0 μ with h0 | h0
  · rcases le_or_gt μ 1 with h1 | h1
    · left
      rw [abs_of_nonneg h0, abs_of_nonneg (by linarith : (0 : ℝ) ≤ 1 - μ)]
      have : μ * distance2 A B + (1 - μ) * distance2 A B = distance2 A B := by ring
      rw [this]
      exact isclose_self _ _ (by norm_num)
    · right
      rw [abs_of_nonneg h0, abs_of_neg (by linarith : 1 - μ < 0)]
      have : μ * distance2 A B - -(1 - μ) * distance2 A B = distance2 A B := by ring
      rw [this, abs_of_nonneg hd]
      exact isclose_self _ _ (by norm_num)
  · right
    rw [abs_of_neg h0, abs_of_pos (by linarith : 0 < 1 - μ)]
    have : -μ * distance2 A B - (1 - μ) * distance2 A B = -distance2 A B := by ring
    rw [this, abs_neg, abs_of_nonneg hd]
    exact isclose_self _ _ (by norm_num)

/-- How far the sum of the distances is off at a point that is found on a segment. -/
lemma onSegment_sum (A B P : ℝ × ℝ) (h : onSegment (A, B) P = true) :
    distance2 A P + distance2 B P ≤ distance2 A B + slack (distance2 A B) := by
  have hL := distance2_nonneg A B
  have hs := distance2_nonneg A P
  have hs' := distance2_nonneg B P
  have t1 := distance2_tri A B P
  have t2 := distance2_tri B A P
  have t3 := distance2_tri A P B
  rw [distance2_comm B A] at t2
  rw [distance2_comm P B] at t3
  unfold slack
  rcases (onSegment_eq A B P).1 h with h | h | h
  · linarith
  · linarith
  · unfold isclose at h
    rw [abs_of_nonneg (by linarith : 0 ≤ distance2 A P + distance2 B P - distance2 A B),
      abs_of_nonneg (by linarith : 0 ≤ distance2 A P + distance2 B P), abs_of_nonneg hL,
      max_eq_left (by linarith : distance2 A B ≤ distance2 A P + distance2 B P)] at h
    rcases le_max_iff.1 h with h | h <;> linarith

/-- A point whose distances to the ends have a sum that is not much more than the length is near the segment. -/
lemma near_segment (A B P : ℝ × ℝ) (τ : ℝ) (hτ : 0 ≤ τ) (hL : 0 < distance2 A B)
    (h : distance2 A P + distance2 B P ≤ distance2 A B + τ) :
    ∃ Q ∈ Segment A B, 4 * distance2 P Q ^ 2 ≤ τ * (2 * distance2 A B + τ) := by
  set d1 := distance2 A P with hd1
  set d2 := distance2 B P with hd2
  set L := distance2 A B with hLd
  have h1 : 0 ≤ d1 := distance2_nonneg _ _
  have h2 : 0 ≤ d2 := distance2_nonneg _ _
  have hs : L ≤ d1 + d2 := by
    have := distance2_tri A P B; rw [distance2_comm P B] at this; exact this
  have hpos : 0 < d1 + d2 := by linarith
  refine ⟨between A B (d1 / (d1 + d2)), ⟨_, by positivity, (div_le_one hpos).2 (by linarith), rfl⟩, ?_⟩
  have e1 : d1 ^ 2 = _ := distance2_sq A P
  have e2 : d2 ^ 2 = _ := distance2_sq B P
  have e3 : L ^ 2 = _ := distance2_sq A B
  set μ := d1 / (d1 + d2) with hμ
  have key : distance2 P (between A B μ) ^ 2 = (1 - μ) * d1 ^ 2 + μ * d2 ^ 2 - μ * (1 - μ) * L ^ 2 := by
    rw [distance2_sq, e1, e2, e3]
    simp only [between]
    ring
  have key' : distance2 P (between A B μ) ^ 2 * (d1 + d2) ^ 2 = d1 * d2 * ((d1 + d2) ^ 2 - L ^ 2) := by
    rw [key, hμ]
    field_simp
    ring
  have hq : 4 * (d1 * d2) ≤ (d1 + d2) ^ 2 := by nlinarith [sq_nonneg (d1 - d2)]
  have hg : 0 ≤ (d1 + d2) ^ 2 - L ^ 2 := by nlinarith
  have hb : (d1 + d2) ^ 2 - L ^ 2 ≤ τ * (2 * L + τ) := by nlinarith
  have : 4 * distance2 P (between A B μ) ^ 2 * (d1 + d2) ^ 2 ≤ ((d1 + d2) ^ 2 - L ^ 2) * (d1 + d2) ^ 2 := by
    calc 4 * distance2 P (between A B μ) ^ 2 * (d1 + d2) ^ 2 = 4 * (d1 * d2) * ((d1 + d2) ^ 2 - L ^ 2) := by
          linear_combination 4 * key'
      _ ≤ (d1 + d2) ^ 2 * ((d1 + d2) ^ 2 - L ^ 2) := mul_le_mul_of_nonneg_right hq hg
      _ = _ := by ring
  exact (le_of_mul_le_mul_right this (by positivity)).trans hb

/-- How near to a line a point is that is found on it: the further away it is from the two points, the further away from
the line it may be. -/
lemma near_line (A B P : ℝ × ℝ) (hL : 0 < distance2 A B) (h : onLine (A, B) P = true) :
    ∃ Q ∈ Line A B,
      4 * distance2 P Q ^ 2 ≤ slack (distance2 A B) * (2 * distance2 A B + slack (distance2 A B)) ∨
      distance2 P Q ^ 2 * distance2 A B ≤ slack (distance2 A B) * (distance2 A P * distance2 B P) := by
  by_cases hseg : onSegment (A, B) P = true
  · obtain ⟨Q, ⟨μ, -, -, rfl⟩, hQ⟩ := near_segment A B P (slack (distance2 A B)) (by unfold slack; positivity) hL
      (onSegment_sum A B P hseg)
    exact ⟨_, ⟨μ, rfl⟩, Or.inl hQ⟩
  · have hc : isclose |distance2 A P - distance2 B P| (distance2 A B) 1e-8 := by
      rw [onSegment_eq] at hseg
      push Not at hseg
      rcases (onLine_eq A B P).1 h with h | h | h | h
      · exact absurd h (not_lt.2 hseg.1)
      · exact absurd h (not_lt.2 hseg.2.1)
      · exact absurd h hseg.2.2
      · exact h
    set d1 := distance2 A P with hd1
    set d2 := distance2 B P with hd2
    set L := distance2 A B with hLd
    have h1 : 0 ≤ d1 := distance2_nonneg _ _
    have h2 : 0 ≤ d2 := distance2_nonneg _ _
    have hδ : |d1 - d2| ≤ L := by
      have t1 := distance2_tri A B P
      have t2 := distance2_tri B A P
      rw [distance2_comm B A] at t2
      rw [abs_le]
      constructor <;> linarith
    have e1 : d1 ^ 2 = _ := distance2_sq A P
    have e2 : d2 ^ 2 = _ := distance2_sq B P
    have e3 : L ^ 2 = _ := distance2_sq A B
    unfold isclose at hc
    rw [abs_abs, abs_of_nonneg hL.le, max_eq_right hδ, abs_of_nonpos (by linarith)] at hc
    set δ := |d1 - d2| with hδd
    have hδ0 : 0 ≤ δ := abs_nonneg _
    have hsq : δ ^ 2 = (d1 - d2) ^ 2 := sq_abs _
    -- the foot of the perpendicular
    set μ := ((P.1 - A.1) * (B.1 - A.1) + (P.2 - A.2) * (B.2 - A.2)) / L ^ 2 with hμ
    refine ⟨between A B μ, ⟨μ, rfl⟩, Or.inr ?_⟩
    have hL2 : (0 : ℝ) < L ^ 2 := by positivity
    have hμL : μ * L ^ 2 = (P.1 - A.1) * (B.1 - A.1) + (P.2 - A.2) * (B.2 - A.2) := by
      rw [hμ]; field_simp
    have hdist : distance2 P (between A B μ) ^ 2 * L ^ 2 =
        ((B.1 - A.1) * (P.2 - A.2) - (B.2 - A.2) * (P.1 - A.1)) ^ 2 := by
      rw [distance2_sq]
      simp only [between]
      have : ((A.1 + μ * (B.1 - A.1) - P.1) ^ 2 + (A.2 + μ * (B.2 - A.2) - P.2) ^ 2) * L ^ 2 =
          ((P.1 - A.1) ^ 2 + (P.2 - A.2) ^ 2) * L ^ 2 -
            2 * (μ * L ^ 2) * ((P.1 - A.1) * (B.1 - A.1) + (P.2 - A.2) * (B.2 - A.2)) +
            (μ * L ^ 2) * μ * ((B.1 - A.1) ^ 2 + (B.2 - A.2) ^ 2) := by ring
      rw [this, ← e3, show μ * L ^ 2 * μ * L ^ 2 = (μ * L ^ 2) ^ 2 by ring, hμL, e3]
      ring
    -- Heron's formula
    have heron : 4 * ((B.1 - A.1) * (P.2 - A.2) - (B.2 - A.2) * (P.1 - A.1)) ^ 2 =
        ((d1 + d2) ^ 2 - L ^ 2) * (L ^ 2 - (d1 - d2) ^ 2) := by
      have : ((d1 + d2) ^ 2 - L ^ 2) * (L ^ 2 - (d1 - d2) ^ 2) =
          4 * d1 ^ 2 * d2 ^ 2 - (d1 ^ 2 + d2 ^ 2 - L ^ 2) ^ 2 := by ring
      rw [this, e1, e2, e3]
      ring
    have hb : L ^ 2 - (d1 - d2) ^ 2 ≤ 2 * L * (1e-8 + 1e-9 * L) := by
      rw [← hsq]
      have hgap : L - δ ≤ 1e-8 + 1e-9 * L := by
        have hp : (0 : ℝ) ≤ 1e-9 * L := mul_nonneg (by norm_num) hL.le
        rcases le_max_iff.1 hc with h | h <;> linarith
      calc L ^ 2 - δ ^ 2 = (L + δ) * (L - δ) := by ring
        _ ≤ (2 * L) * (L - δ) := mul_le_mul_of_nonneg_right (by linarith) (by linarith)
        _ ≤ _ := mul_le_mul_of_nonneg_left hgap (by linarith)
    have hb0 : 0 ≤ L ^ 2 - (d1 - d2) ^ 2 := by
      rw [← hsq, show L ^ 2 - δ ^ 2 = (L + δ) * (L - δ) by ring]
      exact mul_nonneg (by linarith) (by linarith)
    have ha : (d1 + d2) ^ 2 - L ^ 2 ≤ 4 * (d1 * d2) := by linarith
    have h4 : 4 * (distance2 P (between A B μ) ^ 2 * L ^ 2) ≤ 4 * (d1 * d2) * (2 * L * (1e-8 + 1e-9 * L)) := by
      rw [hdist, heron]
      calc _ ≤ 4 * (d1 * d2) * (L ^ 2 - (d1 - d2) ^ 2) := mul_le_mul_of_nonneg_right ha hb0
        _ ≤ _ := mul_le_mul_of_nonneg_left hb (by positivity)
    have h5 : (distance2 P (between A B μ) ^ 2 * L) * L ≤ ((2e-8 + 2e-9 * L) * (d1 * d2)) * L := by
      have e : 4 * (d1 * d2) * (2 * L * (1e-8 + 1e-9 * L)) = 4 * (((2e-8 + 2e-9 * L) * (d1 * d2)) * L) := by ring
      rw [e] at h4
      have := le_of_mul_le_mul_left h4 (by norm_num : (0 : ℝ) < 4)
      calc _ = distance2 P (between A B μ) ^ 2 * L ^ 2 := by ring
        _ ≤ _ := this
    exact le_of_mul_le_mul_right h5 hL

end Phyem.Sections
