import Verif.Lines.Model
import Mathlib.Tactic.LinearCombination
import Mathlib.Tactic.FieldSimp
import Mathlib.Tactic.Ring

/-!
# Where two lines meet
-/

namespace Phyem.Lines

variable {K : Type} [Field K] [DecidableEq K]

/-- The points of the line through two points. -/
def Through (A B : K × K) : Set (K × K) := {P | ∃ μ : K, P = (A.1 + μ * (B.1 - A.1), A.2 + μ * (B.2 - A.2))}

/-- The two lines have the same direction. -/
def Parallel (a1 a2 b1 b2 : K × K) : Prop := ∃ k : K, b2.1 - b1.1 = k * (a2.1 - a1.1) ∧ b2.2 - b1.2 = k * (a2.2 - a1.2)

lemma div_eq (a1 a2 b1 b2 : K × K) : det (a1.1 - a2.1, b1.1 - b2.1) (a1.2 - a2.2, b1.2 - b2.2) =
    (a2.1 - a1.1) * (b2.2 - b1.2) - (b2.1 - b1.1) * (a2.2 - a1.2) := by unfold det; ring

lemma parallel_iff {a1 a2 b1 b2 : K × K} (ha : a1 ≠ a2) :
    Parallel a1 a2 b1 b2 ↔ (a2.1 - a1.1) * (b2.2 - b1.2) - (b2.1 - b1.1) * (a2.2 - a1.2) = 0 := by
  constructor
  · rintro ⟨k, h1, h2⟩
    rw [h1, h2]; ring
  · intro h
    by_cases h0 : a2.1 - a1.1 = 0
    · have h1 : a2.2 - a1.2 ≠ 0 := fun h' => ha (Prod.ext (sub_eq_zero.1 h0).symm (sub_eq_zero.1 h').symm)
      refine ⟨(b2.2 - b1.2) / (a2.2 - a1.2), ?_, by field_simp⟩
      rw [h0, zero_mul, zero_sub, neg_eq_zero] at h
      rw [h0, mul_zero]
      exact (mul_eq_zero.1 h).resolve_right h1
    · refine ⟨(b2.1 - b1.1) / (a2.1 - a1.1), by field_simp, ?_⟩
      field_simp
      linear_combination h

lemma meet_eq {a1 a2 b1 b2 : K × K} (h : (a2.1 - a1.1) * (b2.2 - b1.2) - (b2.1 - b1.1) * (a2.2 - a1.2) ≠ 0) :
    ∃ P, meet a1 a2 b1 b2 = some P ∧ P ∈ Through a1 a2 ∧ P ∈ Through b1 b2 := by
  refine ⟨_, by unfold meet; dsimp only; rw [div_eq, if_neg h], ?_, ?_⟩
  · refine ⟨((b1.1 - a1.1) * (b2.2 - b1.2) - (b1.2 - a1.2) * (b2.1 - b1.1)) /
      ((a2.1 - a1.1) * (b2.2 - b1.2) - (b2.1 - b1.1) * (a2.2 - a1.2)), Prod.ext ?_ ?_⟩ <;>
    · unfold det
      field_simp
      ring
  · refine ⟨((b1.1 - a1.1) * (a2.2 - a1.2) - (b1.2 - a1.2) * (a2.1 - a1.1)) /
      ((a2.1 - a1.1) * (b2.2 - b1.2) - (b2.1 - b1.1) * (a2.2 - a1.2)), Prod.ext ?_ ?_⟩ <;>
    · unfold det
      field_simp
      ring

lemma meet_unique {a1 a2 b1 b2 P Q : K × K} (h : (a2.1 - a1.1) * (b2.2 - b1.2) - (b2.1 - b1.1) * (a2.2 - a1.2) ≠ 0)
    (hP : P ∈ Through a1 a2 ∧ P ∈ Through b1 b2) (hQ : Q ∈ Through a1 a2 ∧ Q ∈ Through b1 b2) : P = Q := by
  obtain ⟨⟨μ, rfl⟩, ν, e⟩ := hP
  obtain ⟨⟨μ', rfl⟩, ν', e'⟩ := hQ
  rw [Prod.mk.injEq] at e e'
  have hμ : μ = μ' := by
    refine sub_eq_zero.1 ((mul_eq_zero.1 (?_ : (μ - μ') * ((a2.1 - a1.1) * (b2.2 - b1.2) - (b2.1 - b1.1) * (a2.2 - a1.2)) = 0)).resolve_right h)
    linear_combination (b2.2 - b1.2) * (e.1 - e'.1) - (b2.1 - b1.1) * (e.2 - e'.2)
  rw [hμ]

/-- **C182.** Two lines, each through two different points: `find_line_intersection` gives a point exactly if it is the only one on both lines. -/
theorem meet_iff {a1 a2 b1 b2 : K × K} (ha : a1 ≠ a2) (hb : b1 ≠ b2) (P : K × K) :
    meet a1 a2 b1 b2 = some P ↔ Through a1 a2 ∩ Through b1 b2 = {P} := by
  by_cases h : (a2.1 - a1.1) * (b2.2 - b1.2) - (b2.1 - b1.1) * (a2.2 - a1.2) = 0
  · have h0 : meet a1 a2 b1 b2 = none := by unfold meet; dsimp only; rw [div_eq, if_pos h]
    rw [h0]
    refine ⟨fun e => (by cases e), fun e => ?_⟩
    exfalso
    have hP : P ∈ Through a1 a2 ∩ Through b1 b2 := by rw [e]; rfl
    obtain ⟨⟨μ, hμ⟩, ν, hν⟩ := hP
    obtain ⟨k, k1, k2⟩ := (parallel_iff (b1 := b1) (b2 := b2) ha).2 h
    have hQ : (b1.1 + (ν + 1) * (b2.1 - b1.1), b1.2 + (ν + 1) * (b2.2 - b1.2)) ∈ Through a1 a2 ∩ Through b1 b2 := by
      refine ⟨⟨μ + k, ?_⟩, ν + 1, rfl⟩
      have e1 := hμ.symm.trans hν
      rw [Prod.mk.injEq] at e1 ⊢
      exact ⟨by linear_combination -e1.1 + k1, by linear_combination -e1.2 + k2⟩
    rw [e, Set.mem_singleton_iff, hν, Prod.mk.injEq] at hQ
    exact hb (Prod.ext (by linear_combination -hQ.1) (by linear_combination -hQ.2))
  · obtain ⟨Q, hQ, hQ1, hQ2⟩ := meet_eq h
    rw [hQ]
    constructor
    · intro e
      obtain rfl := Option.some.inj e
      exact Set.eq_singleton_iff_unique_mem.2 ⟨⟨hQ1, hQ2⟩, fun R hR => meet_unique h hR ⟨hQ1, hQ2⟩⟩
    · intro e
      have : Q ∈ Through a1 a2 ∩ Through b1 b2 := ⟨hQ1, hQ2⟩
      rw [e] at this
      rw [Set.mem_singleton_iff.1 this]

/-- **C182.** It gives `None` exactly if the lines are parallel, and then they have no point or all of them in common. -/
theorem meet_none {a1 a2 b1 b2 : K × K} (ha : a1 ≠ a2) (hb : b1 ≠ b2) :
    (meet a1 a2 b1 b2 = none ↔ Parallel a1 a2 b1 b2) ∧
      (meet a1 a2 b1 b2 = none ↔ Through a1 a2 ∩ Through b1 b2 = ∅ ∨ Through a1 a2 = Through b1 b2) := by
  have h1 : meet a1 a2 b1 b2 = none ↔ Parallel a1 a2 b1 b2 := by
    rw [parallel_iff ha]
    unfold meet
    dsimp only
    rw [div_eq]
    split_ifs with h <;> simp [h]
  refine ⟨h1, fun h => ?_, fun h => ?_⟩
  · obtain ⟨k, k1, k2⟩ := h1.1 h
    by_cases he : Through a1 a2 ∩ Through b1 b2 = ∅
    · exact Or.inl he
    · right
      obtain ⟨P, ⟨μ, hμ⟩, ν, hν⟩ := Set.nonempty_iff_ne_empty.2 he
      have e1 := hμ.symm.trans hν
      rw [Prod.mk.injEq] at e1
      have hk : k ≠ 0 := by
        rintro rfl
        exact hb (Prod.ext (by linear_combination -k1) (by linear_combination -k2))
      ext Q
      constructor
      · rintro ⟨τ, rfl⟩
        refine ⟨ν + (τ - μ) / k, Prod.ext ?_ ?_⟩
        · dsimp only; rw [k1]; rw [k1] at e1; field_simp; linear_combination e1.1
        · dsimp only; rw [k2]; rw [k2] at e1; field_simp; linear_combination e1.2
      · rintro ⟨τ, rfl⟩
        refine ⟨μ + k * (τ - ν), Prod.ext ?_ ?_⟩
        · dsimp only; linear_combination -e1.1 + (τ - ν) * k1
        · dsimp only; linear_combination -e1.2 + (τ - ν) * k2
  · cases hm : meet a1 a2 b1 b2 with
    | none => rfl
    | some P =>
      exfalso
      have e := (meet_iff ha hb P).1 hm
      rcases h with h | h
      · rw [h] at e; exact Set.singleton_ne_empty P e.symm
      · rw [h, Set.inter_self] at e
        have m1 : b1 ∈ Through b1 b2 := ⟨0, by simp⟩
        have m2 : b2 ∈ Through b1 b2 := ⟨1, by simp⟩
        rw [e] at m1 m2
        exact hb ((Set.mem_singleton_iff.1 m1).trans (Set.mem_singleton_iff.1 m2).symm)

/-- **C182.** Neither the order of the lines nor that of the points on them matters. -/
theorem meet_symm (a1 a2 b1 b2 : K × K) :
    meet b1 b2 a1 a2 = meet a1 a2 b1 b2 ∧ meet a2 a1 b1 b2 = meet a1 a2 b1 b2 ∧ meet a1 a2 b2 b1 = meet a1 a2 b1 b2 := by
  have aux : ∀ {d d' : K} (n n' m m' : K), d' = -d → n' = -n → m' = -m →
      (if d' = 0 then none else some (n' / d', m' / d')) = if d = 0 then none else some (n / d, m / d) := by
    rintro d _ n _ m _ rfl rfl rfl
    simp [neg_div_neg_eq]
  refine ⟨?_, ?_, ?_⟩ <;>
  · unfold meet
    dsimp only
    refine aux _ _ _ _ ?_ ?_ ?_ <;> unfold det <;> ring

/-- **C182.** Two points that are the same do not make a line: there is always `None`, even if the point is on the other line. -/
theorem meet_point (a b1 b2 : K × K) : meet a a b1 b2 = none ∧ meet b1 b2 a a = none := by
  constructor <;> · unfold meet; simp [det]

example : meet (0, 0) (1, 1) (1, 0) ((0, 1) : ℚ × ℚ) = some (1 / 2, 1 / 2) ∧ meet (0, 0) (1, 0) (0, 1) ((1, 1) : ℚ × ℚ) = none ∧
    meet (0, 0) (1, 0) (0, 1) ((1, 2) : ℚ × ℚ) = some (-1, 0) := by decide +kernel

end Phyem.Lines
