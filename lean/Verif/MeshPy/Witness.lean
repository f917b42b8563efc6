import Verif.MeshPy.Props

/-!
# A mesh that is taken over, and where it goes wrong
-/

namespace Phyem.MeshPy

open Phyem.Dict

/-- The corners of the unit square. -/
def square : List (ℝ × ℝ) := [(0, 0), (1, 0), (1, 1), (0, 1)]

lemma square_apart : Apart square := by
  unfold Apart square
  simp only [List.pairwise_cons, List.mem_cons, List.not_mem_nil, or_false, forall_eq_or_imp, forall_eq, List.Pairwise.nil, and_true, false_implies,
    implies_true]
  norm_num

example : Apart square ∧ (∀ t ∈ [[0, 1, 2], [0, 2, 3]], Between square.length t) ∧ area2 (0, 0) (1, 0) (1, 1) = 1 := by
  refine ⟨square_apart, fun t ht => ?_, by norm_num [area2]⟩
  rcases List.mem_cons.1 ht with rfl | ht
  · exact ⟨0, 1, 2, rfl, by simp [square], by simp [square], by simp [square]⟩
  · rw [List.mem_singleton.1 ht]
    exact ⟨0, 2, 3, rfl, by simp [square], by simp [square], by simp [square]⟩

example : roundTrip 4 = [(0, 1), (1, 2), (2, 3), (3, 0)] := by decide

/-- **C184, against the code.** That the nodes of an element are different is not so: a triangle with an area, two corners of which have the same nine
digits after the point, is taken over with one node for both. -/
theorem collapsed_refuted : ¬ ∀ (pts coo : List (ℝ × ℝ)) (tris : List (List ℕ)) (conn : List (ℕ × ℕ × ℕ)), (∀ t ∈ tris, t.Nodup) → pts.Nodup →
    parse pts tris = some (coo, conn) → ∀ c ∈ conn, c.1 ≠ c.2.1 := by
  intro h
  set pts : List (ℝ × ℝ) := [(0, 0), (4e-10, 0), (0, 1)] with hpts
  have hb : ∀ t ∈ [[0, 1, 2]], Between pts.length t := by
    intro t ht
    rw [List.mem_singleton.1 ht]
    exact ⟨0, 1, 2, rfl, by simp [hpts], by simp [hpts], by simp [hpts]⟩
  obtain ⟨⟨coo, conn⟩, hp⟩ := Option.isSome_iff_exists.1 ((parse_spec pts [[0, 1, 2]]).1.2 hb)
  obtain ⟨h1, h2, h3, keep, k1, k2, k3⟩ := (parse_spec pts [[0, 1, 2]]).2 coo conn hp
  have hk : keep = [[0, 1, 2]] := by
    by_contra hne
    have hm : [0, 1, 2] ∉ keep := by
      intro hm
      refine hne (k1.eq_of_length_le ?_)
      have := List.length_pos_of_mem hm
      exact this
    obtain ⟨i, j, k, A, B, C, ht, hA, hB, hC, h0⟩ := k3 _ (by simp) hm
    simp only [List.cons.injEq, and_true] at ht
    obtain ⟨rfl, rfl, rfl⟩ := ht
    simp only [hpts, List.getElem?_cons_zero, List.getElem?_cons_succ, Option.some.injEq] at hA hB hC
    rw [← hA, ← hB, ← hC] at h0
    norm_num [area2] at h0
  rw [hk] at k2
  cases k2 with
  | cons hm _ =>
    rename_i c cs _
    obtain ⟨i, j, k, A, B, C, A', B', C', ht, hA, hB, hC, _, hA', hB', hC', a, b, c⟩ := hm
    simp only [List.cons.injEq, and_true] at ht
    obtain ⟨rfl, rfl, rfl⟩ := ht
    simp only [hpts, List.getElem?_cons_zero, List.getElem?_cons_succ, Option.some.injEq] at hA hB
    have hAB : key A = key B := by
      rw [← hA, ← hB]
      have r0 : round ((4e-10 : ℝ) * 10 ^ 9) = 0 := by
        rw [round_eq]
        rw [Int.floor_eq_iff]
        norm_num
      simp only [key, nine, r0, zero_mul, round_zero]
      norm_num
    have key' := h pts coo [[0, 1, 2]] _ (by simp) ?_ hp _ (List.mem_cons_self)
    · obtain ⟨l1, e1⟩ := List.getElem?_eq_some_iff.1 hA'
      obtain ⟨l2, e2⟩ := List.getElem?_eq_some_iff.1 hB'
      refine key' ((List.Nodup.getElem_inj_iff h2 (hi := by simpa using l1) (hj := by simpa using l2)).1 ?_)
      rw [List.getElem_map, List.getElem_map, e1, e2, a, b, hAB]
    · rw [hpts]; norm_num

/-- **C184, against the code.** That two points with the same nine digits after the point are one node is not so: 0 and a small negative number are two,
as `-0.000000000` has a sign. -/
theorem minus_zero_refuted : ¬ ∀ P Q : ℝ × ℝ, round (P.1 * 10 ^ 9) = round (Q.1 * 10 ^ 9) → round (P.2 * 10 ^ 9) = round (Q.2 * 10 ^ 9) →
    ∀ a b, get (numbering [P, Q]).1 (key P) = some a → get (numbering [P, Q]).1 (key Q) = some b → a = b := by
  intro h
  set P : ℝ × ℝ := (0, 0) with hP
  set Q : ℝ × ℝ := (-1e-10, 0) with hQ
  have hr : round (P.1 * 10 ^ 9) = round (Q.1 * 10 ^ 9) := by
    have : round ((-1e-10 : ℝ) * 10 ^ 9) = 0 := by
      rw [round_eq, Int.floor_eq_iff]
      norm_num
    rw [hQ, this]
    simp [hP]
  obtain ⟨a, A', a1, a2, a3⟩ := place (pts := [P, Q]) (A := P) (by simp)
  obtain ⟨b, B', b1, b2, b3⟩ := place (pts := [P, Q]) (A := Q) (by simp)
  have := h P Q hr rfl a b a1 b1
  subst this
  rw [a2] at b2
  have e : key P = key Q := by rw [← a3, ← b3, Option.some.inj b2]
  have : decide (P.1 < 0) = decide (Q.1 < 0) := congrArg (fun k => k.1.1) e
  rw [hP, hQ] at this
  norm_num at this

end Phyem.MeshPy
