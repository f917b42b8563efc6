import Verif.Incidence.Instances

/-!
Properties C18 and C19.  `snum ln (t, i, j, k)` is `local_numbering[t][i, j, k]`.
-/

namespace Phyem.Incidence

open Phyem.Numbering

variable {R : Type*} [CommRing R]

/-- **C19, gradient in 3d.** -/
theorem grad3_differences (x y z : Nat) (v : Nat → R) :
    (∀ i j k, i < x → j < y + 1 → k < z + 1 →
      app (nd30 x y z) (E30 x y z) v (snum (ln31 x y z) (0, i, j, k)) =
        v (snum (ln30 x y z) (0, i + 1, j, k)) - v (snum (ln30 x y z) (0, i, j, k))) ∧
    (∀ i j k, i < x + 1 → j < y → k < z + 1 →
      app (nd30 x y z) (E30 x y z) v (snum (ln31 x y z) (1, i, j, k)) =
        v (snum (ln30 x y z) (0, i, j + 1, k)) - v (snum (ln30 x y z) (0, i, j, k))) ∧
    (∀ i j k, i < x + 1 → j < y + 1 → k < z →
      app (nd30 x y z) (E30 x y z) v (snum (ln31 x y z) (2, i, j, k)) =
        v (snum (ln30 x y z) (0, i, j, k + 1)) - v (snum (ln30 x y z) (0, i, j, k))) := by
  refine ⟨?_, ?_, ?_⟩ <;> intro i j k hi hj hk
  · have := (good30 x y z).app (t := 0) rfl rfl (i := i) (j := j) (k := k) ⟨hi, hj, hk⟩ v
    refine this.trans ?_
    simp; ring
  · have := (good30 x y z).app (t := 1) rfl rfl (i := i) (j := j) (k := k) ⟨hi, hj, hk⟩ v
    refine this.trans ?_
    simp; ring
  · have := (good30 x y z).app (t := 2) rfl rfl (i := i) (j := j) (k := k) ⟨hi, hj, hk⟩ v
    refine this.trans ?_
    simp; ring

/-- **C19, curl in 3d**: circulation around every face. -/
theorem curl3_circulation (x y z : Nat) (v : Nat → R) :
    (∀ i j k, i < x + 1 → j < y → k < z →
      app (nd31 x y z) (E31 x y z) v (snum (ln32 x y z) (0, i, j, k)) =
        (v (snum (ln31 x y z) (2, i, j + 1, k)) - v (snum (ln31 x y z) (2, i, j, k))) -
        (v (snum (ln31 x y z) (1, i, j, k + 1)) - v (snum (ln31 x y z) (1, i, j, k)))) ∧
    (∀ i j k, i < x → j < y + 1 → k < z →
      app (nd31 x y z) (E31 x y z) v (snum (ln32 x y z) (1, i, j, k)) =
        (v (snum (ln31 x y z) (0, i, j, k + 1)) - v (snum (ln31 x y z) (0, i, j, k))) -
        (v (snum (ln31 x y z) (2, i + 1, j, k)) - v (snum (ln31 x y z) (2, i, j, k)))) ∧
    (∀ i j k, i < x → j < y → k < z + 1 →
      app (nd31 x y z) (E31 x y z) v (snum (ln32 x y z) (2, i, j, k)) =
        (v (snum (ln31 x y z) (1, i + 1, j, k)) - v (snum (ln31 x y z) (1, i, j, k))) -
        (v (snum (ln31 x y z) (0, i, j + 1, k)) - v (snum (ln31 x y z) (0, i, j, k)))) := by
  refine ⟨?_, ?_, ?_⟩ <;> intro i j k hi hj hk
  · have := (good31 x y z).app (t := 0) rfl rfl (i := i) (j := j) (k := k) ⟨hi, hj, hk⟩ v
    refine this.trans ?_
    simp; ring
  · have := (good31 x y z).app (t := 1) rfl rfl (i := i) (j := j) (k := k) ⟨hi, hj, hk⟩ v
    refine this.trans ?_
    simp; ring
  · have := (good31 x y z).app (t := 2) rfl rfl (i := i) (j := j) (k := k) ⟨hi, hj, hk⟩ v
    refine this.trans ?_
    simp; ring

/-- **C19, divergence in 3d**: net outflow of every cell. -/
theorem div3_outflow (x y z : Nat) (v : Nat → R) (i j k : Nat) (hi : i < x) (hj : j < y)
    (hk : k < z) :
    app (nd32 x y z) (E32 x y z) v (snum (ln33 x y z) (0, i, j, k)) =
      (v (snum (ln32 x y z) (0, i + 1, j, k)) - v (snum (ln32 x y z) (0, i, j, k))) +
      (v (snum (ln32 x y z) (1, i, j + 1, k)) - v (snum (ln32 x y z) (1, i, j, k))) +
      (v (snum (ln32 x y z) (2, i, j, k + 1)) - v (snum (ln32 x y z) (2, i, j, k))) := by
  have := (good32 x y z).app (t := 0) rfl rfl (i := i) (j := j) (k := k) ⟨hi, hj, hk⟩ v
  refine this.trans ?_
  simp; ring

/-- **C19, 2d inner**: gradient and rotation. -/
theorem inner2_differences (x y : Nat) (v : Nat → R) :
    (∀ i j, i < x → j < y + 1 →
      app (nd20 x y) (E20i x y) v (snum (ln21i x y) (0, i, j, 0)) =
        v (snum (ln20 x y) (0, i + 1, j, 0)) - v (snum (ln20 x y) (0, i, j, 0))) ∧
    (∀ i j, i < x + 1 → j < y →
      app (nd20 x y) (E20i x y) v (snum (ln21i x y) (1, i, j, 0)) =
        v (snum (ln20 x y) (0, i, j + 1, 0)) - v (snum (ln20 x y) (0, i, j, 0))) ∧
    (∀ i j, i < x → j < y →
      app (nd21 x y) (E21i x y) v (snum (ln22 x y) (0, i, j, 0)) =
        (v (snum (ln21i x y) (1, i + 1, j, 0)) - v (snum (ln21i x y) (1, i, j, 0))) -
        (v (snum (ln21i x y) (0, i, j + 1, 0)) - v (snum (ln21i x y) (0, i, j, 0)))) := by
  refine ⟨?_, ?_, ?_⟩ <;> intro i j hi hj
  · have := (good20i x y).app (t := 0) rfl rfl (i := i) (j := j) (k := 0) ⟨hi, hj, Nat.one_pos⟩ v
    refine this.trans ?_
    simp; ring
  · have := (good20i x y).app (t := 1) rfl rfl (i := i) (j := j) (k := 0) ⟨hi, hj, Nat.one_pos⟩ v
    refine this.trans ?_
    simp; ring
  · have := (good21i x y).app (t := 0) rfl rfl (i := i) (j := j) (k := 0) ⟨hi, hj, Nat.one_pos⟩ v
    refine this.trans ?_
    simp; ring

/-- **C19, 2d outer**: curl (first component along y, second minus along x) and divergence. -/
theorem outer2_differences (x y : Nat) (v : Nat → R) :
    (∀ i j, i < x + 1 → j < y →
      app (nd20 x y) (E20o x y) v (snum (ln21o x y) (0, i, j, 0)) =
        v (snum (ln20 x y) (0, i, j + 1, 0)) - v (snum (ln20 x y) (0, i, j, 0))) ∧
    (∀ i j, i < x → j < y + 1 →
      app (nd20 x y) (E20o x y) v (snum (ln21o x y) (1, i, j, 0)) =
        -(v (snum (ln20 x y) (0, i + 1, j, 0)) - v (snum (ln20 x y) (0, i, j, 0)))) ∧
    (∀ i j, i < x → j < y →
      app (nd21 x y) (E21o x y) v (snum (ln22 x y) (0, i, j, 0)) =
        (v (snum (ln21o x y) (0, i + 1, j, 0)) - v (snum (ln21o x y) (0, i, j, 0))) +
        (v (snum (ln21o x y) (1, i, j + 1, 0)) - v (snum (ln21o x y) (1, i, j, 0)))) := by
  refine ⟨?_, ?_, ?_⟩ <;> intro i j hi hj
  · have := (good20o x y).app (t := 0) rfl rfl (i := i) (j := j) (k := 0) ⟨hi, hj, Nat.one_pos⟩ v
    refine this.trans ?_
    simp; ring
  · have := (good20o x y).app (t := 1) rfl rfl (i := i) (j := j) (k := 0) ⟨hi, hj, Nat.one_pos⟩ v
    refine this.trans ?_
    simp; ring
  · have := (good21o x y).app (t := 0) rfl rfl (i := i) (j := j) (k := 0) ⟨hi, hj, Nat.one_pos⟩ v
    refine this.trans ?_
    simp; ring

/-- **C19, 1d.** -/
theorem grad1_differences (p : Nat) (v : Nat → R) (i : Nat) (hi : i < p) :
    app (nd10 p) (E10 p) v i = v (i + 1) - v i := by
  rw [E10_eq]
  have := (good10 p).app (t := 0) rfl rfl (i := i) (j := 0) (k := 0)
    ⟨hi, Nat.one_pos, Nat.one_pos⟩ v
  have e : (Comp.mk 0 p 1 1).num i 0 0 = i := by simp [Comp.num]
  rw [e] at this
  refine this.trans ?_
  simp [snum, ln10, Comp.num]; ring

/-- **C18, 3d: curl of grad vanishes**, on all cochains. -/
theorem curl_grad_zero (x y z : Nat) (v : Nat → R) (r : Nat) (hr : r < nd32 x y z) :
    app (nd31 x y z) (E31 x y z) (app (nd30 x y z) (E30 x y z) v) r = 0 := by
  obtain ⟨t, d, i, j, k, hd, ⟨hi, hj, hk⟩, rfl⟩ := Stacked.exists_snum (Numbering.st32 x y z) hr
  obtain ⟨g0, g1, g2⟩ := grad3_differences x y z v
  obtain ⟨c0, c1, c2⟩ := curl3_circulation x y z (app (nd30 x y z) (E30 x y z) v)
  rcases t with _ | _ | _ | t <;> simp [ln32] at hd <;> subst hd <;> simp only at hi hj hk
  · refine (c0 i j k hi hj hk).trans ?_
    rw [g2 _ _ _ (by omega) (by omega) (by omega), g2 _ _ _ (by omega) (by omega) (by omega),
      g1 _ _ _ (by omega) (by omega) (by omega), g1 _ _ _ (by omega) (by omega) (by omega)]
    ring
  · refine (c1 i j k hi hj hk).trans ?_
    rw [g0 _ _ _ (by omega) (by omega) (by omega), g0 _ _ _ (by omega) (by omega) (by omega),
      g2 _ _ _ (by omega) (by omega) (by omega), g2 _ _ _ (by omega) (by omega) (by omega)]
    ring
  · refine (c2 i j k hi hj hk).trans ?_
    rw [g1 _ _ _ (by omega) (by omega) (by omega), g1 _ _ _ (by omega) (by omega) (by omega),
      g0 _ _ _ (by omega) (by omega) (by omega), g0 _ _ _ (by omega) (by omega) (by omega)]
    ring

/-- **C18, 3d: div of curl vanishes**, on all cochains. -/
theorem div_curl_zero (x y z : Nat) (v : Nat → R) (r : Nat) (hr : r < nd33 x y z) :
    app (nd32 x y z) (E32 x y z) (app (nd31 x y z) (E31 x y z) v) r = 0 := by
  obtain ⟨t, d, i, j, k, hd, ⟨hi, hj, hk⟩, rfl⟩ := Stacked.exists_snum (Numbering.st33 x y z) hr
  obtain ⟨c0, c1, c2⟩ := curl3_circulation x y z v
  rcases t with _ | t <;> simp [ln33] at hd
  subst hd
  simp only at hi hj hk
  refine (div3_outflow x y z _ i j k hi hj hk).trans ?_
  rw [c0 _ _ _ (by omega) (by omega) (by omega), c0 _ _ _ (by omega) (by omega) (by omega),
    c1 _ _ _ (by omega) (by omega) (by omega), c1 _ _ _ (by omega) (by omega) (by omega),
    c2 _ _ _ (by omega) (by omega) (by omega), c2 _ _ _ (by omega) (by omega) (by omega)]
  ring

/-- **C18, 2d inner: rot of grad vanishes.** -/
theorem rot_grad_zero (x y : Nat) (v : Nat → R) (r : Nat) (hr : r < nd22 x y) :
    app (nd21 x y) (E21i x y) (app (nd20 x y) (E20i x y) v) r = 0 := by
  obtain ⟨t, d, i, j, k, hd, ⟨hi, hj, hk⟩, rfl⟩ := Stacked.exists_snum (Numbering.st22 x y) hr
  obtain ⟨g0, g1, _⟩ := inner2_differences x y v
  rcases t with _ | t <;> simp [ln22] at hd
  subst hd
  simp only at hi hj hk
  obtain rfl : k = 0 := by omega
  refine ((inner2_differences x y _).2.2 i j hi hj).trans ?_
  rw [g0 _ _ (by omega) (by omega), g0 _ _ (by omega) (by omega),
    g1 _ _ (by omega) (by omega), g1 _ _ (by omega) (by omega)]
  ring

/-- **C18, 2d outer: div of curl vanishes.** -/
theorem div_curl_outer_zero (x y : Nat) (v : Nat → R) (r : Nat) (hr : r < nd22 x y) :
    app (nd21 x y) (E21o x y) (app (nd20 x y) (E20o x y) v) r = 0 := by
  obtain ⟨t, d, i, j, k, hd, ⟨hi, hj, hk⟩, rfl⟩ := Stacked.exists_snum (Numbering.st22 x y) hr
  obtain ⟨g0, g1, _⟩ := outer2_differences x y v
  rcases t with _ | t <;> simp [ln22] at hd
  subst hd
  simp only at hi hj hk
  obtain rfl : k = 0 := by omega
  refine ((outer2_differences x y _).2.2 i j hi hj).trans ?_
  rw [g0 _ _ (by omega) (by omega), g0 _ _ (by omega) (by omega),
    g1 _ _ (by omega) (by omega), g1 _ _ (by omega) (by omega)]
  ring

/-- **C18, as matrices.** All four products of consecutive incidence matrices are zero matrices. -/
theorem incidence_complex :
    (∀ x y z r c, r < nd32 x y z → c < nd30 x y z →
      mul (nd31 x y z) (E31 x y z) (E30 x y z) r c = 0) ∧
    (∀ x y z r c, r < nd33 x y z → c < nd31 x y z →
      mul (nd32 x y z) (E32 x y z) (E31 x y z) r c = 0) ∧
    (∀ x y r c, r < nd22 x y → c < nd20 x y →
      mul (nd21 x y) (E21i x y) (E20i x y) r c = 0) ∧
    (∀ x y r c, r < nd22 x y → c < nd20 x y →
      mul (nd21 x y) (E21o x y) (E20o x y) r c = 0) :=
  ⟨fun x y z r c hr hc => mul_zero_of_app (fun v => curl_grad_zero x y z v r hr) c hc,
   fun x y z r c hr hc => mul_zero_of_app (fun v => div_curl_zero x y z v r hr) c hc,
   fun x y r c hr hc => mul_zero_of_app (fun v => rot_grad_zero x y v r hr) c hc,
   fun x y r c hr hc => mul_zero_of_app (fun v => div_curl_outer_zero x y v r hr) c hc⟩

/-- The complex is not trivial: both factors have non-zero entries. -/
example : E31 2 1 1 0 8 = 1 ∧ E30 2 1 1 8 0 = -1 := by decide +kernel

-- The values of a concrete stencil are ±1.
set_option hygiene false in
local macro "unit_tac" x:ident : tactic => `(tactic|
  (simp only [$x:ident, List.mem_cons, List.not_mem_nil, or_false, forall_eq_or_imp, forall_eq,
      List.map_cons, List.map_nil]
   simp))

/-- **C19, entries.** All entries are -1, 0 or 1. -/
theorem entries_unit (x y z r c : Nat) :
    ∀ e ∈ [E30 x y z r c, E31 x y z r c, E32 x y z r c, E20i x y r c, E21i x y r c, E20o x y r c,
      E21o x y r c, E10 x r c], e = 0 ∨ e = 1 ∨ e = -1 := by
  intro e he
  simp only [List.mem_cons, List.not_mem_nil, or_false] at he
  rcases he with rfl | rfl | rfl | rfl | rfl | rfl | rfl | rfl
  · exact entry_unit (by unit_tac st30) r c
  · exact entry_unit (by unit_tac st31) r c
  · exact entry_unit (by unit_tac st32) r c
  · exact entry_unit (by unit_tac st20i) r c
  · exact entry_unit (by unit_tac st21i) r c
  · exact entry_unit (by unit_tac st20o) r c
  · exact entry_unit (by unit_tac st21o) r c
  · rw [E10_eq]; exact entry_unit (by unit_tac st10) r c

/-- All assignments of the loops are inside the arrays (no IndexError, no wrap-around). -/
theorem assignments_in_range (x y z : Nat) :
    (∀ a ∈ assignments (ln31 x y z) (ln30 x y z) st30, a.1 < nd31 x y z ∧ a.2.1 < nd30 x y z) ∧
    (∀ a ∈ assignments (ln32 x y z) (ln31 x y z) st31, a.1 < nd32 x y z ∧ a.2.1 < nd31 x y z) ∧
    (∀ a ∈ assignments (ln33 x y z) (ln32 x y z) st32, a.1 < nd33 x y z ∧ a.2.1 < nd32 x y z) ∧
    (∀ a ∈ assignments (ln21i x y) (ln20 x y) st20i, a.1 < nd21 x y ∧ a.2.1 < nd20 x y) ∧
    (∀ a ∈ assignments (ln22 x y) (ln21i x y) st21i, a.1 < nd22 x y ∧ a.2.1 < nd21 x y) ∧
    (∀ a ∈ assignments (ln21o x y) (ln20 x y) st20o, a.1 < nd21 x y ∧ a.2.1 < nd20 x y) ∧
    (∀ a ∈ assignments (ln22 x y) (ln21o x y) st21o, a.1 < nd22 x y ∧ a.2.1 < nd21 x y) :=
  ⟨(good30 x y z).in_range, (good31 x y z).in_range, (good32 x y z).in_range,
    (good20i x y).in_range, (good21i x y).in_range, (good20o x y).in_range, (good21o x y).in_range⟩

/-- **C19, kernel in 3d.** The gradient of a cochain vanishes iff the cochain is constant. -/
theorem grad3_kernel (x y z : Nat) (v : Nat → R) :
    (∀ r < nd31 x y z, app (nd30 x y z) (E30 x y z) v r = 0) ↔
      ∀ a < nd30 x y z, ∀ b < nd30 x y z, v a = v b := by
  obtain ⟨g0, g1, g2⟩ := grad3_differences x y z v
  have lt0 : ∀ i j k, i < x + 1 → j < y + 1 → k < z + 1 →
      snum (ln30 x y z) (0, i, j, k) < nd30 x y z := fun i j k hi hj hk =>
    (Numbering.st30 x y z).bijective.1 0 _ i j k rfl ⟨hi, hj, hk⟩
  constructor
  · intro h
    have lt1 : ∀ (t : Nat) (d : Comp) (i j k : Nat), (ln31 x y z)[t]? = some d → d.valid i j k →
        d.num i j k < nd31 x y z := (Numbering.st31 x y z).bijective.1
    have hx : ∀ i j k, i < x + 1 → j < y + 1 → k < z + 1 →
        v (snum (ln30 x y z) (0, i, j, k)) = v (snum (ln30 x y z) (0, 0, j, k)) := by
      intro i
      induction i with
      | zero => intros; rfl
      | succ i ih =>
        intro j k hi hj hk
        have := g0 i j k (by omega) hj hk
        have this := this.symm.trans (h _ (lt1 0 _ i j k rfl ⟨by simp; omega, hj, hk⟩))
        rw [← ih j k (by omega) hj hk]
        exact sub_eq_zero.1 this
    have hy : ∀ j k, j < y + 1 → k < z + 1 →
        v (snum (ln30 x y z) (0, 0, j, k)) = v (snum (ln30 x y z) (0, 0, 0, k)) := by
      intro j
      induction j with
      | zero => intros; rfl
      | succ j ih =>
        intro k hj hk
        have := g1 0 j k (by omega) (by omega) hk
        have this := this.symm.trans (h _ (lt1 1 _ 0 j k rfl ⟨by simp, by simp; omega, hk⟩))
        rw [← ih k (by omega) hk]
        exact sub_eq_zero.1 this
    have hz : ∀ k, k < z + 1 →
        v (snum (ln30 x y z) (0, 0, 0, k)) = v (snum (ln30 x y z) (0, 0, 0, 0)) := by
      intro k
      induction k with
      | zero => intros; rfl
      | succ k ih =>
        intro hk
        have := g2 0 0 k (by omega) (by omega) (by omega)
        have this := this.symm.trans (h _ (lt1 2 _ 0 0 k rfl ⟨by simp, by simp, by simp; omega⟩))
        rw [← ih (by omega)]
        exact sub_eq_zero.1 this
    have all : ∀ a < nd30 x y z, v a = v (snum (ln30 x y z) (0, 0, 0, 0)) := by
      intro a ha
      obtain ⟨t, d, i, j, k, hd, ⟨hi, hj, hk⟩, rfl⟩ := Stacked.exists_snum (Numbering.st30 x y z) ha
      rcases t with _ | t <;> simp [ln30] at hd
      subst hd
      simp only at hi hj hk
      exact ((hx i j k hi hj hk).trans (hy j k hj hk)).trans (hz k hk)
    intro a ha b hb
    rw [all a ha, all b hb]
  · intro h r hr
    obtain ⟨t, d, i, j, k, hd, ⟨hi, hj, hk⟩, rfl⟩ := Stacked.exists_snum (Numbering.st31 x y z) hr
    rcases t with _ | _ | _ | t <;> simp [ln31] at hd <;> subst hd <;> simp only at hi hj hk
    · refine (g0 i j k hi hj hk).trans (sub_eq_zero.2 (h _ (lt0 _ _ _ ?_ ?_ ?_) _ (lt0 _ _ _ ?_ ?_ ?_)))
        <;> omega
    · refine (g1 i j k hi hj hk).trans (sub_eq_zero.2 (h _ (lt0 _ _ _ ?_ ?_ ?_) _ (lt0 _ _ _ ?_ ?_ ?_)))
        <;> omega
    · refine (g2 i j k hi hj hk).trans (sub_eq_zero.2 (h _ (lt0 _ _ _ ?_ ?_ ?_) _ (lt0 _ _ _ ?_ ?_ ?_)))
        <;> omega

omit [CommRing R] in
/-- Both 0-form operators in 2d have the nodal differences as their rows. -/
theorem kernel2_aux (x y : Nat) (v : Nat → R)
    (hx : ∀ i j, i < x → j < y + 1 →
      v (snum (ln20 x y) (0, i + 1, j, 0)) = v (snum (ln20 x y) (0, i, j, 0)))
    (hy : ∀ i j, i < x + 1 → j < y →
      v (snum (ln20 x y) (0, i, j + 1, 0)) = v (snum (ln20 x y) (0, i, j, 0))) :
    ∀ a < nd20 x y, ∀ b < nd20 x y, v a = v b := by
  have h1 : ∀ i j, i < x + 1 → j < y + 1 →
      v (snum (ln20 x y) (0, i, j, 0)) = v (snum (ln20 x y) (0, 0, j, 0)) := by
    intro i
    induction i with
    | zero => intros; rfl
    | succ i ih => intro j hi hj; rw [hx i j (by omega) hj, ih j (by omega) hj]
  have h2 : ∀ j, j < y + 1 →
      v (snum (ln20 x y) (0, 0, j, 0)) = v (snum (ln20 x y) (0, 0, 0, 0)) := by
    intro j
    induction j with
    | zero => intros; rfl
    | succ j ih => intro hj; rw [hy 0 j (by omega) (by omega), ih (by omega)]
  have all : ∀ a < nd20 x y, v a = v (snum (ln20 x y) (0, 0, 0, 0)) := by
    intro a ha
    obtain ⟨t, d, i, j, k, hd, ⟨hi, hj, hk⟩, rfl⟩ := Stacked.exists_snum (Numbering.st20 x y) ha
    rcases t with _ | t <;> simp [ln20] at hd
    subst hd
    simp only at hi hj hk
    obtain rfl : k = 0 := by omega
    exact (h1 i j hi hj).trans (h2 j hj)
  intro a ha b hb
  rw [all a ha, all b hb]

/-- **C19, kernel in 2d** (inner gradient and outer curl) **and 1d**. -/
theorem grad2_grad1_kernel (x y : Nat) (v : Nat → R) :
    ((∀ r < nd21 x y, app (nd20 x y) (E20i x y) v r = 0) ↔
      ∀ a < nd20 x y, ∀ b < nd20 x y, v a = v b) ∧
    ((∀ r < nd21 x y, app (nd20 x y) (E20o x y) v r = 0) ↔
      ∀ a < nd20 x y, ∀ b < nd20 x y, v a = v b) ∧
    ((∀ r < nd11 x, app (nd10 x) (E10 x) v r = 0) ↔
      ∀ a < nd10 x, ∀ b < nd10 x, v a = v b) := by
  have lt0 : ∀ i j, i < x + 1 → j < y + 1 →
      snum (ln20 x y) (0, i, j, 0) < nd20 x y := fun i j hi hj =>
    (Numbering.st20 x y).bijective.1 0 _ i j 0 rfl ⟨hi, hj, Nat.one_pos⟩
  refine ⟨⟨?_, ?_⟩, ⟨?_, ?_⟩, ⟨?_, ?_⟩⟩
  · intro h
    obtain ⟨g0, g1, _⟩ := inner2_differences x y v
    have lt1 := (Numbering.st21i x y).bijective.1
    apply kernel2_aux
    · intro i j hi hj
      have := g0 i j hi hj
      have this := this.symm.trans (h _ (lt1 0 _ i j 0 rfl ⟨hi, hj, Nat.one_pos⟩))
      exact sub_eq_zero.1 this
    · intro i j hi hj
      have := g1 i j hi hj
      have this := this.symm.trans (h _ (lt1 1 _ i j 0 rfl ⟨hi, hj, Nat.one_pos⟩))
      exact sub_eq_zero.1 this
  · intro h r hr
    obtain ⟨g0, g1, _⟩ := inner2_differences x y v
    obtain ⟨t, d, i, j, k, hd, ⟨hi, hj, hk⟩, rfl⟩ := Stacked.exists_snum (Numbering.st21i x y) hr
    rcases t with _ | _ | t <;> simp [ln21i] at hd <;> subst hd <;> simp only at hi hj hk <;>
      obtain rfl : k = 0 := by omega
    · refine (g0 i j hi hj).trans (sub_eq_zero.2 (h _ (lt0 _ _ ?_ ?_) _ (lt0 _ _ ?_ ?_))) <;> omega
    · refine (g1 i j hi hj).trans (sub_eq_zero.2 (h _ (lt0 _ _ ?_ ?_) _ (lt0 _ _ ?_ ?_))) <;> omega
  · intro h
    obtain ⟨g0, g1, _⟩ := outer2_differences x y v
    have lt1 := (Numbering.st21o x y).bijective.1
    apply kernel2_aux
    · intro i j hi hj
      have := g1 i j hi hj
      have this := this.symm.trans (h _ (lt1 1 _ i j 0 rfl ⟨hi, hj, Nat.one_pos⟩))
      exact sub_eq_zero.1 (neg_eq_zero.1 this)
    · intro i j hi hj
      have := g0 i j hi hj
      have this := this.symm.trans (h _ (lt1 0 _ i j 0 rfl ⟨hi, hj, Nat.one_pos⟩))
      exact sub_eq_zero.1 this
  · intro h r hr
    obtain ⟨g0, g1, _⟩ := outer2_differences x y v
    obtain ⟨t, d, i, j, k, hd, ⟨hi, hj, hk⟩, rfl⟩ := Stacked.exists_snum (Numbering.st21o x y) hr
    rcases t with _ | _ | t <;> simp [ln21o] at hd <;> subst hd <;> simp only at hi hj hk <;>
      obtain rfl : k = 0 := by omega
    · refine (g0 i j hi hj).trans (sub_eq_zero.2 (h _ (lt0 _ _ ?_ ?_) _ (lt0 _ _ ?_ ?_))) <;> omega
    · refine (g1 i j hi hj).trans (neg_eq_zero.2 (sub_eq_zero.2
        (h _ (lt0 _ _ ?_ ?_) _ (lt0 _ _ ?_ ?_)))) <;> omega
  · intro h
    have all : ∀ a < nd10 x, v a = v 0 := by
      intro a
      induction a with
      | zero => intro _; rfl
      | succ a ih =>
        intro ha
        have hax : a < x := by unfold nd10 at ha; omega
        have := grad1_differences x v a hax
        rw [h a hax] at this
        replace this := this.symm
        rw [← ih (by unfold nd10; omega)]
        exact sub_eq_zero.1 this
    intro a ha b hb
    rw [all a ha, all b hb]
  · intro h r hr
    have hrx : r < x := hr
    rw [grad1_differences x v r hrx]
    exact sub_eq_zero.2 (h _ (by unfold nd10; omega) _ (by unfold nd10; omega))

/-- The linear function of the nodes is not in the kernel. -/
example : app (R := Int) (nd20 2 1) (E20i 2 1) (fun n => n) 0 = 1 := by decide +kernel

end Phyem.Incidence
