import Verif.Incidence.Lemmas

/-
The eight incidence matrices satisfy the hypotheses of the general lemmas.
-/

namespace Phyem.Incidence

open Phyem.Numbering

theorem Comp.valid_iff (b x y z i j k : Nat) :
    (Comp.mk b x y z).valid i j k ↔ i < x ∧ j < y ∧ k < z := Iff.rfl

-- Closes the two index conditions of `Good` for concrete stencils.
set_option hygiene false in
local macro "stencil_cases" : tactic => `(tactic|
  (intro t d st i j k h hs hv
   rcases t with _ | _ | _ | t <;> simp at h hs
   all_goals (subst h; subst hs; simp [Comp.valid_iff] at hv)
   all_goals first
     | (simp; done)
     | (intro s hm
        simp only [List.mem_cons, List.not_mem_nil, or_false] at hm
        rcases hm with rfl | rfl | rfl | rfl | rfl | rfl <;>
          (refine ⟨_, rfl, ?_, ?_, ?_⟩ <;> simp only <;> omega))
     | (intro s hm
        simp only [List.mem_cons, List.not_mem_nil, or_false] at hm
        rcases hm with rfl | rfl | rfl | rfl <;>
          (refine ⟨_, rfl, ?_, ?_, ?_⟩ <;> simp only <;> omega))
     | (intro s hm
        simp only [List.mem_cons, List.not_mem_nil, or_false] at hm
        rcases hm with rfl | rfl <;>
          (refine ⟨_, rfl, ?_, ?_, ?_⟩ <;> simp only <;> omega))))

theorem good32 (x y z : Nat) : Good (ln33 x y z) (ln32 x y z) (nd33 x y z) (nd32 x y z) st32 :=
  ⟨Numbering.st33 x y z, Numbering.st32 x y z, rfl,
    by unfold ln33 st32; stencil_cases, by unfold ln33 ln32 st32; stencil_cases⟩

theorem good31 (x y z : Nat) : Good (ln32 x y z) (ln31 x y z) (nd32 x y z) (nd31 x y z) st31 :=
  ⟨Numbering.st32 x y z, Numbering.st31 x y z, rfl,
    by unfold ln32 st31; stencil_cases, by unfold ln32 ln31 st31; stencil_cases⟩

theorem good30 (x y z : Nat) : Good (ln31 x y z) (ln30 x y z) (nd31 x y z) (nd30 x y z) st30 :=
  ⟨Numbering.st31 x y z, Numbering.st30 x y z, rfl,
    by unfold ln31 st30; stencil_cases, by unfold ln31 ln30 st30; stencil_cases⟩

theorem good20i (x y : Nat) : Good (ln21i x y) (ln20 x y) (nd21 x y) (nd20 x y) st20i :=
  ⟨Numbering.st21i x y, Numbering.st20 x y, rfl,
    by unfold ln21i st20i; stencil_cases, by unfold ln21i ln20 st20i; stencil_cases⟩

theorem good21i (x y : Nat) : Good (ln22 x y) (ln21i x y) (nd22 x y) (nd21 x y) st21i :=
  ⟨Numbering.st22 x y, Numbering.st21i x y, rfl,
    by unfold ln22 st21i; stencil_cases, by unfold ln22 ln21i st21i; stencil_cases⟩

theorem good20o (x y : Nat) : Good (ln21o x y) (ln20 x y) (nd21 x y) (nd20 x y) st20o :=
  ⟨Numbering.st21o x y, Numbering.st20 x y, rfl,
    by unfold ln21o st20o; stencil_cases, by unfold ln21o ln20 st20o; stencil_cases⟩

theorem good21o (x y : Nat) : Good (ln22 x y) (ln21o x y) (nd22 x y) (nd21 x y) st21o :=
  ⟨Numbering.st22 x y, Numbering.st21o x y, rfl,
    by unfold ln22 st21o; stencil_cases, by unfold ln22 ln21o st21o; stencil_cases⟩

/-- Stencil of `_m1_n1_k0` in the general form. -/
def st10 : List Stencil := [fun i _ _ => [((0, i, 0, 0), -1), ((0, i + 1, 0, 0), 1)]]

theorem good10 (p : Nat) : Good (ln11 p) (ln10 p) (nd11 p) (nd10 p) st10 :=
  ⟨Numbering.st11 p, Numbering.st10 p, rfl,
    by unfold ln11 st10; stencil_cases, by unfold ln11 ln10 st10; stencil_cases⟩

theorem E10_eq (p : Nat) : E10 p = run (assignments (ln11 p) (ln10 p) st10) := by
  unfold E10 assignments ln11 ln10 st10 fill box
  simp [List.flatMap_map, snum, Comp.num]

/-- Every row index is the number of a dof. -/
theorem Stacked.exists_snum {xs : List Comp} {e : Nat} (h : Stacked 0 xs e) {n : Nat} (hn : n < e) :
    ∃ (t : Nat) (x : Comp) (i j k : Nat), xs[t]? = some x ∧ x.valid i j k ∧ x.num i j k = n := by
  obtain ⟨t, x, i, j, k, h1, _⟩ := h.bijective.2 n hn
  exact ⟨t, x, i, j, k, h1⟩

end Phyem.Incidence
