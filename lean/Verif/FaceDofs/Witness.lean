import Verif.FaceDofs.Comp

/-! Examples, and what goes wrong. -/

namespace Phyem.FaceDofs

open Phyem.Dict

/-- Degree (2, 1, 1): the nodes, edges and faces on two faces. -/
example : nodesOn 2 1 1 1 = some [2, 5, 8, 11] ∧ edgesOn 2 1 1 4 = some [0, 1, 2, 3, 8, 9, 10] ∧ facesOn (fresh 2 1 1) 3 = some [5, 6] ∧
    nodesOn 2 1 1 6 = none := by decide +kernel

/-- The numbers of one component are numbers of dofs of this component. -/
def Inside : Prop := ∀ px py pz f c l s, 0 < px → 0 < py → 0 < pz → component (fresh px py pz) f = some ((c, l), s) → ∀ z ∈ l, 0 ≤ z

/-- C188, what fails: on the faces z- and z+ they are negative. -/
theorem inside_refuted : ¬ Inside := by
  intro h
  have := h 1 1 1 4 2 [-2] _ (by decide) (by decide) (by decide) (by rfl) (-2) (by simp)
  omega

/-- What is given for a face does not depend on whether the dofs of one component were asked for before. -/
def Kept : Prop := ∀ px py pz f r s, 0 < px → 0 < py → 0 < pz → component (fresh px py pz) f = some (r, s) → facesOn s f = facesOn (fresh px py pz) f

/-- C188, what fails: after the dofs of component 1 on y- were asked for, the dofs on y- are given as those of faces across x. -/
theorem kept_refuted : ¬ Kept := by
  intro h
  have := h 1 1 1 2 (1, [0]) _ (by decide) (by decide) (by decide) (by rfl)
  exact absurd this (by decide +kernel)

/-- Nodes along the axes, for `places2_spec`, and for `places3_array` of degree (1, 1, 1). -/
example : get (places2 1 2 (fun i => i) (fun j => 10 * j) fun x y => x + y) 5 = some ((1, 20), 21) ∧
    ∃ D, places3 1 1 1 [-1, 1] [-1, 1] [-1, 1] = some D ∧ get D 7 = some (.num 1, .num 1, .arr [-1, 1]) := by
  refine ⟨by decide +kernel, ?_⟩
  refine ⟨_, by rfl, by decide +kernel⟩

/-- The place of a dof of the nodes of a hexahedron is that of its node. -/
def Places3 : Prop := ∀ px py pz X Y Z, 0 < px → 0 < py → 0 < pz → X.length = px + 1 → Y.length = py + 1 → Z.length = pz + 1 →
  ∃ D, places3 px py pz X Y Z = some D ∧ ∀ i ≤ px, ∀ j ≤ py, ∀ k ≤ pz,
    get D ((i + (px + 1) * j + (px + 1) * (py + 1) * k : ℕ) : ℤ) = some (.num (X.getD i 0), .num (Y.getD j 0), .num (Z.getD k 0))

/-- C189, what fails: whatever the degree is, it is not. -/
theorem places3_refuted : ¬ Places3 := by
  intro h
  obtain ⟨D, hD, hp⟩ := h 1 1 1 [-1, 1] [-1, 1] [-1, 1] (by decide) (by decide) (by decide) rfl rfl rfl
  obtain ⟨l, hl⟩ := places3_array 1 1 1 _ _ _ D hD _ _ (hp 0 (by decide) 0 (by decide) 0 (by decide))
  simp at hl

end Phyem.FaceDofs
