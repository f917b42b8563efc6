import Verif.Numbering.Lemmas

/-!
Property C20: local numbering.
-/

namespace Phyem.Numbering

/-- The spaces msepy numbers: dimension, form degree, orientation, polynomial degrees. -/
inductive Space where
  | m3k0 (px py pz : Nat) | m3k1 (px py pz : Nat) | m3k2 (px py pz : Nat) | m3k3 (px py pz : Nat)
  | m2k0 (px py : Nat) | m2k1o (px py : Nat) | m2k1i (px py : Nat) | m2k2 (px py : Nat)
  | m1k0 (p : Nat) | m1k1 (p : Nat)

/-- `space.local_numbering(degree)`, dispatch of local_numbering/Lambda.py:22-40. -/
def Space.localNumbering : Space → List Comp
  | .m3k0 x y z => ln30 x y z | .m3k1 x y z => ln31 x y z
  | .m3k2 x y z => ln32 x y z | .m3k3 x y z => ln33 x y z
  | .m2k0 x y => ln20 x y | .m2k1o x y => ln21o x y | .m2k1i x y => ln21i x y
  | .m2k2 x y => ln22 x y | .m1k0 p => ln10 p | .m1k1 p => ln11 p

/-- `space.num_local_dofs(degree)`, num_local_dofs/Lambda.py:19-22. -/
def Space.numLocalDofs : Space → Nat
  | .m3k0 x y z => nd30 x y z | .m3k1 x y z => nd31 x y z
  | .m3k2 x y z => nd32 x y z | .m3k3 x y z => nd33 x y z
  | .m2k0 x y => nd20 x y | .m2k1o x y => nd21 x y | .m2k1i x y => nd21 x y
  | .m2k2 x y => nd22 x y | .m1k0 p => nd10 p | .m1k1 p => nd11 p

/-- `space.num_local_dof_components(degree)`, num_local_dof_components/Lambda.py:21-39. -/
def Space.numLocalDofComponents : Space → List Nat
  | .m3k0 x y z => ndc30 x y z | .m3k1 x y z => ndc31 x y z
  | .m3k2 x y z => ndc32 x y z | .m3k3 x y z => ndc33 x y z
  | .m2k0 x y => ndc20 x y | .m2k1o x y => ndc21o x y | .m2k1i x y => ndc21i x y
  | .m2k2 x y => ndc22 x y | .m1k0 p => ndc10 p | .m1k1 p => ndc11 p

theorem Space.stacked (s : Space) : Stacked 0 s.localNumbering s.numLocalDofs := by
  cases s
  · exact st30 _ _ _
  · exact st31 _ _ _
  · exact st32 _ _ _
  · exact st33 _ _ _
  · exact st20 _ _
  · exact st21o _ _
  · exact st21i _ _
  · exact st22 _ _
  · exact st10 _
  · exact st11 _

/-- **C20.** For every space and all degrees: every entry of every array of the local numbering is
below the number of local dofs, and every number below it belongs to exactly one entry. -/
theorem local_numbering_bijective (s : Space) :
    (∀ (t : Nat) (x : Comp) (i j k : Nat), s.localNumbering[t]? = some x →
      (i < x.a ∧ j < x.b ∧ k < x.c) → x.num i j k < s.numLocalDofs) ∧
    ∀ n < s.numLocalDofs, ∃ (t : Nat) (x : Comp) (i j k : Nat),
      (s.localNumbering[t]? = some x ∧ (i < x.a ∧ j < x.b ∧ k < x.c) ∧ x.num i j k = n) ∧
      ∀ (t' : Nat) (x' : Comp) (i' j' k' : Nat), s.localNumbering[t']? = some x' →
        (i' < x'.a ∧ j' < x'.b ∧ k' < x'.c) → x'.num i' j' k' = n →
        t' = t ∧ i' = i ∧ j' = j ∧ k' = k :=
  s.stacked.bijective

/-- **C20, order.** Reading the arrays one after the other in Fortran order gives `0, 1, 2, …`. -/
theorem local_numbering_order (s : Space) :
    (s.localNumbering.flatMap fun x =>
      (box x.a x.b x.c).map (fun t => x.num t.1 t.2.1 t.2.2)) = List.range s.numLocalDofs := by
  rw [s.stacked.enum, List.range_eq_range']; simp

/-- **C20, counts.** The component counts are the sizes of the arrays and add up to the number of
local dofs. -/
theorem local_numbering_counts (s : Space) :
    s.localNumbering.map Comp.size = s.numLocalDofComponents ∧
    s.numLocalDofComponents.sum = s.numLocalDofs := by
  cases s <;>
    simp [Space.localNumbering, Space.numLocalDofs, Space.numLocalDofComponents, ln30, ln31, ln32,
      ln33, ln20, ln21o, ln21i, ln22, ln10, ln11, nd30, nd31, nd32, nd33, nd20, nd21, nd22, nd10,
      nd11, ndc30, ndc31, ndc32, ndc33, ndc20, ndc21o, ndc21i, ndc22, ndc10, ndc11, Comp.size] <;>
    ring

/-- The number of dofs of the components of the vector fields in the documented shapes. -/
example : (Space.m3k1 2 3 1).localNumbering =
    [⟨0, 2, 4, 2⟩, ⟨16, 3, 3, 2⟩, ⟨34, 3, 4, 1⟩] ∧ (Space.m3k1 2 3 1).numLocalDofs = 46 := by
  decide

end Phyem.Numbering
