import Verif.Wrapped.Props

/-! Cases that meet the hypotheses. -/

namespace Phyem.Wrapped

/-- The product of the cochains that are given. -/
def exMaker : Maker ℚ := ⟨[1, 2, 3], fun l => [(l.map fun x => x.getD 1).foldl (· * ·) 1]⟩

/-- An operator of three forms, other than those of its maker. -/
def exOp : Op ℚ := ⟨exMaker, [7, 8, 9]⟩

example : exOp.forms.Nodup ∧ exOp.maker.forms.Nodup := by decide

example : Op.make exMaker [7, 8, 7] = none ∧ (Op.make exMaker [7, 8, 9]).isSome := by decide +kernel

example : exOp.evaluate [(some 9, some 5), (some 4, some 100), (some 7, some 2), (some 9, some 3)] = some [6] := by decide +kernel

example : exOp.evaluate [(some 9, some 5)] = none ∧ exOp.evaluate [(some 9, some 5), (none, some 3), (some 7, some 2)] = none := by decide +kernel

example : [(some 9, some 5), (some 7, some (2 : ℚ))].Perm [(some 7, some 2), (some 9, some 5)] ∧ ([(some 9, some 5), (some 7, some (2 : ℚ))].map (·.1)).Nodup :=
  ⟨List.Perm.swap _ _ _, by decide⟩

example : scalar 2 (.function 3) = some 2 ∧ scalar 2 (.method 3) = some 1 ∧ scalar 1 .zero = none ∧ scalar 3 .zero = some 3 := by decide

end Phyem.Wrapped
