import Verif.Funcs.Model
import Mathlib.Analysis.SpecialFunctions.Log.Basic
import Mathlib.Analysis.SpecialFunctions.Pow.Real

/-!
# Functions of time and space: the operators that need real numbers
-/

namespace Phyem.Funcs

/-- `_2d/wrappers/vector.py:547-560` with `helpers/norm_helper.py:15-16` -/
noncomputable def V2.norm (v : V2 ℝ) : S2 ℝ :=
  .plain (fun t x y => Real.sqrt (v.v0 t x y ^ 2 + v.v1 t x y ^ 2)) none

/-- `_2d/wrappers/scalar.py:353-357` with `helpers/exp_helper.py:16-18` -/
noncomputable def S2.exp (a : S2 ℝ) : S2 ℝ := .plain (fun t x y => Real.exp (a.s t x y)) a.mesh

/-- `_2d/wrappers/scalar.py:339-350` with `helpers/log_helper.py:17-23`; only the natural logarithm is
accepted.  The logarithm of a number that is not positive is not a number in the code, it is a junk
value here. -/
noncomputable def S2.log (a : S2 ℝ) : S2 ℝ := .plain (fun t x y => Real.log (a.s t x y)) a.mesh

/-- `_2d/wrappers/scalar.py:360-362` with `helpers/scalar_abs.py:17-18` -/
def S2.abs (a : S2 ℝ) : S2 ℝ := .plain (fun t x y => |a.s t x y|) a.mesh

end Phyem.Funcs
