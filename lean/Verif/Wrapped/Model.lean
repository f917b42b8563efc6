import Mathlib.Data.List.Basic
import Mathlib.Algebra.Ring.Defs
import Mathlib.Algebra.Ring.Rat

/-!
Nonlinear operators that wrap a maker of data (`msehtt/tools/nonlinear_system/operator/local_wrapper.py`) and the kinds of functions that are made of
Python functions (`tools/vector_calculus.py`).

Forms are numbers: two are the same form iff they have the same number. A vector is a list of rational numbers.
Cochains are objects that are not equal to `None`; `count(None)` on bare arrays, which raises an error, is not modelled.
-/

namespace Phyem.Wrapped

/-- The loops of the constructors (`local_wrapper.py:11-18`, `50-57`): `cf is not ocf` for all places `i ≠ j`. -/
def noRepeat (l : List ℕ) : Bool :=
  (List.range l.length).all fun i => (List.range l.length).all fun j => if i = j then true else decide (l[i]? ≠ l[j]?)

/-- A maker of data: its forms and `reduce_to_vector` (`local_wrapper.py:7-39`). -/
structure Maker (C : Type) where
  forms : List ℕ
  toVector : List (Option C) → List ℚ

/-- The constructor of a maker. `none`: an error is raised. -/
def Maker.make {C : Type} (forms : List ℕ) (f : List (Option C) → List ℚ) : Option (Maker C) := if noRepeat forms then some ⟨forms, f⟩ else none

/-- `reduce` (`local_wrapper.py:28-35`). -/
def Maker.reduce {C : Type} (d : Maker C) (given : List (Option C)) : Option (List ℚ) :=
  if given.length = d.forms.length then (if given.countP (·.isNone) = 1 then some (d.toVector given) else none) else none

/-- `MseHttStatic_Local_Wrapper_NonlinearOperator` (`local_wrapper.py:42-62`). -/
structure Op (C : Type) where
  maker : Maker C
  forms : List ℕ

/-- Its constructor (`local_wrapper.py:45-62`). -/
def Op.make {C : Type} (d : Maker C) (forms : List ℕ) : Option (Op C) := if noRepeat forms then some ⟨d, forms⟩ else none

/-- The loop of `_evaluate` (`local_wrapper.py:83-91`): a form or a cochain may be `None`. -/
def fill {C : Type} (forms : List ℕ) : List (Option ℕ × Option C) → List (Option C) → Option (List (Option C))
  | [], given => some given
  | (some f, some c) :: ps, given => if f ∈ forms then fill forms ps (given.set (forms.idxOf f) (some c)) else fill forms ps given
  | _ :: _, _ => none

/-- `_evaluate` (`local_wrapper.py:80-95`). -/
def Op.evaluate {C : Type} (o : Op C) (ps : List (Option ℕ × Option C)) : Option (List ℚ) :=
  (fill o.forms ps (List.replicate o.forms.length none)).bind o.maker.reduce

/-- `__rmul__` with a number, and `___Rmul_float_DM___` (`local_wrapper.py:97-118`). -/
def Op.rmul {C : Type} (k : ℚ) (o : Op C) : Option (Op C) :=
  (Maker.make o.maker.forms fun given => (o.maker.toVector given).map (k * ·)).bind fun d => Op.make d o.forms

/-- What is given to `scalar`: a function or a bound method with its number of arguments, the number 0, or another thing that can be called or not. -/
inductive Arg where
  | function (args : ℕ)
  | method (args : ℕ)
  | zero
  | callable
  | other
  deriving DecidableEq

/-- `scalar(func)` (`vector_calculus.py:45-75`): the dimension of the scalar. `dim`: `get_embedding_space_dim()`. -/
def scalar (dim : ℕ) : Arg → Option ℕ
  | .function k => pick ((k : ℤ) - 1)
  | .method k => pick ((k : ℤ) - 2)
  | .zero => if dim = 2 ∨ dim = 3 then pick dim else none
  | .callable => none
  | .other => none
where
  /-- The last branches (`vector_calculus.py:68-75`). -/
  pick (n : ℤ) : Option ℕ := if n = 1 then some 1 else if n = 2 then some 2 else if n = 3 then some 3 else none

/-- `vector(*funcs)` (`vector_calculus.py:78-85`): the dimension for this number of functions. -/
def vector (k : ℕ) : Option ℕ := if k = 2 then some 2 else if k = 3 then some 3 else none

/-- `tensor(*funcs)` (`vector_calculus.py:88-96`). -/
def tensor (k : ℕ) : Option ℕ := if k = 4 then some 2 else if k = 9 then some 3 else none

end Phyem.Wrapped
