import Mathlib.Data.Rat.Defs
import Mathlib.Data.Rat.Floor
import Mathlib.Algebra.Order.Field.Rat
import Mathlib.Algebra.BigOperators.Group.List.Basic

/-!
Degrees of spaces (`msepy/space/degree.py`). The Lobatto nodes of a degree are a function that is given. Truth values as degrees are not modelled.
-/

namespace Phyem.Degree

inductive Py where
  | int (n : ℤ)
  | flt (q : ℚ)
  | seq (l : List Py)
  | other

/-- A number: `isinstance(x, (int, float))`. -/
def num : Py → Option ℚ
  | .int n => some n
  | .flt q => some q
  | _ => none

/-- `x % 1 == 0 and x > 0`. -/
def whole (q : ℚ) : Bool := decide (q.den = 1) && decide (0 < q)

/-- `Quadrature(p, category='Lobatto')`: the assertions (`tools/quadrature.py:61-64`, `116-117`), and the degree it has. -/
def lobatto (q : ℚ) : Option ℕ :=
  if 0 ≤ q ∧ q.den = 1 then (if 1 ≤ q.num then some q.num.toNat else none) else none

def isInt : Py → Bool
  | .int _ => true
  | _ => false

def isSeq : Py → Bool
  | .seq _ => true
  | _ => false

/-- `_parse_degree` for `Lambda` and `bundle-diagonal` (`degree.py:28-50`): the degrees of the nodes by axis. `none`: an error is raised. -/
def parse (m : ℕ) (d : Py) : Option (List ℕ) :=
  match d with
  | .int n => if whole n then (List.replicate m (n : ℚ)).mapM lobatto else none
  | .flt q => if whole q then (List.replicate m q).mapM lobatto else none
  | .seq l => if l.all isInt then (if l.length = m then (l.mapM num).bind fun p => p.mapM lobatto else none) else none
  | .other => none

/-- One row of a matrix of degrees (`degree.py:67-72`). -/
def row (m : ℕ) : Py → Option (List ℚ)
  | .seq l => if l.length = m then (l.mapM num).bind fun p => if p.all whole then some p else none else none
  | _ => none

/-- `_parse_degree` for `bundle` (`degree.py:52-85`). -/
def parseB (m : ℕ) (d : Py) : Option (List (List ℕ)) :=
  match d with
  | .int n => if whole n then (List.replicate m (List.replicate m (n : ℚ))).mapM fun r => r.mapM lobatto else none
  | .flt q => if whole q then (List.replicate m (List.replicate m q)).mapM fun r => r.mapM lobatto else none
  | .seq l => if l.all isSeq then (if l.length = m then (l.mapM (row m)).bind fun p => p.mapM fun r => r.mapM lobatto else none) else none
  | .other => none

/-- `nodes[1:] - nodes[:-1]` (`degree.py:119`). -/
def edge (nodes : List ℚ) : List ℚ := List.zipWith (· - ·) nodes.tail nodes.dropLast

/-- `nodes` and `edges` by axis (`degree.py:33-35`, `43-45`, `114-119`). -/
def nodes (quad : ℕ → List ℚ) (p : List ℕ) : List (List ℚ) := p.map quad

def edges (quad : ℕ → List ℚ) (p : List ℕ) : List (List ℚ) := (nodes quad p).map edge

end Phyem.Degree
