import Verif.WeakForm.Model

/-!
What the rewrites of weak formulations should do.
-/

namespace Phyem.WeakForm

open Phyem.Expr (Str)

/-- The value of left minus right of an equation, given the values of its terms. -/
def Eqn.diff {R T : Type} [CommRing R] (v : T → R) (e : Eqn T) : R :=
  signedSum v e.left - signedSum v e.right

/-- The signed terms of an equation after everything is brought to the left side. -/
def Eqn.homog {T : Type} (e : Eqn T) : List (Sign × T) :=
  e.left ++ e.right.map fun p => (p.1.flip, p.2)

/-- The terms of an equation, left first: term `k` is what the index `'i-k'` names. -/
def Eqn.terms {T : Type} (e : Eqn T) : List (Sign × T) := e.left ++ e.right

/-- Side `left` of an equation is the side of term number `k`. -/
def Eqn.onLeft {T : Type} (e : Eqn T) (k : ℕ) : Prop := k < e.left.length

/-- The numbers of `ms` separated by commas. -/
def written : List ℕ → Str
  | [] => []
  | [m] => str m
  | m :: ms => str m ++ ',' :: written ms

/-- What a pattern with the numbers `L` in front of the equal sign and `R` behind it asks for: if
one side is empty and not all numbers are given, the other numbers go to the empty side, in
increasing order. -/
def meant (n : ℕ) (L R : List ℕ) : List ℕ × List ℕ :=
  if R = [] ∧ L.length < n then (L, (List.range n).filter fun m => decide (m ∉ L))
  else if L = [] ∧ R.length < n then ((List.range n).filter fun m => decide (m ∉ R), R)
  else (L, R)

/-- The signed term number `m` of an equation as it appears on the left (or right) side. -/
def Eqn.move {T : Type} (e : Eqn T) (toLeft : Bool) (m : ℕ) : Option (Sign × T) :=
  if m < e.left.length then
    e.left[m]?.map fun p => if toLeft then p else (p.1.flip, p.2)
  else
    e.right[m - e.left.length]?.map fun p => if toLeft then (p.1.flip, p.2) else p

end Phyem.WeakForm
