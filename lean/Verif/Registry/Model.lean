import Mathlib.Data.List.Basic

/-
Models of the `unknowns` setters (`src/pde.py`, `src/wf/main.py`) and of `define_bc` (`src/bc.py`).
-/

namespace Phyem.Registry

/-- A form as the setters see it: identity, and whether it is a root form object of class `Form`. -/
structure F where
  id : Nat
  isRoot : Bool
deriving DecidableEq

/-- The right hand side of `x.unknowns = …`: None, a list or tuple, or another object. -/
inductive Arg where
  | none
  | list (l : List F)
  | single (f : F)
  | junk
deriving DecidableEq

/-- Equation object: number of equations, elementary forms, and the stored unknowns. -/
structure Eqs where
  n : Nat
  efs : List F
  unknowns : Option (List F)
deriving DecidableEq

/-- The common tail of both setters: wrapping of a single object when there is one equation, and the
four assertions; `none` is an exception.  A single non-Form object in a list fails the root form
assertion. -/
def validate (e : Eqs) (a : Arg) : Option (List F) :=
  let wrapped : Option (List F) :=
    match a with
    | .list l => some l
    | .single f => if e.n = 1 then some [f] else none
    | .none => none
    | .junk => none
  match wrapped with
  | none => none
  | some l =>
    if l.length = e.n ∧ l.all (fun f => f.isRoot && e.efs.contains f) then some l else none

/-- `PDE.unknowns` setter, src/pde.py:790-808.  Lines 793-794 only build a string. -/
def setPde (e : Eqs) (a : Arg) : Bool × Eqs :=
  match validate e a with
  | none => (true, e)
  | some l => (false, { e with unknowns := some l })

/-- `WeakFormulation.unknowns` setter, src/wf/main.py:653-675. -/
def setWf (e : Eqs) (a : Arg) : Bool × Eqs :=
  if e.unknowns.isSome then (true, e)
  else if a = .none then (false, { e with unknowns := none })
  else
    match validate e a with
    | none => (true, e)
    | some l => (false, { e with unknowns := some l })

/-- A history of assignments (exceptions are caught by the caller). -/
def runWf (e : Eqs) (as : List Arg) : Eqs := as.foldl (fun e a => (setWf e a).2) e
def runPde (e : Eqs) (as : List Arg) : Eqs := as.foldl (fun e a => (setPde e a).2) e

/-! ### Boundary conditions -/

/-- A value given for a section: one Form, or a list of objects (`none` is an object that is not a
Form). -/
inductive BcArg where
  | form (f : Nat)
  | list (l : List (Option Nat))

def BcArg.toList : BcArg → List (Option Nat)
  | .form f => [some f]
  | .list l => l

/-- The dictionary `_valid_bcs` in insertion order. -/
abbrev Bcs := List (String × List Nat)

/-- `if key not in d: d[key] = list()`, then `d[key].append(bc)`; src/bc.py:50-54. -/
def add : Bcs → String → Nat → Bcs
  | [], k, f => [(k, [f])]
  | (k', l) :: d, k, f => if k' = k then (k', l ++ [f]) :: d else (k', l) :: add d k f

/-- The inner loop over the conditions of one section, src/bc.py:48-54; the flag says that an assertion
failed. -/
def addAll (d : Bcs) (k : String) : List (Option Nat) → Bool × Bcs
  | [] => (false, d)
  | none :: _ => (true, d)
  | some f :: l => addAll (add d k f) k l

/-- `define_bc(bcs_dict)`, src/bc.py:31-54, for a dictionary given as its list of items.  `secs` are the
boundary sections that exist. -/
def defineBc (secs : List String) (d : Bcs) : List (String × BcArg) → Bool × Bcs
  | [] => (false, d)
  | (k, v) :: items =>
    if k ∈ secs then
      let r := addAll d k v.toList
      if r.1 then (true, r.2) else defineBc secs r.2 items
    else (true, d)

/-- `bc[key]`, src/bc.py:61-64; `[]` stands for the failing assertion. -/
def conditions (d : Bcs) (k : String) : List Nat := (d.lookup k).getD []

/-- A history of `define_bc` calls. -/
def runBc (secs : List String) (calls : List (List (String × BcArg))) : Bcs :=
  calls.foldl (fun d c => (defineBc secs d c).2) []

end Phyem.Registry
