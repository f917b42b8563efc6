import Mathlib.Data.List.Basic

/-
Model of `tools/miscellaneous/multigrid_scheme.py`.
-/

namespace Phyem.Multigrid

/-- A step: `RestrictionStep(layer)` goes from `layer` to `layer - 1`
(tools/miscellaneous/multigrid_scheme.py:350-361), `InterpolationStep(layer)` goes from `layer` to
`layer + 1` (364-375). -/
inductive Step where
  | R (layer : Int)
  | I (layer : Int)
deriving DecidableEq, Repr

/-- `range(n)[::-1][:-1]` and `range(n)[:-1]`, used in lines 214-217 and 240-246. -/
def downLayers (n : Nat) : List Int := ((List.range n).reverse.dropLast).map Int.ofNat
def upLayers (n : Nat) : List Int := ((List.range n).dropLast).map Int.ofNat

/-- `_parse_V_cycle_`, tools/miscellaneous/multigrid_scheme.py:193-218. -/
def vCycle (n : Nat) : List Step := (downLayers n).map .R ++ (upLayers n).map .I

/-- `_parse_N_cycle_`, tools/miscellaneous/multigrid_scheme.py:220-247. -/
def nCycle (n : Nat) : List Step :=
  (upLayers n).map .I ++ (downLayers n).map .R ++ (upLayers n).map .I

/-- `c_type`: `'R'` or `'I'`. -/
inductive Dir where
  | R | I
deriving DecidableEq, Repr

def Dir.flip : Dir → Dir
  | .R => .I
  | .I => .R

/-- State of the loops of lines 281-294 and 332-345: `(scheme, c_layer)`. One pass of
`for i in range(s)`. -/
def emit (d : Dir) (st : List Step × Int) : List Step × Int :=
  match d with
  | .R => (st.1 ++ [.R st.2], st.2 - 1)
  | .I => (st.1 ++ [.I st.2], st.2 + 1)

/-- `for i in range(s)` (no pass when `s` is negative). -/
def emitN (d : Dir) : Nat → List Step × Int → List Step × Int
  | 0, st => st
  | k + 1, st => emitN d k (emit d st)

/-- `for S in sequences`; the numbers `int(S)` are given (splitting the string at `'-'` and parsing the
numbers is not modelled; a string cannot contain negative numbers because `'-'` separates). -/
def walk : Dir → List Nat → List Step × Int → List Step × Int
  | _, [], st => st
  | d, s :: ss, st => walk d.flip ss (emitN d s st)

/-- The closing assertion, lines 295 and 346: the last step is an interpolation from layer `n-2`; an
empty scheme raises an IndexError. -/
def accept (n : Nat) (scheme : List Step) : Option (List Step) :=
  match scheme.getLast? with
  | some (.I l) => if l = (n : Int) - 2 then some scheme else none
  | _ => none

/-- `_parse_W_cycle_`, tools/miscellaneous/multigrid_scheme.py:249-296. -/
def wCycle (n : Nat) (seq : List Nat) : Option (List Step) :=
  accept n (walk .R seq ([], (n : Int) - 1)).1

/-- `_parse_FMG_cycle_`, tools/miscellaneous/multigrid_scheme.py:298-347. -/
def fmgCycle (n : Nat) (seq : List Nat) : Option (List Step) :=
  accept n (walk .I seq ([], 0)).1

/-- One pass of `for step in self._scheme_[::-1]`, lines 172-179: the state is `(stack, pair_dict)`;
steps are represented by their position, as `repr_index_dict` does (the representation of a step
contains its address, hence is unique). The top of the python stack (its last entry) is the head
here. Popping from an empty stack raises. -/
def pairStep (st : Option (List Nat × List (Nat × Option Nat))) (x : Step × Nat) :
    Option (List Nat × List (Nat × Option Nat)) :=
  match st with
  | none => none
  | some (stack, dict) =>
    match x.1 with
    | .I _ => some (x.2 :: stack, dict)
    | .R _ =>
      match stack with
      | [] => none
      | i :: stack => some (stack, dict ++ [(i, some x.2)])

/-- `pairs`, tools/miscellaneous/multigrid_scheme.py:143-191. The dict is a list of key-value pairs in
insertion order; no key is inserted twice. -/
def pairs (scheme : List Step) : Option (List (Nat × Option Nat)) :=
  match scheme.zipIdx.reverse.foldl pairStep (some ([], [])) with
  | none => none
  | some (stack, dict) => some (dict ++ stack.map (fun i => (i, none)))

end Phyem.Multigrid
