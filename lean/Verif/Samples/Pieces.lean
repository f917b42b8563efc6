import Mathlib.Data.List.Basic
import Mathlib.Data.Rat.Floor
import Mathlib.Data.List.GetD

/-!
# Functions given piece by piece

Model of `/repo/tools/gen_piece_wise.py`. Arrays are the lists of their entries in the order of numpy after
`np.broadcast_arrays` (lines 115 and 121). What depends on the version of numpy is a parameter: whether that returns a
tuple, and what `np.place` makes of a number that is put into an array of integers. An exception is `none`. Not modelled: the
shape of the result, further arguments `args` and `kw`, other types than floats and integers.
-/

namespace Phyem.Samples

/-- What depends on the version of numpy: whether `np.broadcast_arrays` returns a tuple (from 2.0 on), and what is stored when
a number is put into an array of integers, or an exception. -/
structure Numpy where
  tuples : Bool
  store : ℚ → Option ℚ

/-- An entry of `funclist`: a number, or a function of the arrays of the points. A number it returns is a list of one entry. -/
inductive Piece
  | num (c : ℚ)
  | call (f : List (List ℚ) → Option (List ℚ))

/-- `np.extract(mask, arr)`: the entries of the flat array where the mask is true; an index beyond the end is an error. -/
def extract (mask : List Bool) (arr : List ℚ) : Option (List ℚ) :=
  (mask.zipIdx.filter (·.1)).mapM fun p => arr[p.2]?

/-- The loop of `np.place`: `k` entries have been placed. -/
def placeLoop (vals : List ℚ) : Nat → List Bool → List ℚ → List ℚ
  | k, true :: m, _ :: o => vals.getD (k % vals.length) 0 :: placeLoop vals (k + 1) m o
  | k, false :: m, a :: o => a :: placeLoop vals k m o
  | _, _, o => o

/-- `np.place(out, mask, vals)`: the values are repeated if there are too few; nothing cannot be repeated. -/
def place (mask : List Bool) (vals : List ℚ) (out : List ℚ) : Option (List ℚ) :=
  if vals.isEmpty then if mask.any id then none else some out else some (placeLoop vals 0 mask out)

/-- Conversion of a float to an integer: it is cut off. -/
def truncate (q : ℚ) : ℚ := if 0 ≤ q then ⌊q⌋ else ⌈q⌉

/-- `~np.logical_or.reduce(condlist, axis=0)` (`gen_piece_wise.py:119`); of no conditions it is one entry, which is true. -/
def remaining : List (List Bool) → List Bool
  | [] => [true]
  | c :: l => (l.foldl (fun a b => List.zipWith (· || ·) a b) c).map (!·)

/-- One pass of the loop (`gen_piece_wise.py:131-136`); `ints` says that the arrays have integer entries. -/
def piece (np : Numpy) (ints : Bool) (xs : List (List ℚ)) (out : List ℚ) (cond : List Bool) (f : Piece) :
    Option (List ℚ) :=
  (match f with
    | .num c => some [c]
    | .call g => (xs.mapM (extract cond)).bind g).bind fun vals =>
    (if ints then vals.mapM np.store else some vals).bind fun vals => place cond vals out

/-- `gen_piece_wise.py:20-138`. -/
def genpiecewise (np : Numpy) (ints : Bool) (xs : List (List ℚ)) (conds : List (List Bool)) (funcs : List Piece)
    (fill : ℚ) : Option (List ℚ) :=
  if conds.length + 1 ≠ funcs.length ∧ conds.length ≠ funcs.length then none
  else
    (if conds.length + 1 = funcs.length then
      if np.tuples then none else some (conds ++ [remaining conds])
    else some conds).bind fun conds =>
      match conds with
      | [] => none
      | c :: l =>
        ((c :: l).zip funcs).foldlM (fun out p => piece np ints xs out p.1 p.2)
          (c.map fun _ => if ints then truncate fill else fill)

/-! ### Concentrations with a jump -/

/-- `___zero___` (`iniCond_PNPNS_InitialDiscontinuousConcentrations.py:19-21`) -/
def zeroPiece : Piece := .call fun cols => some ((cols.getD 0 []).map fun _ => 1 / 1000000)
/-- `___one___` (`iniCond_PNPNS_InitialDiscontinuousConcentrations.py:14-16`) -/
def onePiece : Piece := .call fun cols => some ((cols.getD 0 []).map fun _ => 1)

/-- `___p0___` (`iniCond_PNPNS_InitialDiscontinuousConcentrations.py:24-30`) at the points of two arrays of floats -/
def jumpP (np : Numpy) (x y : List ℚ) : Option (List ℚ) :=
  genpiecewise np false [x, y] [x.map fun x => decide (x < 3 / 4),
    List.zipWith (fun x y => decide (x ≥ 3 / 4) && decide (y < 11 / 20)) x y,
    List.zipWith (fun x y => decide (x ≥ 3 / 4) && decide (y ≥ 11 / 20)) x y] [zeroPiece, zeroPiece, onePiece] 0

/-- `___n0___` (`iniCond_PNPNS_InitialDiscontinuousConcentrations.py:33-39`) at the points of two arrays of floats -/
def jumpN (np : Numpy) (x y : List ℚ) : Option (List ℚ) :=
  genpiecewise np false [x, y] [x.map fun x => decide (x < 3 / 4),
    List.zipWith (fun x y => decide (x ≥ 3 / 4) && decide (y > 9 / 20)) x y,
    List.zipWith (fun x y => decide (x ≥ 3 / 4) && decide (y ≤ 9 / 20)) x y] [zeroPiece, zeroPiece, onePiece] 0

end Phyem.Samples
