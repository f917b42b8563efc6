import Verif.Sections.Points
import Verif.Sections.Chosen

/-!
Where two lines in the plane meet (`tools/functions/space/_2d/line_intersection.py`), and functions that are given line by line
(`tools/functions/time_space/_2d/wrappers/scalar_on_lines.py`, `tools/functions/time_space/_2d/wrappers/vector_on_lines.py`).

Numbers are those of a field, or real numbers: no rounding but the one the code asks for.
-/

namespace Phyem.Lines

open Phyem.Sections
open Classical

/-! ### Where two lines meet -/

section
variable {K : Type} [Field K] [DecidableEq K]

/-- `__det__` (`line_intersection.py:7-8`). -/
def det (a b : K × K) : K := a.1 * b.2 - a.2 * b.1

/-- `find_line_intersection` (`line_intersection.py:11-44`). `none`: `None`. -/
def meet (a1 a2 b1 b2 : K × K) : Option (K × K) :=
  let xdiff := (a1.1 - a2.1, b1.1 - b2.1)
  let ydiff := (a1.2 - a2.2, b1.2 - b2.2)
  let div := det xdiff ydiff
  if div = 0 then none
  else
    let d := (det a1 a2, det b1 b2)
    some (det d xdiff / div, det d ydiff / div)

end

/-! ### Functions on lines -/

/-- A `StraightSegment2` or a `Curve2`. -/
inductive Cond where
  | segment (s : (ℝ × ℝ) × (ℝ × ℝ))
  | curve (c : Curve)

/-- Whether a point is on it (`scalar_on_lines.py:77-88`, `vector_on_lines.py:82-93`). `none`: an `AssertionError`. -/
noncomputable def Cond.has (c : Cond) (P : ℝ × ℝ) : Option Bool :=
  match c with
  | .segment s => some (onSegment s P)
  | .curve c => onCurve c P

/-- `find_point_satisfy_which_condition` from the condition with number `i` on (`scalar_on_lines.py:74-89`, `vector_on_lines.py:79-94`). -/
noncomputable def findFrom (P : ℝ × ℝ) : ℕ → List Cond → Option (Option ℕ)
  | _, [] => some none
  | i, c :: cs => (c.has P).bind fun b => if b then some (some i) else findFrom P (i + 1) cs

/-- A function of time and place. -/
abbrev Fn := ℝ → ℝ → ℝ → ℝ

/-- What may be given for a line: a `T2dScalar` or a component of a `T2dVector`, a number, a function. -/
inductive Given where
  | wrapped (f : Fn)
  | number (c : ℝ)
  | function (f : Fn)

/-- The function that is kept for it (`scalar_on_lines.py:47-52`, `vector_on_lines.py:47-55`, `tools/functions/time_space/_2d/constant.py:9-36`). -/
def Given.fn : Given → Fn
  | .wrapped f => f
  | .number c => fun t _ _ => c + 0 + 0 * t
  | .function f => f

/-- The type of the entries of an array. -/
inductive Kind where
  | int
  | float
deriving DecidableEq

/-- What becomes of a number when it is assigned to an entry: an array of integers cuts off what is after the point. -/
noncomputable def Kind.store (k : Kind) (v : ℝ) : ℝ :=
  match k with
  | .float => v
  | .int => if 0 ≤ v then (⌊v⌋ : ℝ) else (⌈v⌉ : ℝ)

/-- An argument or a result: a number of Python, or an array with one, two or another number of dimensions. -/
inductive Arg where
  | num (x : ℝ)
  | arr1 (k : Kind) (xs : List ℝ)
  | arr2 (k : Kind) (xs : List (List ℝ))
  | other

/-- The value at a point: of the function of the first line that has it; `some none` if there is no such line (`scalar_on_lines.py:95-99`). -/
noncomputable def value (pairs : List (Cond × Fn)) (t : ℝ) (P : ℝ × ℝ) : Option (Option ℝ) :=
  match findFrom P 0 (pairs.map Prod.fst) with
  | none => none
  | some none => some none
  | some (some i) => (pairs[i]?).map fun p => some (p.2 t P.1 P.2)

/-- An entry of `U = np.zeros_like(x)` after the loops (`scalar_on_lines.py:113-118`, `scalar_on_lines.py:124-129`). -/
noncomputable def entry (pairs : List (Cond × Fn)) (t : ℝ) (k : Kind) (P : ℝ × ℝ) : Option ℝ :=
  (value pairs t P).map fun v => v.elim 0 k.store

/-- `_GenFunction_SOL_.__call__` (`scalar_on_lines.py:91-134`). The shapes of two arrays with two dimensions are compared by their rows, so that
arrays without rows are all alike. `none`: an exception. -/
noncomputable def call (pairs : List (Cond × Fn)) (t : ℝ) : Arg → Arg → Option Arg
  | .num x, .num y => (value pairs t (x, y)).map fun v => .num (v.getD 0)
  | .arr1 k xs, .arr1 _ ys =>
    if xs.length = ys.length then ((xs.zip ys).mapM (entry pairs t k)).map (.arr1 k) else none
  | .arr2 k xs, .arr2 _ ys =>
    if xs.map List.length = ys.map List.length then
      ((xs.zip ys).mapM fun r : List ℝ × List ℝ => (r.1.zip r.2).mapM (entry pairs t k)).map (.arr2 k)
    else none
  | _, _ => none

/-- `scalar_on_lines` (`scalar_on_lines.py:16-56`). -/
noncomputable def scalarOnLines (pairs : List (Cond × Given)) : ℝ → Arg → Arg → Option Arg := call (pairs.map fun p => (p.1, p.2.fn))

/-- The two components at a point (`vector_on_lines.py:108-112`). -/
noncomputable def value2 (pairs : List (Cond × Fn × Fn)) (t : ℝ) (P : ℝ × ℝ) : Option (Option (ℝ × ℝ)) :=
  match findFrom P 0 (pairs.map Prod.fst) with
  | none => none
  | some none => some none
  | some (some i) => (pairs[i]?).map fun p => some (p.2.1 t P.1 P.2, p.2.2 t P.1 P.2)

/-- An entry of `U = np.zeros_like(x)` and of `V = np.zeros_like(y)` after the loops (`vector_on_lines.py:126-133`, `vector_on_lines.py:138-145`). -/
noncomputable def entry2 (pairs : List (Cond × Fn × Fn)) (t : ℝ) (k k' : Kind) (P : ℝ × ℝ) : Option (ℝ × ℝ) :=
  (value2 pairs t P).map fun v => v.elim (0, 0) fun w => (k.store w.1, k'.store w.2)

/-- `_GenFunction_VOL_.__call__` (`vector_on_lines.py:104-150`). `none`: an exception. -/
noncomputable def call2 (pairs : List (Cond × Fn × Fn)) (t : ℝ) : Arg → Arg → Option (Arg × Arg)
  | .num x, .num y => (value2 pairs t (x, y)).map fun v => (.num (v.getD (0, 0)).1, .num (v.getD (0, 0)).2)
  | .arr1 k xs, .arr1 k' ys =>
    if xs.length = ys.length then
      ((xs.zip ys).mapM (entry2 pairs t k k')).map fun l => (.arr1 k (l.map Prod.fst), .arr1 k' (l.map Prod.snd))
    else none
  | .arr2 k xs, .arr2 k' ys =>
    if xs.map List.length = ys.map List.length then
      ((xs.zip ys).mapM fun r : List ℝ × List ℝ => (r.1.zip r.2).mapM (entry2 pairs t k k')).map fun l =>
        (.arr2 k (l.map (List.map Prod.fst)), .arr2 k' (l.map (List.map Prod.snd)))
    else none
  | _, _ => none

/-- `vector_on_lines` (`vector_on_lines.py:16-59`): both components together, as `v0v1_linked_object` gives them. -/
noncomputable def vectorOnLines (pairs : List (Cond × Given × Given)) : ℝ → Arg → Arg → Option (Arg × Arg) :=
  call2 (pairs.map fun p => (p.1, p.2.1.fn, p.2.2.fn))

/-- Its components one by one (`vector_on_lines.py:96-102`). -/
noncomputable def component (pairs : List (Cond × Given × Given)) (second : Bool) (t : ℝ) (x y : Arg) : Option Arg :=
  (vectorOnLines pairs t x y).map fun p => if second then p.2 else p.1

end Phyem.Lines
