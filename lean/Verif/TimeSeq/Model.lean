import Verif.Cochain.Lemmas

/-
Model of the time sequences of `src/time_sequence.py`.  Times and instants are rational numbers (no
floating point rounding); `round(x, 8)` is `round8`.
-/

namespace Phyem.TimeSeq

/-- `round(x, 8)`. -/
abbrev round8 (x : ℚ) : ℚ := Cochain.parseT x

/-! ### Constant sequences -/

/-- `ConstantTimeSequence` after `__init__`. -/
structure Const where
  t0 : ℚ
  tmax : ℚ
  n : ℤ
  factor : ℤ
  dt : ℚ
  kmax : ℤ
deriving DecidableEq

/-- `ConstantTimeSequence.__init__`, src/time_sequence.py:252-281, for integer `n` and `factor`; `none` is a
failed assertion. -/
def mkConst (t0 tmax : ℚ) (n factor : ℤ) : Option Const :=
  if tmax > t0 ∧ n > 0 then
    if factor > 0 then
      if n % factor = 0 ∧ n / factor > 0 then
        some ⟨t0, tmax, n, factor, (tmax - t0) * factor / n, n / factor⟩
      else none
    else none
  else none

/-- `k % 1`. -/
def mod1 (k : ℚ) : ℚ := k - ⌊k⌋

/-- `_allowed_reminder`, src/time_sequence.py:280. -/
def allowed (c : Const) : List ℚ :=
  (List.range c.factor.toNat).map fun (i : ℕ) => round8 ((i : ℚ) / c.factor)

/-- `ConstantTimeSequence.__getitem__`, src/time_sequence.py:293-320; `none` is a TimeInstantError. -/
def getConst (c : Const) (k : ℚ) : Option ℚ :=
  let time := c.t0 + k * c.dt
  let remainder := round8 (mod1 k)
  if time < c.t0 - c.dt then none
  else if time > c.tmax + c.dt then none
  else if remainder ∉ allowed c then none
  else some time

/-- `TimeInterval.__init__` and `__call__`, src/time_sequence.py:609-627, 637-639. -/
def interval (ts te : ℚ) : Option ℚ := if te - ts > 0 then some (te - ts) else none

/-! ### Function sequences -/

/-- The state of a `FunctionTimeSequence`: the two lists and the number of calls of `func` so far. -/
structure Fun where
  steps : List ℚ
  times : List ℚ
  calls : ℕ
deriving DecidableEq

/-- `FunctionTimeSequence.__init__`, src/time_sequence.py:171-195. -/
def Fun.init (t0 : ℚ) : Fun := ⟨[0], [t0], 0⟩

/-- Advancing by one step, src/time_sequence.py:216-222.  `f` gives the results of the successive calls of
`func`; the flag says that `assert dt > 0` failed (the step was appended already). -/
def advance (f : ℕ → ℚ) (h : ℚ) (s : Fun) : Bool × Fun :=
  let steps := s.steps ++ [round8 (s.steps.getLastD 0 + h)]
  let dt := f s.calls
  if dt > 0 then (false, ⟨steps, s.times ++ [s.times.getLastD 0 + dt], s.calls + 1⟩)
  else (true, ⟨steps, s.times, s.calls + 1⟩)

/-- `l[i]` of a list `l` for the position which, counted from the end, is the position of index `i` in a
list of length `n`. -/
def fromEnd (l : List ℚ) (n i : ℕ) : Option ℚ := if n ≤ i + l.length then l[i + l.length - n]? else none

/-- The assertion and the interpolation once the segment starting at index `i` is found,
src/time_sequence.py:237-247. -/
def segment (s : Fun) (k lower : ℚ) (i : ℕ) : Option ℚ :=
  match s.steps[i + 1]?, fromEnd s.times s.steps.length i,
      fromEnd s.times s.steps.length (i + 1) with
  | some upper, some tl, some tu =>
    if k < upper then some (tl + (k - lower) / (upper - lower) * (tu - tl)) else none
  | _, _, _ => none

/-- The search loop, src/time_sequence.py:234-240, at index `i` (counted from the front; the code counts
from the end).  `none` is an exception. -/
def search (s : Fun) (k : ℚ) : ℕ → Option ℚ
  | 0 =>
    match s.steps[0]? with
    | none => none
    | some lower => if k > lower then segment s k lower 0 else none
  | i + 1 =>
    match s.steps[i + 1]? with
    | none => none
    | some lower => if k > lower then segment s k lower (i + 1) else search s k i

/-- The part of `__getitem__` after the possible advance, src/time_sequence.py:226-247. -/
def lookup (s : Fun) (k : ℚ) : Option ℚ :=
  if k ∈ s.steps then s.times[s.steps.idxOf k]?
  else if k > s.steps.getLastD 0 then none
  else if k < s.steps.headD 0 then none
  else if s.steps.length < 2 then none else search s k (s.steps.length - 2)

/-- `FunctionTimeSequence.__getitem__`, src/time_sequence.py:211-247; `none` is an exception. -/
def getFun (f : ℕ → ℚ) (h : ℚ) (s : Fun) (k : ℚ) : Option ℚ × Fun :=
  let k := round8 k
  if k > s.steps.getLastD 0 then
    let r := advance f h s
    if r.1 then (none, r.2) else (lookup r.2 k, r.2)
  else (lookup s k, s)

/-- The state after a history of look-ups (exceptions are caught). -/
def runFun (f : ℕ → ℚ) (h t0 : ℚ) (ks : List ℚ) : Fun :=
  ks.foldl (fun s k => (getFun f h s k).2) (Fun.init t0)

end Phyem.TimeSeq
