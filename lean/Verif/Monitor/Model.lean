import Mathlib.Algebra.Order.Field.Rat
import Mathlib.Algebra.Order.AbsoluteValue.Basic
import Mathlib.Algebra.BigOperators.Group.List.Basic
import Mathlib.Data.Rat.Floor
import Mathlib.Data.Nat.Digits.Lemmas

/-!
# The monitor of an iterator, and times as strings

Model of `tools/iterator/monitor.py`, of the calls of it in `tools/iterator/main.py:430-702`, and of `tools/miscellaneous/timer.py`. Clocks and
floats are rationals, `nan` is `none`. What the clock shows and whether a file can be written are inputs. Not modelled: the drawing of the figure,
and the information on the machine.
-/

namespace Phyem.Monitor

/-- The monitor, the table of results of the iterator and the `.csv` file (`monitor.py:22-68`). -/
structure St (R : Type) where
  ast : ℚ
  rpt : ℚ
  lastAst : ℚ
  lastRpt : ℚ
  start : ℚ
  times : List (Option ℚ)
  totals : List ℚ
  reports : ℕ
  rdf : List R
  csv : Option (List R)

/-- `IteratorMonitor(iterator, monitoring_factor, name)` and the first row of the table (`monitor.py:22-68`, `main.py:433-446`, `487-488`); `now0`,
`now1` and `now2` are what the clock shows, `old` is the file of an earlier run. A factor outside `[0, 1]` is refused. -/
def init {R : Type} (factor now0 now1 now2 : ℚ) (initial : R) (old : Option (List R)) : Option (St R) :=
  if 0 ≤ factor ∧ factor ≤ 1 then
    some ⟨600 * (1 - factor), 750 * (1 - factor), now0 - 600 * (1 - factor), now1 - 750 * (1 - factor), now2, [none], [0], 0, [initial], old⟩
  else none

/-- One iteration: the clock when it starts and when it ends, the row of results, and whether the first and the second attempt to write succeed. -/
structure Ev (R : Type) where
  t0 : ℚ
  t1 : ℚ
  row : R
  ok1 : Bool
  ok2 : Bool

/-- `save()` (`monitor.py:141-149`): a second attempt after the first; then it is skipped. -/
def save {R : Type} (s : St R) (ok1 ok2 : Bool) : St R :=
  if ok1 then { s with csv := some s.rdf } else if ok2 then { s with csv := some s.rdf } else s

/-- `report()` (`monitor.py:151-154`), which divides by the number of iterations (`75-79`, `254`): without any it fails. -/
def report {R : Type} (s : St R) : Option (St R) :=
  if s.times.length - 1 = 0 then none else some { s with reports := s.reports + 1 }

/-- An iteration (`main.py:509-511`, `670-672`, `monitor.py:98-124`): the row is appended, then `_measure_end` saves and reports. -/
def step {R : Type} (s : St R) (e : Ev R) : Option (St R) :=
  let s := { s with rdf := s.rdf ++ [e.row], times := s.times ++ [some (e.t1 - e.t0)], totals := s.totals ++ [e.t1 - s.start] }
  let s := if s.ast ≤ e.t1 - s.lastAst then { save s e.ok1 e.ok2 with lastAst := e.t1 } else s
  if s.rpt ≤ e.t1 - s.lastRpt then (report s).map fun s => { s with lastRpt := e.t1 } else some s

/-- All iterations. -/
def steps {R : Type} (s : St R) : List (Ev R) → Option (St R)
  | [] => some s
  | e :: es => (step s e).bind fun s => steps s es

/-- `save(over=True)` (`monitor.py:128-140`): an attempt is whether it succeeds, and the time since the first one when the clock is looked at after it;
attempts go on until one succeeds or this time exceeds a minute. -/
def saveOver {R : Type} (s : St R) : List (Bool × ℚ) → St R
  | [] => s
  | (ok, t) :: as => if ok then { s with csv := some s.rdf } else if 60 < t then s else saveOver s as

/-- `run` (`main.py:507-702`): the iterations, then the last save and report. -/
def run {R : Type} (s : St R) (es : List (Ev R)) (as : List (Bool × ℚ)) : Option (St R) :=
  (steps s es).bind fun s => report (saveOver s as)

/-- The file if the process ends while `to_csv` writes: the old contents are gone and `k` rows are written. -/
def interrupted {R : Type} (s : St R) (k : ℕ) : List R := s.rdf.take k

/-- `_estimated_remaining_time_` (`monitor.py:81-86`) at time `now`, with `num` iterations in total. -/
def remaining {R : Type} (s : St R) (num : ℕ) (now : ℚ) : ℚ :=
  (now - s.start) / (s.times.length - 1 : ℕ) * num - (now - s.start)

/-- `int(10000*(done/num)) / 100` (`monitor.py:261`). -/
def percentage (done num : ℕ) : ℚ := (⌊10000 * ((done : ℚ) / num)⌋ : ℚ) / 100

/-! ### The data of a report -/

/-- `_select_reasonable_amount_of_data(max_num, last_num)` (`monitor.py:528-542`) of `n` rows; `linspace` is exact here. -/
def select (n M L : ℕ) : Option (List ℕ) :=
  if 10 ≤ M ∧ 1 ≤ L ∧ L < M then
    if M < n then
      some (((List.range (M + 1 - L)).map fun k : ℕ => ⌊((n - L : ℕ) : ℚ) * k / (M - L : ℕ)⌋.toNat) ++ (List.range (L - 1)).map fun i => n + 1 - L + i)
    else some (List.range n)
  else none

/-- `max` of the valid times, which are not empty. -/
def maxOf : List ℚ → ℚ
  | [] => 0
  | x :: l => l.foldl max x

/-- `_filter_extreme_time(times)` (`monitor.py:544-571`). -/
def filterExtreme (times : List (Option ℚ)) : List (Option ℚ) :=
  let valid := times.filterMap id
  if valid.length > 0 then
    let avg := valid.sum / valid.length
    let mxt := maxOf valid
    if mxt > 2 * avg ∧ (valid.filter fun x => decide (x > 9 / 10 * mxt)).length = 1 then
      times.map fun x => if x.getD 0 > 9 / 10 * mxt then none else x
    else times
  else times

/-! ### Times as strings -/

/-- The digits of a number. -/
def natChars (n : ℕ) : List Char := if n = 0 then ['0'] else (Nat.digits 10 n).reverse.map Nat.digitChar

/-- `'%0wd' % z`, and `'{}'.format(z)` for `w = 0`. -/
def pad (w : ℕ) (z : ℤ) : List Char :=
  if z < 0 then '-' :: (List.replicate (w - 1 - (natChars z.natAbs).length) '0' ++ natChars z.natAbs)
  else List.replicate (w - (natChars z.natAbs).length) '0' ++ natChars z.natAbs

/-- `int(x)`, to which `%d` and `int` round. -/
def trunc (x : ℚ) : ℤ := if 0 ≤ x then ⌊x⌋ else ⌈x⌉

/-- `divmod(x, 60)` twice: hours, minutes and seconds (`timer.py:47-48`). -/
def divs (x : ℚ) : ℤ × ℤ × ℚ := (⌊(⌊x / 60⌋ : ℚ) / 60⌋, ⌊x / 60⌋ - 60 * ⌊(⌊x / 60⌋ : ℚ) / 60⌋, x - 60 * ⌊x / 60⌋)

/-- `seconds2hms` (`timer.py:44-49`). -/
def hms (x : ℚ) : List Char :=
  let d := divs x
  '[' :: (pad 2 d.1 ++ ':' :: (pad 2 d.2.1 ++ ':' :: (pad 2 (trunc d.2.2) ++ [']'])))

/-- `seconds2dhms` (`timer.py:59-66`). -/
def dhms (x : ℚ) : List Char :=
  let days := trunc (x / 86400)
  let d := divs (x - 86400 * days)
  '[' :: (pad 0 days ++ ':' :: (pad 2 d.1 ++ ':' :: (pad 2 d.2.1 ++ ':' :: (pad 2 (trunc d.2.2) ++ [']']))))

/-- `seconds2dhmsm` (`timer.py:68-76`). -/
def dhmsm (x : ℚ) : List Char :=
  let ms := (x - trunc x) * 1000
  let days := trunc (x / 86400)
  let d := divs (x - 86400 * days)
  '[' :: (pad 0 days ++ ':' :: (pad 2 d.1 ++ ':' :: (pad 2 d.2.1 ++ ':' :: (pad 2 (trunc d.2.2) ++ '.' :: (pad 3 (trunc ms) ++ [']'])))))

/-- The value of a string of digits. -/
def natOf : List Char → Option ℕ
  | [] => none
  | l => if l.all Char.isDigit then some (l.foldl (fun a c => 10 * a + (c.toNat - '0'.toNat)) 0) else none

/-- `int(s)` of digits with or without a minus; other strings are refused here. -/
def intOf : List Char → Option ℤ
  | '-' :: l => (natOf l).map fun n => -(n : ℤ)
  | l => (natOf l).map fun n => (n : ℤ)

/-- `s[1:-1]`. -/
def inner (l : List Char) : List Char := (l.drop 1).dropLast

/-- `hms2seconds` (`timer.py:78-85`). -/
def hms2 (l : List Char) : Option ℤ :=
  match (inner l).splitOn ':' with
  | [h, m, s] => do
    let h ← intOf h
    let m ← intOf m
    let s ← intOf s
    pure (h * 3600 + m * 60 + s)
  | _ => none

/-- `dhms2seconds` (`timer.py:87-95`). -/
def dhms2 (l : List Char) : Option ℤ :=
  match (inner l).splitOn ':' with
  | [d, h, m, s] => do
    let d ← intOf d
    let h ← intOf h
    let m ← intOf m
    let s ← intOf s
    pure (d * 86400 + h * 3600 + m * 60 + s)
  | _ => none

/-- `dhmsm2seconds` (`timer.py:97-107`). -/
def dhmsm2 (l : List Char) : Option ℚ :=
  match l.splitOn '.' with
  | [a, b] => do
    let ms ← intOf b.dropLast
    match (a.drop 1).splitOn ':' with
    | [d, h, m, s] => do
      let d ← intOf d
      let h ← intOf h
      let m ← intOf m
      let s ← intOf s
      pure ((d * 86400 + h * 3600 + m * 60 + s : ℤ) + (ms : ℚ) / 1000)
    | _ => none
  | _ => none

/-- What the report shows of a time: `seconds2dhmsm(x).split('.')[0] + ']'` (`monitor.py:255`). -/
def shown (x : ℚ) : List Char := ((dhmsm x).splitOn '.').headD [] ++ [']']

end Phyem.Monitor
