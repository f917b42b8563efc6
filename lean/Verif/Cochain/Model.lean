import Verif.Base.Dict
import Mathlib.Data.Rat.Floor
import Mathlib.Algebra.Order.Field.Rat
import Mathlib.Data.List.Sort
import Mathlib.Algebra.Module.Defs

/-
Model of the cochain stores of `msepy/form/cochain/main.py` and `msehtt/static/form/cochain/main.py`
and of the interpolation in `msehtt/static/form/addons/ic.py`.

Times are rational numbers (floating point rounding is not modelled); cochains are values of an
arbitrary type.  A cochain refused by `_receive` (wrong type or shape) is `none`.  Only base forms are
modelled: the other ones delegate to their base form.
-/

namespace Phyem.Cochain

/-- `round(x)` to an integer, half to even. -/
def roundEven (x : ℚ) : ℤ :=
  let f := ⌊x⌋
  if x - f < 1 / 2 then f else if 1 / 2 < x - f then f + 1 else if f % 2 = 0 then f else f + 1

/-- `_parse_t`: `round(t, 8)`, msepy/form/cochain/main.py:29-33, msehtt/static/form/cochain/main.py:26-31. -/
def parseT (t : ℚ) : ℚ := roundEven (t * 10 ^ 8) / 10 ^ 8

/-- The state of a store: `_tcd` and `_newest_t`. -/
structure S (V : Type) where
  tcd : Dict ℚ V
  newest : Option ℚ

def S.empty {V : Type} : S V := ⟨[], none⟩

/-- The argument `what` of `clean`. -/
inductive What where
  | none
  | num (x : ℤ)
  | all
  | other
deriving DecidableEq

/-- `_setting['auto_cleaning']`: False, True or a number. -/
inductive Auto where
  | off
  | on
  | num (n : ℤ)
deriving DecidableEq

/-- `keys.sort()`. -/
def sortedKeys {V : Type} (d : Dict ℚ V) : List ℚ := d.keys.insertionSort (· ≤ ·)

/-- Python `l[-n:]` for `n > 0`. -/
def lastN {α : Type} (n : ℕ) (l : List α) : List α := l.drop (l.length - n)

/-- The branch `what < 0` common to both `clean` methods: keep the `n` largest times
(msepy/form/cochain/main.py:107-119, msehtt/static/form/cochain/main.py:115-125). -/
def keepLargest {V : Type} (d : Dict ℚ V) (n : ℕ) : Dict ℚ V :=
  if d.length ≤ n then d else d.restrict (lastN n (sortedKeys d))

/-! ### msepy -/

/-- `MsePyRootFormCochain.clean`, msepy/form/cochain/main.py:90-131; the flag is an exception. -/
def cleanPy {V : Type} (s : S V) : What → Bool × S V
  | .none =>
    match s.newest with
    | none => (true, s)
    | some n =>
      match s.tcd.get n with
      | none => (true, s)
      | some v => (false, { s with tcd := [(n, v)] })
  | .num x => if x < 0 then (false, { s with tcd := keepLargest s.tcd (-x).toNat }) else (true, s)
  | .all => (true, s)
  | .other => (true, s)

/-- The update of `_newest_t`, msepy/form/cochain/main.py:72-75, msehtt/static/form/cochain/main.py:80-83. -/
def newer (m : Option ℚ) (t : ℚ) : ℚ :=
  match m with
  | none => t
  | some m => max m t

/-- `MsePyRootFormCochain._set`, msepy/form/cochain/main.py:35-78, of an unlocked store. -/
def setPy {V : Type} (auto : Auto) (s : S V) (t : ℚ) (c : Option V) : Bool × S V :=
  let left : Option (Option ℤ) :=        -- none: assertion failed; some none: no cleaning
    match auto with
    | .off => some none
    | .on => some (some 10)
    | .num n => if n ≥ 2 then some (some n) else none
  match left with
  | none => (true, s)
  | some l =>
    let s := match l with
      | none => s
      | some n => if (s.tcd.length : ℤ) > 2 * n then (cleanPy s (.num (-n))).2 else s
    match c with
    | none => (true, s)
    | some v =>
      let t := parseT t
      (false, ⟨s.tcd.put t v, some (newer s.newest t)⟩)

/-- `cochain[t]`, msepy/form/cochain/main.py:133-146, msehtt/static/form/cochain/main.py:153-165; `none` is
an exception. -/
def getItem {V : Type} (s : S V) (t : Option ℚ) : Option V :=
  match t with
  | some t => s.tcd.get (parseT t)
  | none =>
    match s.newest with
    | some t => s.tcd.get (parseT t)
    | none => none

/-- The search of the segment in `__call__`, msepy/form/cochain/main.py:176-183: the first stored time
`≤ t` and its successor; `none` is an IndexError or the failed assertion. -/
def segPy (t : ℚ) : List ℚ → Option (ℚ × ℚ)
  | [] => none
  | a :: l =>
    if a ≤ t then
      match l with
      | [] => none
      | b :: _ => some (a, b)
    else segPy t l

/-- Interpolation on a segment, msepy/form/cochain/main.py:186-190, ic.py:38-44. -/
def lerp {V : Type} [AddCommGroup V] [Module ℚ V] (s : S V) (t : ℚ) (ab : ℚ × ℚ) : Option V :=
  match getItem s (some ab.1), getItem s (some ab.2) with
  | some va, some vb => some (va + ((t - ab.1) / (ab.2 - ab.1)) • (vb - va))
  | _, _ => none

/-- `cochain(t)`, msepy/form/cochain/main.py:148-194. -/
def callPy {V : Type} [AddCommGroup V] [Module ℚ V] (s : S V) (t : ℚ) : Option V :=
  let t := parseT t
  match s.tcd.get t with
  | some v => some v
  | none =>
    let times := sortedKeys s.tcd
    if times.length < 2 then none
    else if t < times.headD 0 then none
    else if times.getLastD 0 < t then none
    else
      match segPy t times with
      | none => none
      | some ab => lerp s t ab

/-! ### msehtt -/

/-- `max(list(self._tcd.keys()))`, `None` when empty; msehtt/static/form/cochain/main.py:135-138. -/
def maxKey {V : Type} (d : Dict ℚ V) : Option ℚ := (sortedKeys d).getLast?

/-- `MseHttCochain.clean(what)`, msehtt/static/form/cochain/main.py:104-138. -/
def cleanHtt {V : Type} (s : S V) : What → Bool × S V
  | .none =>
    match s.newest with
    | none => (false, ⟨[], none⟩)
    | some n =>
      match s.tcd.get n with
      | none => (true, s)
      | some v => (false, ⟨[(n, v)], some n⟩)
  | .num x =>
    if x < 0 then
      let d := keepLargest s.tcd (-x).toNat
      (false, ⟨d, maxKey d⟩)
    else (true, s)
  | .all => (false, ⟨[], none⟩)
  | .other => (true, s)

/-- `MseHttCochain.clean(t=t)`, msehtt/static/form/cochain/main.py:140-146. -/
def cleanTHtt {V : Type} (s : S V) (t : ℚ) : S V := { s with tcd := s.tcd.del (parseT t) }

/-- `MseHttCochain._set`, msehtt/static/form/cochain/main.py:52-85.  A non-integer setting is truncated
(`int(...)`) beforehand. -/
def setHtt {V : Type} (auto : Auto) (s : S V) (t : ℚ) (c : Option V) : Bool × S V :=
  let left : Option (Option ℤ) :=
    match auto with
    | .off => some none
    | .on => some (some 3)
    | .num n => if n ≥ 2 then some (some n) else none
  match left with
  | none => (true, s)
  | some l =>
    let r : Bool × S V := match l with
      | none => (false, s)
      | some n =>
        if (s.tcd.length : ℤ) ≥ n then
          let r := (cleanHtt s (.num (-n + 1))).2
          (decide ((r.tcd.length : ℤ) ≠ n - 1), r)
        else (false, s)
    if r.1 then (true, r.2)
    else
      match c with
      | none => (true, r.2)
      | some v =>
        let t := parseT t
        (false, ⟨r.2.tcd.put t v, some (newer r.2.newest t)⟩)

/-- The segment search of `MseHtt_From_InterpolateCopy`, msehtt/static/form/addons/ic.py:31-38: the first
pair of successive stored times enclosing `t`. -/
def segIc (t : ℚ) : List ℚ → Option (ℚ × ℚ)
  | a :: b :: l => if a ≤ t ∧ t ≤ b then some (a, b) else segIc t (b :: l)
  | _ => none

/-- `MseHtt_From_InterpolateCopy(f, t)`, msehtt/static/form/addons/ic.py:19-47 (with or without
`extrapolate`, which raises NotImplementedError outside the range). -/
def interpIc {V : Type} [AddCommGroup V] [Module ℚ V] (s : S V) (t : ℚ) : Option V :=
  let times := sortedKeys s.tcd
  if times.length ≤ 1 then none
  else if t < times.headD 0 then none
  else if times.getLastD 0 < t then none
  else
    match segIc t times with
    | none => none
    | some ab => lerp s t ab

/-! ### Histories -/

/-- A public operation on a msepy store. -/
inductive OpPy (V : Type) where
  | set (auto : Auto) (t : ℚ) (c : Option V)
  | clean (w : What)

def stepPy {V : Type} (s : S V) : OpPy V → Bool × S V
  | .set a t c => setPy a s t c
  | .clean w => cleanPy s w

/-- Exceptions are caught by the caller and the history goes on. -/
def runPy {V : Type} (ops : List (OpPy V)) : S V := ops.foldl (fun s o => (stepPy s o).2) S.empty

/-- A public operation on a msehtt store. -/
inductive OpHtt (V : Type) where
  | set (auto : Auto) (t : ℚ) (c : Option V)
  | clean (w : What)
  | cleanT (t : ℚ)

def stepHtt {V : Type} (s : S V) : OpHtt V → Bool × S V
  | .set a t c => setHtt a s t c
  | .clean w => cleanHtt s w
  | .cleanT t => (false, cleanTHtt s t)

def runHtt {V : Type} (ops : List (OpHtt V)) : S V := ops.foldl (fun s o => (stepHtt s o).2) S.empty

end Phyem.Cochain
