import Mathlib.Data.List.Sort

/-
Model of `tools/iterator/main.py` (class `Iterator`): the bookkeeping of computed inputs and
the run loop with caching to a file.
-/

namespace Phyem.Iterator

/-- The key of an input: `int` or `str`.
Models the return values of `Iterator._make_inputs_key`, tools/iterator/main.py:328-344. -/
inductive Key where
  | int (i : Int)
  | str (s : String)
deriving DecidableEq, Repr

/-- The three lists `[range_list, int_list, str_list]` of computed inputs; a python
`range(a, b)` (step one, the only ones ever stored) is the pair `(a, b)`.
tools/iterator/main.py:243 (initial value), 349, 368, 399. -/
structure Computed where
  ranges : List (Int × Int)
  ints : List Int
  strs : List String
deriving DecidableEq, Repr

/-- tools/iterator/main.py:243: `'computed inputs': [[], [], []]`. -/
def Computed.empty : Computed := ⟨[], [], []⟩

/-- `i in range(a, b)`. -/
def inRange (i : Int) (r : Int × Int) : Bool := decide (r.1 ≤ i) && decide (i < r.2)

/-- `Iterator._check_input_cache`, tools/iterator/main.py:346-363. -/
def check (c : Computed) : Key → Bool
  | .int i => if c.ints.contains i then true else c.ranges.any (inRange i)
  | .str s => c.strs.contains s

/-- `Iterator._update_computed_inputs`, tools/iterator/main.py:365-390. -/
def update (c : Computed) : Key → Computed
  | .int i =>
    if c.ints.contains i then c
    else if c.ranges.any (inRange i) then c
    else { c with ints := c.ints ++ [i] }
  | .str s => if c.strs.contains s then c else { c with strs := c.strs ++ [s] }

/-- The inner loop `for r, RANGE in enumerate(range_list)` with its two `break`s: extend the
first range that ends or starts next to `i`; `none` when there is none.
tools/iterator/main.py:404-414. -/
def absorb (i : Int) : List (Int × Int) → Option (List (Int × Int))
  | [] => none
  | (a, b) :: rs =>
    if i = b then some ((a, i + 1) :: rs)
    else if i = a - 1 then some ((i, b) :: rs)
    else (absorb i rs).map ((a, b) :: ·)

/-- One pass of `for i in int_list`: state is `(range_list, to_be_removed)`.
tools/iterator/main.py:402-414. -/
def absorbStep (st : List (Int × Int) × List Int) (i : Int) : List (Int × Int) × List Int :=
  match absorb i st.1 with
  | some rs => (rs, st.2 ++ [i])
  | none => st

/-- `Iterator._compress_computed_input_list`, tools/iterator/main.py:392-429: sort the ints,
let neighbouring ranges absorb them, remove the absorbed ones, then turn the first pair
`i, i+1` into a new range. -/
def compress (c : Computed) : Computed :=
  let ints := c.ints.insertionSort (· ≤ ·)
  let (ranges, toRemove) := ints.foldl absorbStep (c.ranges, [])
  let ints := toRemove.foldl (fun l i => l.erase i) ints
  match ints.find? (fun i => ints.contains (i + 1)) with
  | none => { c with ranges := ranges, ints := ints }
  | some i => { c with ranges := ranges ++ [(i, i + 2)], ints := (ints.erase i).erase (i + 1) }

/-- The operations the run loop performs on the record (tools/iterator/main.py:562-563). -/
inductive RecOp where
  | record (k : Key)
  | compress
deriving Repr

def recStep (c : Computed) : RecOp → Computed
  | .record k => update c k
  | .compress => compress c

/-- Any history of records and compressions. -/
def recRun (ops : List RecOp) : Computed := ops.foldl recStep Computed.empty

/-! ### Input keys of floats

A float input is modelled by the exact rational it stands for. -/

/-- The number of 10⁻⁵ units printed by `"%.5f" % q` (correctly rounded, ties to even). -/
def round5 (q : Rat) : Int :=
  let y := q * 100000
  let f := y.floor
  let r := y - f
  if r < 1 / 2 then f else if 1 / 2 < r then f + 1 else if f % 2 = 0 then f else f + 1

/-- `"%.5f" % q`, tools/iterator/main.py:338, as sign and decimal digits without the decimal point
(the point always stands before the last five digits, so nothing is lost). -/
def fmt5 (q : Rat) : String :=
  (if q < 0 then "-" else "") ++ toString (round5 q).natAbs

/-- `Iterator._make_inputs_key` for one float input
(tools/iterator/main.py:334-339): integral floats give an `int` key, others the five-decimals
string. -/
def floatKey (q : Rat) : Key :=
  if q.den = 1 then .int q.num else .str (fmt5 q)

/-- `Iterator._make_inputs_key` for one int input (tools/iterator/main.py:332-333). -/
def intKey (i : Int) : Key := .int i

/-! ### The run loop -/

section Run
variable {α σ D β : Type}

/-- What the user supplies. `solve a s` is one call of the solver on input `a`, the cached objects
being in state `s`: new state, exit code (0 = continue, 1 = normal stop), outputs.
`enc`/`dec` are `_make_cache_data`/`_read_cache_data` of the cached objects
(tools/iterator/main.py:298-326). -/
structure Prog (α σ D β : Type) where
  solve : α → σ → σ × Nat × β
  key : α → Key
  enc : σ → D
  dec : D → σ → σ

/-- The dictionary stored in the cache file: `'computed inputs'`, `'RES'`, `'cache data'`
(tools/iterator/main.py:241-248, 645-652; names, log and counter are not modelled here). -/
structure Cache (D β : Type) where
  computed : Computed
  res : List (Key × (Nat × β))
  data : Option D

/-- The file created by `Iterator.cache` (tools/iterator/main.py:241-253). -/
def Cache.fresh : Cache D β := ⟨Computed.empty, [], none⟩

/-- Dict lookup in `RES`. -/
def lookupRes (k : Key) : List (Key × (Nat × β)) → Option (Nat × β)
  | [] => none
  | (k', v) :: l => if k = k' then some v else lookupRes k l

/-- What the process holds in memory during `run`. `cache` starts as the content of the file;
`disk` is the file. `rows` are the rows appended to the result DataFrame. -/
structure Session (σ D β : Type) where
  keepChecking : Bool
  objs : σ
  mem : Cache D β
  disk : Cache D β
  rows : List β
  /-- no further iterations (`break`) -/
  stopped : Bool
  /-- an exception was raised (unknown exit code, missing key in `RES`) -/
  failed : Bool

/-- Begin `run`: load the file (tools/iterator/main.py:462-482). -/
def startSession (s0 : σ) (disk : Cache D β) : Session σ D β :=
  { keepChecking := true, objs := s0, mem := disk, disk := disk, rows := [],
    stopped := false, failed := false }

/-- tools/iterator/main.py:683-690: append the row (674), then decide by the exit code. -/
def finish (st : Session σ D β) (exit : Nat) (out : β) : Session σ D β :=
  let st := { st with rows := st.rows ++ [out] }
  if exit = 0 then st
  else if exit = 1 then { st with stopped := true }
  else { st with failed := true }

/-- Recording after a computed iteration and, if `write`, dumping the cache file
(tools/iterator/main.py:553-668). -/
def recordAndWrite (P : Prog α σ D β) (a : α) (exit : Nat) (out : β) (write : Bool)
    (st : Session σ D β) : Session σ D β :=
  let k := P.key a
  let res := match lookupRes k st.mem.res with
    | none => st.mem.res ++ [(k, (exit, out))]
    | some _ => st.mem.res
  let computed := compress (update st.mem.computed k)
  let mem := { st.mem with computed := computed, res := res }
  if write then
    { st with mem := mem,
              disk := { computed := computed, res := res, data := some (P.enc st.objs) } }
  else { st with mem := mem }

/-- One iteration of `run` with caching, tools/iterator/main.py:508-690. `write` is `do_cache`:
it depends on wall-clock time, so every value is allowed. -/
def iter (P : Prog α σ D β) (a : α) (write : Bool) (st : Session σ D β) : Session σ D β :=
  if st.stopped || st.failed then st
  else if st.keepChecking && check st.mem.computed (P.key a) then
    match lookupRes (P.key a) st.mem.res with
    | some (exit, out) => finish st exit out
    | none => { st with failed := true }
  else
    let objs := if st.keepChecking then
        (match st.mem.data with | some d => P.dec d st.objs | none => st.objs)
      else st.objs
    let r := P.solve a objs
    let st := { st with keepChecking := false, objs := r.1 }
    finish (recordAndWrite P a r.2.1 r.2.2 write st) r.2.1 r.2.2

/-- A session over `inputs`; `writes i` is the `do_cache` decision in iteration `i`; iteration
numbers start at `i0`. -/
def iters (P : Prog α σ D β) (writes : Nat → Bool) :
    Nat → List α → Session σ D β → Session σ D β
  | _, [], st => st
  | i, a :: as, st => iters P writes (i + 1) as (iter P a (writes i) st)

/-- A whole `run` on a disk content, killed after `kill` iterations. -/
def session (P : Prog α σ D β) (s0 : σ) (inputs : List α) (writes : Nat → Bool) (kill : Nat)
    (disk : Cache D β) : Session σ D β :=
  iters P writes 0 (inputs.take kill) (startSession s0 disk)

/-- The disk after a series of killed sessions, each restarting the program from scratch (objects
in the initial state) with the same inputs. -/
def killedSessions (P : Prog α σ D β) (s0 : σ) (inputs : List α) :
    List ((Nat → Bool) × Nat) → Cache D β → Cache D β
  | [], disk => disk
  | (w, kill) :: rest, disk =>
    killedSessions P s0 inputs rest (session P s0 inputs w kill disk).disk

/-- The run without caching (tools/iterator/main.py:516-517): rows, and whether an unknown exit
code raised. -/
def plainRun (P : Prog α σ D β) : List α → σ → List β × Bool
  | [], _ => ([], false)
  | a :: as, s =>
    let r := P.solve a s
    if r.2.1 = 0 then
      let rest := plainRun P as r.1
      (r.2.2 :: rest.1, rest.2)
    else ([r.2.2], !(r.2.1 == 1))

/-- State of the objects after the run without caching. -/
def plainFinal (P : Prog α σ D β) : List α → σ → σ
  | [], s => s
  | a :: as, s =>
    let r := P.solve a s
    if r.2.1 = 0 then plainFinal P as r.1 else r.1

/-! ### Crashes while writing -/

/-- `open(filename, 'wb')` truncates first; `pickle.dump` then writes. A kill in between leaves
a file that does not load. tools/iterator/main.py:654-657. -/
inductive Disk (D β : Type) where
  | ok (c : Cache D β)
  | torn

/-- A kill: the process has completed `iters` iterations; if `inWrite`, it is killed inside the
`with open(...)` block of the next iteration (provided that iteration gets there). -/
structure Kill where
  writes : Nat → Bool
  iters : Nat
  inWrite : Bool

/-- Would iteration number `i` on input `a` reach the write block? -/
def reachesWrite (P : Prog α σ D β) (k : Kill) (a : α) (st : Session σ D β) : Bool :=
  !st.stopped && !st.failed && !(st.keepChecking && check st.mem.computed (P.key a))
    && k.writes k.iters

/-- A killed process: `Iterator.run` first loads the file (tools/iterator/main.py:463-464;
`pickle.load` of a truncated file raises, so nothing happens), then iterates until killed. -/
def crash (P : Prog α σ D β) (s0 : σ) (inputs : List α) (k : Kill) : Disk D β → Disk D β
  | .torn => .torn
  | .ok c =>
    let st := session P s0 inputs k.writes k.iters c
    match inputs[k.iters]? with
    | some a => if k.inWrite && reachesWrite P k a st then .torn else .ok st.disk
    | none => .ok st.disk

/-- The disk after a series of kills. -/
def crashes (P : Prog α σ D β) (s0 : σ) (inputs : List α) (ks : List Kill) : Disk D β :=
  ks.foldl (fun d k => crash P s0 inputs k d) (.ok Cache.fresh)

/-- A last, undisturbed run: `none` if the file does not load. -/
def lastRun (P : Prog α σ D β) (s0 : σ) (inputs : List α) (w : Nat → Bool) :
    Disk D β → Option (List β)
  | .torn => none
  | .ok c => some (session P s0 inputs w inputs.length c).rows

end Run
end Phyem.Iterator
