import Mathlib.Data.List.Basic
import Mathlib.Data.List.Infix

/-!
The runner that calls a solver for many inputs, writes each result to a file and goes on from that file when it is
started again (`tools/legacy/serialRunners/_runner_.py`,
`tools/legacy/serialRunners/INSTANCES/matrix3d_input_runner.py`, `tools/legacy/runners/_3d_matrix_inputs/main.py`,
`tools/runner.py`).

A text is a list of characters. Not modelled: pandas beyond a list of rows, progress bars and printing, the estimated
times (they are given to the model), the pickled copy of the runner.
-/

namespace Phyem.Runner

abbrev Str := List Char

/-! ### Texts -/

/-- What `str.split()` takes as a space. -/
def ws (c : Char) : Bool := c = ' ' || c = '\n' || c = '\t' || c = '\r'

/-- `'{: <n}'.format(s)`. -/
def pad (n : ℕ) (s : Str) : Str := s ++ List.replicate (n - s.length) ' '

/-- `f.readlines()`. -/
def lines : Str → List Str
  | [] => []
  | c :: s =>
    if c = '\n' then [c] :: lines s
    else match lines s with
      | [] => [[c]]
      | l :: ls => (c :: l) :: ls

/-- `s.split()`, where `acc` is the word before `s`, in reverse order. -/
def fields.go : Str → Str → List Str
  | acc, [] => if acc = [] then [] else [acc.reverse]
  | acc, c :: s =>
    if ws c then (if acc = [] then fields.go [] s else acc.reverse :: fields.go [] s) else fields.go (c :: acc) s

/-- `s.split()`. -/
def fields (s : Str) : List Str := fields.go [] s

/-- `s.split(', ')`. -/
def commas : Str → List Str
  | [] => [[]]
  | ',' :: ' ' :: s => [] :: commas s
  | c :: s =>
    match commas s with
    | [] => [[c]]
    | l :: ls => (c :: l) :: ls

/-- `str(t)` of a tuple of names without quotes. -/
def tupleText (names : List Str) : Str :=
  match names with
  | [] => ['(', ')']
  | [n] => ['(', '\''] ++ n ++ ['\'', ',', ')']
  | n :: ns => ['(', '\''] ++ n ++ ns.flatMap (fun m => ['\'', ',', ' ', '\''] ++ m) ++ ['\'', ')']

/-! ### The file -/

/-- How numbers are written and read: inputs (`_runner_.py:351-354`), outputs (`_runner_.py:355-356`) and the index
(`_runner_.py:350`); `float(i)`, made an `int` if it is one (`_runner_.py:365-366`), and `int(Di[0])`. `none`: a
`ValueError`. -/
structure Format (V : Type) where
  showIn : V → Str
  showOut : V → Str
  showIndex : ℕ → Str
  read : Str → Option V
  readIndex : Str → Option ℕ

/-- A row of the results (`_runner_.py:330-342`). -/
structure Row (V : Type) where
  index : ℕ
  inputs : List V
  outputs : List V
  itc : Str
  ttc : Str
  ert : Str

/-- A row in the file up to its last column (`_runner_.py:349-359`). -/
def rowHead {V : Type} (F : Format V) (r : Row V) : Str :=
  pad 14 (F.showIndex r.index) ++ [' '] ++
    r.inputs.flatMap (fun v => pad 23 (F.showIn v) ++ [' ', ' ']) ++
    r.outputs.flatMap (fun v => pad 23 (F.showOut v) ++ [' ', ' ']) ++
    ['|', ' '] ++ pad 13 r.itc ++ [' ', ' '] ++ pad 13 r.ttc ++ [' ', ' ']

/-- A row in the file (`___write_to___`, `_runner_.py:344-360`). -/
def rowText {V : Type} (F : Format V) (r : Row V) : Str := rowHead F r ++ pad 13 r.ert ++ ['\n']

/-- What the head of the file says about a runner. -/
structure Config where
  task : Str
  time : Str
  dir : Str
  solverDir : Str
  source : List Str
  inputNames : List Str
  outputNames : List Str
  criterion : Str
  kwargs : Str
  info : Str

def tagInput : Str := ['<', 'i', 'n', 'p', 'u', 't', ' ', 'n', 'a', 'm', 'e', 's', '>']
def tagCriterion : Str := ['<', 'i', 'n', 'p', 'u', 't', ' ', 'c', 'r', 'i', 't', 'e', 'r', 'i', 'o', 'n', '>']
def tagOutput : Str := ['<', 'o', 'u', 't', 'p', 'u', 't', ' ', 'n', 'a', 'm', 'e', 's', '>']
def tagKwargs : Str := ['<', 'k', 'w', 'a', 'r', 'g', 's', '>']
def tagResults : Str := ['<', 'R', 'E', 'S', 'U', 'L', 'T', 'S', '>']
def tagRunner : Str := ['R', 'u', 'n', 'n', 'e', 'r']
def className : Str := ['M', 'a', 't', 'r', 'i', 'x', '3', 'd', 'I', 'n', 'p', 'u', 't', 'R', 'u', 'n', 'n', 'e', 'r']
/-- Between a tag and what it is about. -/
def colon : Str := [' ', ':', ' ']

/-- The lines of the head without their ends (`___initial_writing___`, `_runner_.py:305-328`). -/
def headLines (c : Config) : List Str :=
  [['<'] ++ tagRunner ++ ['>', '-', '<'] ++ className ++ ['>', '-', '<', 't', 'a', 's', 'k', ' ', 'n', 'a', 'm', 'e', ':', ' ']
      ++ c.task ++ ['>'],
    c.time, ['<', 'd', 'i', 'r', '>'] ++ colon ++ c.dir,
    ['<', 's', 'o', 'l', 'v', 'e', 'r', '_', 'd', 'i', 'r', '>', ' ', ':'], c.solverDir, [],
    ['<', 's', 'o', 'l', 'v', 'e', 'r', '_', 's', 'o', 'u', 'r', 'c', 'e', '_', 'c', 'o', 'd', 'e', '>', ' ', ':']] ++
  c.source ++
  [[], tagInput ++ colon ++ tupleText c.inputNames, tagCriterion ++ colon ++ c.criterion,
    tagOutput ++ colon ++ tupleText c.outputNames, tagKwargs ++ colon ++ c.kwargs,
    ['<', 'I', 'N', 'F', 'O', '>'] ++ colon ++ c.info, [],
    tagResults ++ colon,
    pad 15 ['i', 'n', 'd', 'e', 'x'] ++ (c.inputNames ++ c.outputNames).flatMap (pad 25) ++
      ['|', ' ', 'I', 'T', 'C', '(', 'W', ')'] ++ List.replicate 9 ' ' ++ ['T', 'T', 'C', '(', 'W', ')'] ++
      List.replicate 9 ' ' ++ ['E', 'R', 'T', '(', 'W', ')'] ++ List.replicate 7 ' ',
    List.replicate (15 + 75 + 25 * c.outputNames.length) '-' ++ ['|'] ++ List.replicate 44 '-']

/-- The head of the file. -/
def head (c : Config) : Str := (headLines c).flatMap (fun l => l ++ ['\n'])

/-- The check of the head (`_runner_.py:205-247`, `initializing=False`): the first line after it. `none`: an
`AssertionError`. That the keyword arguments do not match is only printed. Simplified: the criterion has no `' : '`. -/
def scan (c : Config) : ℕ → List Str → Option ℕ
  | _, [] => none
  | i, l :: ls =>
    if tagInput.isPrefixOf l then
      if l = tagInput ++ colon ++ tupleText c.inputNames ++ ['\n'] then scan c (i + 1) ls else none
    else if tagCriterion.isPrefixOf l then
      if l = tagCriterion ++ colon ++ c.criterion ++ ['\n'] then scan c (i + 1) ls else none
    else if tagOutput.isPrefixOf l then
      if l = tagOutput ++ colon ++ tupleText c.outputNames ++ ['\n'] then scan c (i + 1) ls else none
    else if tagKwargs.isPrefixOf l then scan c (i + 1) ls
    else if tagResults.isPrefixOf l then some (i + 3)
    else scan c (i + 1) ls

/-- `___read_to_rdf___` (`_runner_.py:362-375`). `none`: a `ValueError`. -/
def readRow {V : Type} (F : Format V) (nin : ℕ) (d : List Str) : Option (Row V) :=
  if ['|'] ∈ d then
    let d := d.erase ['|']
    match d with
    | [] => none
    | i :: _ =>
      let data := (d.drop 1).take (d.length - 4)
      let t := d.drop (d.length - 3)
      (data.mapM F.read).bind fun data => (F.readIndex i).map fun i =>
        ⟨i, data.take nin, data.drop nin, t.getD 0 [], t.getD 1 [], t.getD 2 []⟩
  else none

/-- The rows from a line on, up to the first line that is not complete (`_runner_.py:251-263`). `none`: a
`ValueError`. -/
def readRows {V : Type} (F : Format V) (nin nout : ℕ) : List Str → Option (List (Row V))
  | [] => some []
  | l :: ls =>
    if (fields l).length = 1 + nin + nout + 1 + 3 then
      (readRow F nin (fields l)).bind fun r => (readRows F nin nout ls).map fun rs => r :: rs
    else some []

/-- `___readcontents___` for a runner that is going to go on (`_runner_.py:184-264`): how many lines are kept, and the
rows. `none`: an error. -/
def readContents {V : Type} (F : Format V) (c : Config) (text : Str) : Option (ℕ × List (Row V)) :=
  let contents := lines text
  match contents with
  | [] => none
  | l0 :: _ =>
    if (l0.drop 1).take 6 = tagRunner then
      if className <:+: l0 then
        if tagResults ++ colon ++ ['\n'] ∈ contents then
          (scan c 0 contents).bind fun i =>
            (readRows F c.inputNames.length c.outputNames.length (contents.drop i)).map fun rows =>
              (i + rows.length, rows)
        else none
      else none
    else none

/-- What is done to a file: `open(…, 'w')`, and writing at its end. -/
inductive Op where
  | openW
  | write (text : Str)

/-- The file after that. -/
def Op.run : Option Str → Op → Option Str
  | _, .openW => some []
  | f, .write t => some (f.getD [] ++ t)

/-- `___prepare_write_file___` (`_runner_.py:266-303`): what is done to the file, and the rows that are read from it.
`none`: an error. -/
def prepare {V : Type} (F : Format V) (c : Config) (file : Option Str) : List Op × Option (List (Row V)) :=
  match file with
  | none => ([.openW, .write (head c)], some [])
  | some text =>
    match readContents F c text with
    | none => ([], none)
    | some (n, rows) =>
      ([.openW, .write ((lines text).take n).flatten], if n ≤ (lines text).length then some rows else none)

/-! ### Running -/

/-- What `iterate` puts into three matrices, in the order in which it goes through them
(`matrix3d_input_runner.py:212-234`, `matrix3d_input_runner.py:289-291`): first along the second index, then along the
first, then along the third one. `none` in the list: nothing to compute. `none`: an `AssertionError`. -/
def slots {V : Type} (i0 : List (List (Option V))) (i1 : List (List V)) (i2 : List V) :
    Option (List (Option (List V))) :=
  if i0.length = i1.length ∧ ∀ i < i0.length, (i0.getD i []).length = (i1.getD i []).length then
    some ((List.range i2.length).flatMap fun k => (List.range i0.length).flatMap fun i =>
      (List.range ((i0.map List.length).foldl max 0)).map fun j =>
        (i0.getD i [])[j]?.join.bind fun a => (i1.getD i [])[j]?.bind fun b => i2[k]?.map fun c => [a, b, c])
  else none

/-- What a runner remembers: `_rdf_` and `_computed_pool_`. -/
structure Mem (V : Type) where
  rdf : List (Row V)
  pool : List (List V)

/-- A message of the master to the other ranks (`matrix3d_input_runner.py:276-359`). -/
inductive Msg (V : Type) where
  | shape (i j k : ℕ)
  | flag (compute : Bool)
  | inputs (x : List V)

/-- The index of the next row (`matrix3d_input_runner.py:327-332`). -/
def nextIndex {V : Type} (rdf : List (Row V)) : ℕ :=
  match rdf.getLast? with
  | none => 0
  | some r => r.index + 1

/-- What the loop of `iterate` leaves behind. -/
structure Trace (V : Type) where
  mem : Mem V
  calls : List (List V)
  ops : List Op
  msgs : List (Msg V)

/-- The loop of `iterate` (`matrix3d_input_runner.py:288-380`). `times` are the three texts of times for the row with
that index. -/
def loop {V : Type} [DecidableEq V] (F : Format V) (solver : List V → List V) (times : ℕ → Str × Str × Str) :
    List (Option (List V)) → Mem V → Trace V
  | [], mem => ⟨mem, [], [], []⟩
  | none :: xs, mem => let t := loop F solver times xs mem; { t with msgs := .flag false :: t.msgs }
  | some x :: xs, mem =>
    if x ∈ mem.pool then
      let t := loop F solver times xs mem; { t with msgs := .flag false :: t.msgs }
    else
      let m := nextIndex mem.rdf
      let r : Row V := ⟨m, x, solver x, (times m).1, (times m).2.1, (times m).2.2⟩
      let t := loop F solver times xs ⟨mem.rdf ++ [r], mem.pool ++ [x]⟩
      ⟨t.mem, x :: t.calls, .write (rowText F r) :: t.ops, .flag true :: .inputs x :: t.msgs⟩

/-- What a call of `iterate` does. -/
structure Run (V : Type) where
  /-- What is done to the file before the loop. -/
  before : List Op
  /-- What is done in the loop. `none`: the file is refused. -/
  trace : Option (Trace V)

/-- All that is done to the file. -/
def Run.ops {V : Type} (r : Run V) : List Op := r.before ++ (r.trace.map fun t => t.ops).getD []

/-- `iterate` with a file (`matrix3d_input_runner.py:242-385`), for a runner that has computed `pool`: `_rdf_` is new, and
the inputs of the file are added to the pool. -/
def iterate {V : Type} [DecidableEq V] (F : Format V) (c : Config) (solver : List V → List V)
    (times : ℕ → Str × Str × Str) (xs : List (Option (List V))) (pool : List (List V)) (file : Option Str) : Run V :=
  let p := prepare F c file
  ⟨p.1, p.2.map fun rows => loop F solver times xs ⟨rows, pool ++ rows.map fun r => r.inputs⟩⟩

/-- `iterate` with `writeto=None`. -/
def iterateNoFile {V : Type} [DecidableEq V] (F : Format V) (solver : List V → List V)
    (times : ℕ → Str × Str × Str) (xs : List (Option (List V))) (pool : List (List V)) : Trace V :=
  loop F solver times xs ⟨[], pool⟩

/-- The file when the process dies after `n` of these operations and `k` characters of the next one. -/
def crash (ops : List Op) (n k : ℕ) (file : Option Str) : Option Str :=
  let f := (ops.take n).foldl Op.run file
  match ops[n]? with
  | some (.write t) => Op.run f (.write (t.take k))
  | _ => f

/-! ### Other ranks -/

/-- The messages of the master (`matrix3d_input_runner.py:276-359`). -/
def messages {V : Type} (i j k : ℕ) (t : Trace V) : List (Msg V) := .shape i j k :: t.msgs

/-- The loops of the other ranks (`_3d_matrix_inputs/main.py:77-89`): what they call the solver with, and the messages
they have not received. `none`: they wait for another message than the next one. -/
def slaveLoop {V : Type} : ℕ → List (Msg V) → Option (List (List V) × List (Msg V))
  | 0, ms => some ([], ms)
  | n + 1, .flag false :: ms => slaveLoop n ms
  | n + 1, .flag true :: .inputs x :: ms => (slaveLoop n ms).map fun r => (x :: r.1, r.2)
  | _ + 1, _ => none

/-- The other ranks (`_3d_matrix_inputs/main.py:73-89`). -/
def slave {V : Type} : List (Msg V) → Option (List (List V) × List (Msg V))
  | .shape i j k :: ms => slaveLoop (k * i * j) ms
  | _ => none

/-! ### Reading a file -/

/-- The names in a line of the head (`_runner_.py:209-210`, `_runner_.py:226-227`): `n` characters before them. -/
def readNames (n : ℕ) (l : Str) : List Str :=
  commas ((((l.drop n).take (l.length - 2 - n))).filter fun c => c ≠ '\'')

/-- The names a new runner reads from the head (`_runner_.py:205-247`, `initializing=True`), and the first line after
it. -/
def scanNames : ℕ → List Str → List Str × List Str → Option (ℕ × List Str × List Str)
  | _, [], _ => none
  | i, l :: ls, ns =>
    if tagInput.isPrefixOf l then scanNames (i + 1) ls (readNames 17 l, ns.2)
    else if tagCriterion.isPrefixOf l then scanNames (i + 1) ls ns
    else if tagOutput.isPrefixOf l then scanNames (i + 1) ls (ns.1, readNames 18 l)
    else if tagKwargs.isPrefixOf l then scanNames (i + 1) ls ns
    else if tagResults.isPrefixOf l then some (i + 3, ns)
    else scanNames (i + 1) ls ns

/-- `readfile` (`_runner_.py:172-182`): the names of the inputs, those of the outputs, and the rows. `none`: an error. -/
def readFile {V : Type} (F : Format V) (text : Str) : Option (List Str × List Str × List (Row V)) :=
  let contents := lines text
  match contents with
  | [] => none
  | l0 :: _ =>
    if (l0.drop 1).take 6 = tagRunner then
      if className <:+: l0 then
        if tagResults ++ colon ++ ['\n'] ∈ contents then
          (scanNames 0 contents ([], [])).bind fun r =>
            (readRows F r.2.1.length r.2.2.length (contents.drop r.1)).map fun rows => (r.2.1, r.2.2, rows)
        else none
      else none
    else none

end Phyem.Runner
