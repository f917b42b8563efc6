import Verif.Runner.Model

/-!
What is asked of the runner, independently of how it works.
-/

namespace Phyem.Runner

/-- A text that is one word, without the character that divides the columns. -/
def Token (t : Str) : Prop := t ≠ [] ∧ ∀ c ∈ t, ws c = false ∧ c ≠ '|'

/-- Numbers are written as words and read as what they were. -/
structure Format.Good {V : Type} (F : Format V) : Prop where
  tokenIn : ∀ v, Token (F.showIn v)
  tokenOut : ∀ v, Token (F.showOut v)
  tokenIndex : ∀ n, Token (F.showIndex n)
  readIn : ∀ v, F.read (F.showIn v) = some v
  readOut : ∀ v, F.read (F.showOut v) = some v
  readIndex : ∀ n, F.readIndex (F.showIndex n) = some n

/-- A line that does not begin as one of the lines that the reader looks for. -/
def Plain (l : Str) : Prop := ∀ tag ∈ [tagInput, tagCriterion, tagOutput, tagKwargs, tagResults], ¬ tag <+: l

/-- A runner with three inputs; the texts of the head are lines, and those that can be anything do not begin as one of the
lines that the reader looks for. -/
structure Config.Good (c : Config) : Prop where
  three : c.inputNames.length = 3
  lines : ∀ t ∈ [c.task, c.time, c.dir, c.solverDir, c.criterion, c.kwargs, c.info] ++ c.source ++ c.inputNames ++ c.outputNames,
    '\n' ∉ t
  plain : ∀ t ∈ c.time :: c.solverDir :: c.source, Plain t

/-- Results are right: numbered from zero, no inputs twice, and with the outputs of the solver. -/
structure Right {V : Type} (solver : List V → List V) (rows : List (Row V)) : Prop where
  index : ∀ (i : ℕ) (r : Row V), rows[i]? = some r → r.index = i
  nodup : (rows.map fun r => r.inputs).Nodup
  outputs : ∀ r ∈ rows, r.outputs = solver r.inputs

/-- Times are written as words. -/
def GoodTimes (times : ℕ → Str × Str × Str) : Prop :=
  ∀ m, Token (times m).1 ∧ Token (times m).2.1 ∧ Token (times m).2.2

/-- There are three inputs in each slot. -/
def GoodSlots {V : Type} (xs : List (Option (List V))) : Prop := ∀ x, some x ∈ xs → x.length = 3

/-- A solver with as many outputs as the runner says. -/
def GoodSolver {V : Type} (c : Config) (solver : List V → List V) : Prop :=
  ∀ x, x.length = 3 → (solver x).length = c.outputNames.length

/-- The files that can be there: none, and those that calls of `iterate` for the same runner leave behind, each of them
started by a new process, for any inputs, and each of them ended regularly or dying after any number of characters while it
writes its results. -/
inductive Reachable {V : Type} [DecidableEq V] (F : Format V) (c : Config) (solver : List V → List V) :
    Option Str → Prop
  | none : Reachable F c solver none
  | run (file : Option Str) (times : ℕ → Str × Str × Str) (xs : List (Option (List V))) (n k : ℕ) :
      Reachable F c solver file → GoodTimes times → GoodSlots xs →
      (iterate F c solver times xs [] file).before.length ≤ n →
      Reachable F c solver (crash (iterate F c solver times xs [] file).ops n k file)

/-- The files that can be there when no process died while it wrote a row: every row was written completely or not at
all. -/
inductive Whole {V : Type} [DecidableEq V] (F : Format V) (c : Config) (solver : List V → List V) :
    Option Str → Prop
  | none : Whole F c solver none
  | run (file : Option Str) (times : ℕ → Str × Str × Str) (xs : List (Option (List V))) (n : ℕ) :
      Whole F c solver file → GoodTimes times → GoodSlots xs →
      (iterate F c solver times xs [] file).before.length ≤ n →
      Whole F c solver (crash (iterate F c solver times xs [] file).ops n 0 file)

end Phyem.Runner
