import Verif.Base.Dict
import Verif.Runner.Lemmas
import Mathlib.Order.Basic

/-!
The ranking of machines that is kept in a file (`tools/miscellaneous/ranking.py`).

The file is a list of characters. The master rank only: the other ranks do nothing. Not modelled: the clock (the time that was measured is given),
`socket.gethostname` (the name of the machine is given), what is printed besides the ranks, names, sizes and costs. The file exists: without it,
`open` raises an error.
-/

namespace Phyem.Ranking

open Phyem.Dict Phyem.Runner

/-- How numbers are written in the file and read again: `str` and `int` of integers, `str` and `float` of floating point numbers, for texts without
spaces around them. `none`: a `ValueError`. -/
structure Format (T : Type) where
  showI : ℕ → Str
  readI : Str → Option ℕ
  showF : T → Str
  readF : Str → Option T

/-- A record: the machine, how many ranks it has used and how long it has taken (`ranking.py:43`). -/
structure Rec (T : Type) where
  host : Str
  size : ℕ
  cost : T
deriving DecidableEq

variable {T : Type} [LinearOrder T]

/-- `float` does not mind a newline after the number. -/
def chomp (s : Str) : Str := if s.getLast? = some '\n' then s.dropLast else s

/-- One line of the file (`ranking.py:39-43`). `none`: a `ValueError`, as there are not four words or one that should be is not a number. -/
def readRec (F : Format T) (line : Str) : Option (ℕ × Rec T) :=
  match line.splitOn ' ' with
  | [a, h, s, c] => (F.readI a).bind fun r => (F.readI s).bind fun k => (F.readF (chomp c)).map fun t => (r, ⟨h, k, t⟩)
  | _ => none

/-- What `start_ranking` has read (`_current_records` and `_all_hosts`). -/
structure Session (T : Type) where
  records : Dict ℕ (Rec T)
  hosts : List Str

/-- `start_ranking` (`ranking.py:28-51`). -/
def start (F : Format T) (file : Str) : Option (Session T) :=
  ((lines file).mapM (readRec F)).map fun l => ⟨l.foldl (fun d p => put d p.1 p.2) [], l.map fun p => p.2.host⟩

/-- The first record of this machine is replaced (`ranking.py:59-64`). -/
def renew (x : Rec T) : Dict ℕ (Rec T) → Dict ℕ (Rec T)
  | [] => []
  | (r, y) :: d => if y.host = x.host then (r, x) :: d else (r, y) :: renew x d

/-- One record is put before the first one that has not cost less (`ranking.py:72-93`). The three lists of the code are one list here. -/
def insert (x : Rec T) : List (Rec T) → List (Rec T)
  | [] => [x]
  | y :: l => if x.cost ≤ y.cost then x :: y :: l else y :: insert x l

/-- A line of the file without its end (`ranking.py:130`). -/
def recText (F : Format T) (r : ℕ) (x : Rec T) : Str := F.showI r ++ ' ' :: (x.host ++ ' ' :: (F.showI x.size ++ ' ' :: F.showF x.cost))

/-- `'\n'.join`. -/
def join : List Str → Str
  | [] => []
  | [l] => l
  | l :: ls => l ++ '\n' :: join ls

/-- What is written into the file (`ranking.py:126-133`). -/
def text (F : Format T) (l : List (Rec T)) : Str := join (l.zipIdx.map fun p => recText F p.2 p.1)

/-- All records in their new order (`ranking.py:58-93`). -/
def ranked (s : Session T) (x : Rec T) : List (Rec T) :=
  let d := if x.host ∈ s.hosts then renew x s.records else put s.records s.hosts.length x
  (d.map Prod.snd).foldl (fun l y => insert y l) []

/-- `report_ranking` (`ranking.py:53-133`) of a machine, for a time that was measured: what is in the file afterwards, and the rank that is printed:
`none` for `[rank*]`. `none`: `index` raises a `ValueError` (`ranking.py:106`). -/
def report (F : Format T) (top : ℕ) (s : Session T) (x : Rec T) : Option (Str × Option ℕ) :=
  let l := ranked s x
  let mine := (l.map Rec.host).idxOf x.host
  if mine < l.length then some (text F (l.take top), if mine ≥ top then none else some (mine + 1)) else none

/-- One line that `print_ranking` prints (`ranking.py:145-152`): the last character of the line is dropped whatever it is. -/
def printRec (F : Format T) (line : Str) : Option (Str × Str × T) :=
  match line.dropLast.splitOn ' ' with
  | [_, h, s, c] => (F.readF c).map fun t => (h, s, t)
  | _ => none

/-- `print_ranking` (`ranking.py:135-153`): the machines, sizes and costs from top to bottom; the number before them is the place in this list. -/
def printed (F : Format T) (file : Str) : Option (List (Str × Str × T)) := (lines file).mapM (printRec F)

/-- A test of a machine that starts and reports before the next one starts. -/
def one (F : Format T) (top : ℕ) (file : Str) (x : Rec T) : Option (Str × Option ℕ) := (start F file).bind fun s => report F top s x

/-- The file after tests one after the other. -/
def after (F : Format T) (top : ℕ) : Str → List (Rec T) → Option Str
  | file, [] => some file
  | file, x :: xs => (one F top file x).bind fun p => after F top p.1 xs

end Phyem.Ranking
