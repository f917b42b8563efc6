import Verif.Base.Dict
import Verif.Base.Sign

/-!
How an equation string given to `ph.pde(expression, interpreter)` or to a weak formulation is
read: `src/pde.py` and `src/wf/main.py`. Strings are lists of characters; a dictionary lookup
that the code protects by `assert` answers `none` when the assertion fails.
-/

namespace Phyem.Expr

abbrev Str := List Char

/-- `equation.replace(' ', '')` (`src/pde.py:270`, `src/wf/main.py:395`). -/
def removeSpaces (s : Str) : Str := s.filter (· ≠ ' ')

/-- `equation.replace('-', '+-')` (`src/pde.py:271`, `src/wf/main.py:396`). -/
def spread (s : Str) : Str := s.flatMap fun c => if c = '-' then ['+', '-'] else [c]

/-- Prepend a character to the first piece. -/
def consHead (x : Char) : List Str → List Str
  | [] => [[x]]
  | p :: ps => (x :: p) :: ps

/-- `s.split(c)` for a one-character separator (`src/pde.py:279-280`,
`src/wf/main.py:402-403`). -/
def split (c : Char) : Str → List Str
  | [] => [[]]
  | x :: s => if x = c then [] :: split c s else consHead x (split c s)

/-- One `loc_term` of the loop (`src/pde.py:282-312`, `src/wf/main.py:405-428`): `none` when the
`assert ... in interpreter` fails, `some []` when the piece is ignored, else the sign, the name
(`indi`, kept by `src/pde.py` only) and the interpretation. -/
def parsePiece {T : Type} (interp : Dict Str T) (p : Str) : Option (List (Sign × Str × T)) :=
  if p = [] ∨ p = ['-'] then some []
  else if p = ['0'] then some []
  else if p.head? = some '-' then
    (interp.get p.tail).map fun t => [(Sign.neg, p.tail, t)]
  else
    (interp.get p).map fun t => [(Sign.pos, p, t)]

/-- The inner loop over the pieces of one side (`src/pde.py:282-312`). -/
def parsePieces {T : Type} (interp : Dict Str T) : List Str → Option (List (Sign × Str × T))
  | [] => some []
  | p :: ps => (parsePiece interp p).bind fun a => (parsePieces interp ps).map fun b => a ++ b

/-- One side, already without spaces and with `'-'` spread. -/
def parseSide {T : Type} (interp : Dict Str T) (s : Str) : Option (List (Sign × Str × T)) :=
  parsePieces interp (split '+' s)

/-- The two lists of one equation, `sign_dict[i]`, `indi_dict[i]` and `term_dict[i]` merged. -/
structure Eqn (T : Type) where
  left : List (Sign × Str × T)
  right : List (Sign × Str × T)
deriving DecidableEq

/-- `_check_expression` (`src/pde.py:234-248`: not empty, exactly one `=`) followed by
`_parse_expression` (`src/pde.py:261-312`, `src/wf/main.py:386-430`) for one equation. -/
def parseEquation {T : Type} (interp : Dict Str T) (s : Str) : Option (Eqn T) :=
  if s.length = 0 then none
  else if s.count '=' ≠ 1 then none
  else
    match split '=' (spread (removeSpaces s)) with
    | [l, r] => (parseSide interp l).bind fun a => (parseSide interp r).map fun b => ⟨a, b⟩
    | _ => none

/-- All equations, in order (`src/pde.py:268`). -/
def parseAll {T : Type} (interp : Dict Str T) : List Str → Option (List (Eqn T))
  | [] => some []
  | s :: ss => (parseEquation interp s).bind fun e => (parseAll interp ss).map fun es => e :: es

/-- `indexing`: the text `str(i) + '-' + str(k)` points to the `k`-th term of equation `i`,
the left terms first (`src/pde.py:277`, `304-311`). `k` runs over both sides. -/
def indexing {T : Type} (es : List (Eqn T)) (i k : ℕ) : Option (Sign × Str × T) :=
  es[i]?.bind fun e => (e.left ++ e.right)[k]?

end Phyem.Expr
