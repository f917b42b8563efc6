import Verif.Base.Sign
import Verif.WeakForm.Model
import Mathlib.Algebra.Group.Defs

/-!
The matrix proxy of a weak formulation and its linear systems: `src/wf/mp/main.py`,
`src/algebra/linear_system.py`, `src/algebra/array.py`. Exceptions are `none`.
-/

namespace Phyem.MatrixProxy

open Phyem.WeakForm (mapOpt)

/-- A root array: an object, identified by a number, with its shape
(`src/algebra/array.py:18-80`); all root arrays here are two-dimensional. -/
structure Comp where
  id : ℕ
  rows : ℕ
  cols : ℕ
deriving DecidableEq, Repr

/-- An abstract array: a factor and the components of a matrix product, each with its transposition
flag (`src/algebra/array.py:40-80`). -/
structure Arr (R : Type) where
  factor : R
  comps : List (Comp × Bool)
deriving DecidableEq

/-- Shape of a component as it enters the product (`src/algebra/array.py:140-146`). -/
def compShape (p : Comp × Bool) : ℕ × ℕ := if p.2 then (p.1.cols, p.1.rows) else (p.1.rows, p.1.cols)

/-- `shape` (`src/algebra/array.py:133-158`): `none` when an `assert` fails, `some []` for the `None`
of an array without components. -/
def shapeFrom (r c : ℕ) : List (Comp × Bool) → Option (List ℕ)
  | [] => some [r, c]
  | p :: l => if c = (compShape p).1 then shapeFrom r (compShape p).2 l else none

def Arr.shape {R : Type} (a : Arr R) : Option (List ℕ) :=
  match a.comps with
  | [] => some []
  | p :: l => shapeFrom (compShape p).1 (compShape p).2 l

/-- `self @ other` (`src/algebra/array.py:234-266`). Two factors other than the unit raise there; the
right operand is always a root array with unit factor here. -/
def Arr.matmul {R : Type} [Mul R] (a b : Arr R) : Arr R := ⟨a.factor * b.factor, a.comps ++ b.comps⟩

/-- A root array as an array. -/
def single {R : Type} [One R] (c : Comp) : Arr R := ⟨1, [(c, false)]⟩

/-- Signed terms of one entry of a block vector or block matrix. -/
abbrev Cell (R : Type) := List (Sign × Arr R)

/-- `BlockColVector` (`src/algebra/linear_system.py:104-146`): one cell for each row. -/
abbrev BV (R : Type) := List (Cell R)

/-- `BlockMatrix` (`src/algebra/linear_system.py:17-57`): its number of columns and its rows of
cells. -/
structure BM (R : Type) where
  cols : ℕ
  rows : List (List (Cell R))

/-- `_add` (`src/algebra/linear_system.py:38-46`, `137-146`): the shape must agree with that of the
first term. -/
def addTo {R : Type} (l : Cell R) (x : Sign × Arr R) : Option (Cell R) :=
  match l with
  | [] => some [x]
  | y :: _ =>
    match x.2.shape, y.2.shape with
    | some s, some t => if s = t then some (l ++ [x]) else none
    | _, _ => none

/-- A block matrix row with a term added to one cell. -/
def addAt {R : Type} (cells : List (Cell R)) (k : ℕ) (x : Sign × Arr R) : Option (List (Cell R)) :=
  cells[k]?.bind fun cell => (addTo cell x).map fun c => cells.set k c

/-- `_is_empty` (`src/algebra/linear_system.py:28-36`, `126-134`). -/
def BV.isEmpty {R : Type} (v : BV R) : Bool := v.all List.isEmpty
def BM.isEmpty {R : Type} (m : BM R) : Bool := m.rows.all fun r => r.all List.isEmpty

/-- A resolved term of the algebraic proxy: an array, or a nonlinear operator
(`src/wf/term/ap.py:92-108`). -/
inductive ApTerm (R N : Type)
  | lin (a : Arr R)
  | non (n : N)

/-- A matrix proxy (`src/wf/mp/main.py:99-153`): remaining terms, nonlinear terms and collected
matrix-vector products of both sides. -/
structure MP (R N : Type) where
  num : ℕ
  lbv : BV R
  rbv : BV R
  lnon : List (List (Sign × N))
  rnon : List (List (Sign × N))
  lmvs : List (BM R × BV R)
  rmvs : List (BM R × BV R)

/-- One term of a row in `parse` (`src/wf/mp/main.py:217-247`): it goes to the block of the target
that is its last component, or remains. `term._components[-1]` of an array without components
raises. -/
def parseTerm {R : Type} (targets : List Comp) (cells : List (Cell R)) (rem : Cell R)
    (x : Sign × Arr R) : Option (List (Cell R) × Cell R) :=
  x.2.comps.getLast?.bind fun t =>
    if t.1 ∈ targets ∧ t.2 = false then
      (addAt cells (targets.idxOf t.1) (x.1, ⟨x.2.factor, x.2.comps.dropLast⟩)).map fun c => (c, rem)
    else (addTo rem x).map fun r => (cells, r)

/-- One row of one side (`src/wf/mp/main.py:213-247`). -/
def parseRow {R : Type} (targets : List Comp) (cells : List (Cell R)) (rem : Cell R) :
    Cell R → Option (List (Cell R) × Cell R)
  | [] => some (cells, rem)
  | x :: l => (parseTerm targets cells rem x).bind fun p => parseRow targets p.1 p.2 l

/-- One side: the block matrix and the remaining vector (`src/wf/mp/main.py:208-247`). -/
def parseSide {R : Type} (targets : List Comp) (bv : BV R) : Option (BM R × BV R) :=
  (mapOpt (fun row => parseRow targets (targets.map fun _ => []) [] row) bv).map fun ps =>
    (⟨targets.length, ps.map Prod.fst⟩, ps.map Prod.snd)

/-- The vector of the targets, with empty rows below (`src/wf/mp/main.py:205-212`). -/
def targetVector {R : Type} [One R] (num : ℕ) (targets : List Comp) : BV R :=
  (targets.map fun t => [(Sign.pos, single t)]) ++ List.replicate (num - targets.length) []

/-- A matrix-vector product is kept unless its matrix is empty (`src/wf/mp/main.py:249-261`). -/
def keep {R : Type} (mvs : List (BM R × BV R)) (m : BM R) (v : BV R) : List (BM R × BV R) :=
  if m.isEmpty then mvs else mvs ++ [(m, v)]

/-- `parse(targets)` (`src/wf/mp/main.py:199-264`): the state left behind, and whether the call
returned normally. The left side is stored before the right side is examined, so a call that raises on
the right side has already changed the left one. More targets than equations raise at once
(`211`). -/
def parse {R N : Type} [One R] (mp : MP R N) (targets : List Comp) : MP R N × Bool :=
  if mp.num < targets.length then (mp, false)
  else
    let bb := targetVector mp.num targets
    match parseSide targets mp.lbv with
    | none => (mp, false)
    | some l =>
      let mp1 := { mp with lmvs := keep mp.lmvs l.1 bb, lbv := l.2 }
      match parseSide targets mp.rbv with
      | none => (mp1, false)
      | some r => ({ mp1 with rmvs := keep mp1.rmvs r.1 bb, rbv := r.2 }, true)

/-- `_test_vector_remover` for a linear term (`src/wf/mp/main.py:164-186`). -/
def removeTest {R : Type} (v : Comp) (a : Arr R) : Option (Arr R) :=
  match a.comps with
  | p :: l => if p.1 = v ∧ p.2 = true then some ⟨a.factor, l⟩ else none
  | [] => none

/-- The terms of one side of one equation, sorted into linear and nonlinear ones
(`src/wf/mp/main.py:113-149`). The check of the test form of a nonlinear term is left out. -/
def sortTerms {R N : Type} (v : Comp) (lin : Cell R) (non : List (Sign × N)) :
    List (Sign × ApTerm R N) → Option (Cell R × List (Sign × N))
  | [] => some (lin, non)
  | (s, .lin a) :: l => (removeTest v a).bind fun a' => (addTo lin (s, a')).bind fun lin' =>
      sortTerms v lin' non l
  | (s, .non n) :: l => sortTerms v lin (non ++ [(s, n)]) l

/-- The rows of the proxy: test vector, left and right terms of each equation. -/
abbrev Rows (R N : Type) := List (Comp × List (Sign × ApTerm R N) × List (Sign × ApTerm R N))

/-- The proxy before the first `parse` (`src/wf/mp/main.py:84-150`). -/
def init {R N : Type} (rows : Rows R N) : Option (MP R N) :=
  (mapOpt (fun r => sortTerms r.1 [] [] r.2.1) rows).bind fun ls =>
  (mapOpt (fun r => sortTerms r.1 [] [] r.2.2) rows).map fun rs =>
    ⟨rows.length, ls.map Prod.fst, rs.map Prod.fst, ls.map Prod.snd, rs.map Prod.snd, [], []⟩

/-- `wf.mp()`: the unknowns are parsed first (`src/wf/mp/main.py:84-156`). -/
def make {R N : Type} [One R] (rows : Rows R N) (unknowns : List Comp) : Option (MP R N) :=
  (init rows).bind fun mp =>
    let p := parse mp unknowns
    if p.2 then some p.1 else none

/-- Any calls of `parse`, whether they return normally or not. -/
def parses {R N : Type} [One R] (mp : MP R N) (calls : List (List Comp)) : MP R N :=
  calls.foldl (fun m t => (parse m t).1) mp

/-- `self.linearity` (`src/wf/mp/main.py:110`, `132-136`). -/
def MP.linear {R N : Type} (mp : MP R N) : Bool := mp.lnon.all List.isEmpty && mp.rnon.all List.isEmpty

/-- `_add` of several terms. -/
def addAll {R : Type} (acc : Cell R) : Cell R → Option (Cell R)
  | [] => some acc
  | x :: l => (addTo acc x).bind fun a => addAll a l

/-- The terms that row `i` of a product contributes to the right-hand side
(`src/wf/mp/main.py:514-535`). Each entry of the vector must have exactly one term. -/
def mvTerms {R : Type} [Mul R] (row : List (Cell R)) (v : BV R) : Option (Cell R) :=
  (mapOpt (fun p : Cell R × Cell R =>
    match p.2 with
    | [q] => some (p.1.map fun x => ((if q.1 = x.1 then Sign.pos else Sign.neg), x.2.matmul q.2))
    | _ => none) (row.zip v)).map List.flatten

/-- `b` (`src/wf/mp/main.py:513-541`), row by row: the products in order, then the remaining terms. -/
def rhsRow {R : Type} [Mul R] (rmvs : List (BM R × BV R)) (rem : Cell R) (i : ℕ) : Option (Cell R) :=
  (mapOpt (fun mv : BM R × BV R => mv.1.rows[i]?.bind fun row => mvTerms row mv.2) rmvs).bind fun cs =>
    addAll [] (cs.flatten ++ rem)

/-- A column: `ndim == 2 and shape[1] == 1`; `none` when this raises
(`src/algebra/linear_system.py:217`, `234`). -/
def isCol {R : Type} (a : Arr R) : Bool :=
  match a.shape with
  | some [_, 1] => true
  | _ => false

/-- Row shapes of one block row: all present and equal (`src/algebra/linear_system.py:231-247`). -/
def rowShape {R : Type} (cells : List (Cell R)) (b : Cell R) : Option ℕ :=
  (mapOpt (fun x : Sign × Arr R => x.2.shape.bind List.head?) (b ++ cells.flatten)).bind fun hs =>
    match hs with
    | [] => none
    | h :: t => if t.all (fun x => x = h) then some h else none

/-- An entry of the unknown vector: one root column of positive sign
(`src/algebra/linear_system.py:210-218`, `251-252`). -/
def isUnknown {R : Type} (c : Cell R) : Bool :=
  match c with
  | [q] => decide (q.2.comps.length = 1) && isCol q.2 && decide (q.1 = .pos)
  | _ => false

/-- `LinearSystem(A, x, b)` (`src/algebra/linear_system.py:205-257`). -/
def linearSystem {R : Type} (num : ℕ) (A : BM R) (x b : BV R) : Option (BM R × BV R × BV R) :=
  if (∀ c ∈ x, isUnknown c = true) ∧ num = A.cols ∧ num = b.length ∧ A.cols = x.length ∧
      (∀ c ∈ b, ∀ q ∈ c, isCol q.2 = true) then
    (mapOpt (fun p : List (Cell R) × Cell R => rowShape p.1 p.2) (A.rows.zip b)).map fun _ => (A, x, b)
  else none

/-- `_parse_ls` (`src/wf/mp/main.py:508-543`). -/
def parseLs {R N : Type} [Mul R] (mp : MP R N) : Option (BM R × BV R × BV R) :=
  if mp.lbv.isEmpty then
    match mp.lmvs with
    | [(A, x)] =>
      (mapOpt (fun i => mp.rbv[i]?.bind fun rem => rhsRow mp.rmvs rem i) (List.range mp.rbv.length)).bind
        fun b => linearSystem A.rows.length A x b
    | _ => none
  else none

/-- `ls()` (`src/wf/mp/main.py:545-556`). -/
def ls {R N : Type} [Mul R] (mp : MP R N) : Option (BM R × BV R × BV R) :=
  if mp.linear then parseLs mp else none

/-- `nls()` (`src/wf/mp/main.py:558-581`): the linear system and the nonlinear terms of the left
side. -/
def nls {R N : Type} [Mul R] (mp : MP R N) :
    Option ((BM R × BV R × BV R) × List (List (Sign × N))) :=
  if mp.linear then none
  else (parseLs mp).bind fun s => if mp.rnon.all List.isEmpty then some (s, mp.lnon) else none

end Phyem.MatrixProxy
