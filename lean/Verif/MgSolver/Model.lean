import Verif.Multigrid.Model
import Verif.Newton.Model
import Mathlib.Algebra.BigOperators.Fin
import Mathlib.Algebra.BigOperators.Group.Finset.Basic

/-
Model of the solvers of multigrid linear systems: `msehtt/multigrid/tools/linear_system/static/solvers/multigrid.py` (a scheme of
restrictions and interpolations) and `.../solvers/direct.py` (level by level).

Simplifications: the vectors of all layers are elements of one additive group `V` (their lengths, the splitting of a vector into the
unknowns and the merging of the parts are not modelled); the solvers called (`spsolve`, `gmres`, `lgmres`, modelled in the area
`Krylov`) and the transfers between levels (`pass_vector`, `pass_cochain`) are parameters; a message and an `info` are one value
`out` of a type `O`.  An exception is `none`.  The program is run by `p` processes; what is distributed over them is a function of
the process (process 0 is the master).  Numbers are exact.
-/

namespace Phyem.MgSolver

open Phyem.Multigrid (Step)

/-! ### The arguments -/

/-- The keyword arguments of `solve`: whether one is given, and `maxiter` (`Newton.MaxIter`: an integer, a string or something else).
`other` stands for `atol` and every other name. -/
structure Kw where
  inner : Bool := false
  outer : Bool := false
  restart : Bool := false
  other : Bool := false
  maxiter : Option Newton.MaxIter := none

/-- The iterative solvers. -/
inductive Solver where
  | lgmres
  | gmres
deriving DecidableEq

/-- `len(kwargs) == 0`. -/
def Kw.empty (kw : Kw) : Bool := !kw.inner && !kw.outer && !kw.restart && !kw.other && kw.maxiter.isNone

/-- The choice of the iterative solver from the keyword arguments, multigrid.py:46-53, direct.py:14-19. -/
def choose (kw : Kw) : Option Solver :=
  if kw.empty || kw.inner || kw.outer then some .lgmres else if kw.restart then some .gmres else none

/-- `int(x)` for `x = n / 10`: towards zero. -/
def tenth (n : ℤ) : ℤ := Int.tdiv n 10

/-- `intermediate_maxiter`, multigrid.py:57-65 (`dflt = 2`), direct.py:22-30 (`dflt = 3`). A string times `0.1` is a TypeError. -/
def intermediate (dflt : ℤ) (kw : Kw) : Option ℤ :=
  match kw.maxiter with
  | none => some dflt
  | some (.int n) =>
    let m := tenth n + 1
    if 5 < m then some 5 else if 1 ≤ m then some m else none
  | some (.forced _) => none
  | some .invalid => none

/-! ### The scheme solver -/

/-- The systems of the layers and the operations on them. -/
structure Sys (V O : Type) (p : ℕ) where
  /-- number of layers -/
  n : ℕ
  /-- `AAA[l].M @ x.V` -/
  A : ℕ → Fin p → V → V
  /-- `bbb[l].V` -/
  b : ℕ → Fin p → V
  /-- `pass_vector(..., complete_only)` from one layer to another -/
  pass : Bool → ℕ → ℕ → V → Option V
  /-- `spsolve(AAA[l], rhs)` -/
  direct : ℕ → (Fin p → V) → Option V
  /-- `linearSolver(AAA[l], rhs, x0, **intermediate_kwargs, maxiter=intermediate_maxiter)` -/
  iter : ℕ → (Fin p → V) → V → Option V
  /-- `top_global_linear_system.solve(linearSolverName, x0=x0, ...)` with an `x0` that is not `None` -/
  first : V → Option V
  /-- `linearSolver(A, b, x, **kwargs)` on the top layer: the vector, and message and info -/
  last : V → Option (V × O)

variable {V O : Type} {p : ℕ} [AddCommGroup V]

/-- `[x, error, rhs]`: what a step takes and gives. -/
structure Data (V : Type) (p : ℕ) where
  x : V
  err : Fin p → V
  rhs : Option (Fin p → V)

/-- `___StepIO___`, multigrid.py:308-353: `Input` and `output` (`none`: the initial empty string). -/
structure IO (V : Type) (p : ℕ) where
  inp : Data V p
  out : Option (Data V p)

/-- `stepIOs` and `new_unpaired_interpolation`; an entry is `none` if there is no such step yet or if its `_data` is `None`
(reading it is an exception in both cases). -/
structure St (V : Type) (p : ℕ) where
  io : ℕ → Option (IO V p)
  fresh : Bool

/-- `l[i]` for a list of length `n`: negative indices count from the end. -/
def pyIdx (n : ℕ) (i : ℤ) : Option ℕ :=
  if 0 ≤ i then (if i < n then some i.toNat else none)
  else if -(n : ℤ) ≤ i then some (n + i).toNat else none

/-- `pairs[s]`: the outer `none` is a KeyError. -/
def pairOf (pairs : List (ℕ × Option ℕ)) (s : ℕ) : Option (Option ℕ) := pairs.lookup s

/-- `error = A.M @ x.V - rhs`. -/
def residual (S : Sys V O p) (l : ℕ) (x : V) (rhs : Fin p → V) : Fin p → V := fun r => S.A l r x - rhs r

/-- `lower_error_V`: the whole vector at the master, zeros elsewhere, multigrid.py:247-251. -/
def atMaster (v : V) : Fin p → V := fun r => if r.1 = 0 then v else 0

/-- An interpolation without restriction, multigrid.py:172-201: interpolate `x`, improve it with the intermediate solver. -/
def stepUp (S : Sys V O p) (layer : ℤ) (d : Data V p) : Option (Data V p) :=
  match pyIdx S.n layer, pyIdx S.n (layer + 1) with
  | some l, some u =>
    match S.pass false l u d.x with
    | none => none
    | some v =>
      match S.iter u (S.b u) v with
      | none => none
      | some x => some ⟨x, residual S u x (S.b u), some (S.b u)⟩
  | _, _ => none

/-- An interpolation paired with a restriction whose input is `old`, multigrid.py:203-224: add the interpolated correction. -/
def stepBack (S : Sys V O p) (layer : ℤ) (d old : Data V p) : Option (Data V p) :=
  match pyIdx S.n layer, pyIdx S.n (layer + 1) with
  | some l, some u =>
    match S.pass false l u d.x with
    | none => none
    | some dx =>
      match old.rhs with
      | none => none
      | some rhs => some ⟨old.x + dx, residual S u (old.x + dx) rhs, some rhs⟩
  | _, _ => none

/-- A restriction, multigrid.py:232-261: restrict the residual and solve for the correction on the lower layer. -/
def stepDown (S : Sys V O p) (layer : ℤ) (d : Data V p) : Option (Data V p) :=
  match pyIdx S.n layer, pyIdx S.n (layer - 1) with
  | some u, some l =>
    match S.pass true u l (∑ r, d.err r) with
    | none => none
    | some e =>
      match (if layer - 1 = 0 then S.direct l (atMaster e) else S.iter l (atMaster e) 0) with
      | none => none
      | some x => some ⟨x, residual S l x (atMaster e), some (atMaster e)⟩
  | _, _ => none

/-- `scheme[_s_]` is an interpolation with `pairs[_s_] is None`. -/
def unpaired (scheme : List Step) (pairs : List (ℕ × Option ℕ)) (s : ℕ) : Bool :=
  match scheme[s]? with
  | some (.I _) => pairOf pairs s == some none
  | _ => false

/-- The record of step `s` on entry: step 0 has been prepared, the others take the output of the previous one, multigrid.py:158-168. -/
def entered (st : St V p) (s : ℕ) : Option (IO V p) :=
  if s = 0 then st.io 0
  else
    match st.io (s - 1) with
    | none => none
    | some before =>
      match before.out with
      | none => none
      | some d => some ⟨d, none⟩

/-- One pass of `for s in scheme`, multigrid.py:152-279. The mutation of the vector `x` at an interpolation (line 221) is the
construction of a new one here: the old one is not read any more, which `solve_eq` (where it is read from `io`) relies on. -/
def pass (S : Sys V O p) (scheme : List Step) (pairs : List (ℕ × Option ℕ)) (clean : Bool) (s : ℕ) (step : Step) (st : St V p) :
    Option (St V p) :=
  match entered st s with
  | none => none
  | some me =>
    match step with
    | .I layer =>
      match pairOf pairs s with
      | none => none
      | some none =>
        match stepUp S layer me.inp with
        | none => none
        | some out => some ⟨Function.update st.io s (some ⟨me.inp, some out⟩), true⟩
      | some (some r) =>
        match scheme[r]? with
        | some (.R _) =>
          match st.io r with
          | none => none
          | some old =>
            match stepBack S layer me.inp old.inp with
            | none => none
            | some out =>
              let io := Function.update st.io s (some ⟨me.inp, some out⟩)
              some ⟨if clean then Function.update (Function.update io r none) (s - 1) none else io, st.fresh⟩
        | _ => none
    | .R layer =>
      match stepDown S layer me.inp with
      | none => none
      | some out =>
        let io := Function.update st.io s (some ⟨me.inp, some out⟩)
        if clean && st.fresh then some ⟨fun t => if unpaired scheme pairs t then none else io t, false⟩
        else some ⟨io, st.fresh⟩

/-- The loop over the steps `s, s + 1, ...`. -/
def loop (S : Sys V O p) (scheme : List Step) (pairs : List (ℕ × Option ℕ)) (clean : Bool) :
    ℕ → List Step → St V p → Option (St V p)
  | _, [], st => some st
  | s, step :: l, st =>
    match pass S scheme pairs clean s step st with
    | none => none
    | some st => loop S scheme pairs clean (s + 1) l st

/-- The input of step 0, multigrid.py:102-145. Without `x0` the iterative solver is called without its third positional argument,
a TypeError (solve.py:49-50). -/
def start (S : Sys V O p) (x0 : Option V) : Step → Option (Data V p)
  | .I layer =>
    if layer = 0 then
      match S.direct 0 (S.b 0) with
      | none => none
      | some x => some ⟨x, residual S 0 x (S.b 0), none⟩
    else none
  | .R layer =>
    if layer = (S.n : ℤ) - 1 then
      match x0 with
      | none => none
      | some v =>
        match S.first v with
        | none => none
        | some x => some ⟨x, residual S (S.n - 1) x (S.b (S.n - 1)), some (S.b (S.n - 1))⟩
    else none

/-- The vector handed to the last solver, multigrid.py:34-39, 96-281. The scheme is made for `layers` layers. -/
def handed (S : Sys V O p) (layers : ℕ) (scheme : List Step) (clean : Bool) (x0 : Option V) : Option V :=
  if layers = S.n then
    match scheme.getLast? with
    | some (.I layer) =>
      if layer + 1 = (S.n : ℤ) - 1 then
        match scheme with
        | [] => none
        | step :: _ =>
          match start S x0 step with
          | none => none
          | some d =>
            match Multigrid.pairs scheme with
            | none => none
            | some pairs =>
              match loop S scheme pairs clean 0 scheme ⟨Function.update (fun _ => none) 0 (some ⟨d, none⟩), false⟩ with
              | none => none
              | some st =>
                match st.io (scheme.length - 1) with
                | none => none
                | some io => io.out.map Data.x
      else none
    | _ => none
  else none

/-- `_msehtt_multigrid_solver_`, multigrid.py:28-288, up to the update of the unknowns: the vector returned, and message and info.
Whether the keyword arguments are accepted is `choose`, `intermediate`. -/
def solve (S : Sys V O p) (layers : ℕ) (scheme : List Step) (clean : Bool) (x0 : Option V) : Option (V × O) :=
  match handed S layers scheme clean x0 with
  | none => none
  | some x => S.last x

/-! ### The solver level by level -/

/-- The operations of `_msehtt_multigrid_direct_linear_system_solver_`, direct.py. -/
structure Levels (V O : Type) where
  /-- the highest level -/
  top : ℕ
  /-- `solve('direct')` of level 0 -/
  direct : Option V
  /-- message and info if there is only one level: info 0 -/
  exact : O
  /-- `pass_cochain` from one level to the next one -/
  up : ℕ → V → Option V
  /-- `pass_cochain` from one level to the previous one -/
  down : ℕ → V → Option V
  /-- `solve(linearSolverName, x0=cfs, **intermediate_kwargs, maxiter=intermediate_maxiter)` -/
  iter : ℕ → V → Option V
  /-- `solve(linearSolverName, x0=cfs, **kwargs)` of the top level -/
  last : V → Option (V × O)

/-- The pass of the loop direct.py:59-100 for the levels `l, l + 1, ..., top`, the solution on level `l - 1` being `x`
(`left` levels to go). -/
def climb (L : Levels V O) : ℕ → ℕ → V → O → Option (V × O)
  | 0, _, x, o => some (x, o)
  | left + 1, l, x, o =>
    match L.up (l - 1) x with
    | none => none
    | some v =>
      if l = L.top then L.last v
      else
        match L.iter l v with
        | none => none
        | some x => climb L left (l + 1) x o

/-- The solution on the top level, direct.py:55-100. -/
def solveLevels (L : Levels V O) : Option (V × O) :=
  match L.direct with
  | none => none
  | some x => climb L L.top 1 x L.exact

/-- The cochains of the levels below `l` after passing down, direct.py:102-116, multigrid.py:290-301: entry `0` is that of level
`l - 1`. -/
def descend (down : ℕ → V → Option V) : ℕ → V → Option (List V)
  | 0, _ => some []
  | l + 1, x =>
    match down (l + 1) x with
    | none => none
    | some y => (descend down l y).map (y :: ·)

end Phyem.MgSolver
