import Mathlib.Data.Rat.Defs
import Mathlib.Algebra.Order.Field.Rat

/-
Model of the Newton loop and its stop criterion,
`msehtt/tools/nonlinear_system/static/solve/Newton_Raphson.py` and
`msepy/tools/nonlinear_system/static/solve/Newton_Raphson.py`.

Both files have the same `_check_stop_criterion_` except for the constant of the slow
convergence test (`0.0001` in msehtt, `0.000001` in msepy), which is a parameter here.
-/

namespace Phyem.Newton

/-- A norm as a Python float: finite, `inf` or `nan` (finite values are exact rationals, a
simplification). -/
inductive Norm where
  | fin (q : ℚ)
  | inf
  | nan
deriving DecidableEq

/-- Python `a < b`. -/
def Norm.lt : Norm → Norm → Bool
  | .fin a, .fin b => decide (a < b)
  | .fin _, .inf => true
  | _, _ => false

/-- Python `100 * a` for a norm (`100 * inf = inf`). -/
def Norm.times100 : Norm → Norm
  | .fin a => .fin (100 * a)
  | .inf => .inf
  | .nan => .nan

/-- `(beta_old - beta) / beta_old < tol`, reached only when `beta < beta_old`: for `beta_old = inf`
the quotient is `nan` and the comparison False.  (`beta_old = 0` is impossible for norms; the
quotient of rationals is not evaluated then because `beta < 0` fails for norms.) -/
def slow (tol : ℚ) : Norm → Norm → Bool
  | .fin beta, .fin old => decide ((old - beta) / old < tol)
  | _, _ => false

/-- `maxiter`: an int, or a string holding an int ("forced").  A string that is not an int raises
`ValueError` in `int(maxiter)`. -/
inductive MaxIter where
  | int (n : Int)
  | forced (n : Int)
  | invalid
deriving DecidableEq

/-- Result of the stop criterion: `JUDGE`, and `convergence_info` when it stops. -/
structure Verdict where
  judge : Nat
  info : Option Int
deriving DecidableEq

/-- `stop_iteration`. -/
def Verdict.stop (v : Verdict) : Bool := v.info.isSome

/-- `_check_stop_criterion_(BETA, atol, ITER, maxiter)`, msehtt Newton_Raphson.py:398-485 (msepy
326-413).  `prev` is `BETA[-2]` when `len(BETA) > 1`, `beta` is `BETA[-1]`.  `none` is the
`ValueError` of `int(maxiter)`. -/
def check (tol : ℚ) (prev : Option Norm) (beta : Norm) (atol : ℚ) (iter : Nat) (m : MaxIter) :
    Option Verdict :=
  match m with
  | .invalid => none
  | .forced n =>
    if (n : Int) ≤ iter then some ⟨2, some iter⟩ else some ⟨0, none⟩
  | .int n =>
    let j1 := beta.lt (.fin atol)
    let j2 := decide (n ≤ (iter : Int))
    let j3 := !j1 && (match prev with
      | none => false
      | some old => old.lt beta && old.times100.lt beta)
    let j4 := !j1 && (match prev with
      | none => false
      | some old => beta.lt old && slow tol beta old)
    if j1 then some ⟨1, some 0⟩
    else if j2 then some ⟨2, some iter⟩
    else if j3 then some ⟨3, some (-1)⟩
    else if j4 then some ⟨4, some iter⟩
    else some ⟨0, none⟩

/-- State of the loop: `ITER`, `BETA` (newest first), and the current iterate `xi`. -/
structure St (X : Type) where
  iter : Nat
  beta : List Norm
  xi : X
deriving DecidableEq

/-- Outcome of a run. -/
structure Res (X : Type) where
  /-- final `ITER` -/
  iter : Nat
  /-- `BETA`, newest first -/
  beta : List Norm
  /-- the returned solution -/
  x : X
  judge : Nat
  info : Int
deriving DecidableEq

/-- One pass of `while 1:` (msehtt 168-365, msepy 128-295).  `dx` is the solution of the linearised
system at the current iterate, `norm` its norm.  The linear solver is a parameter (not modelled).
`none` is an exception, `inl` continues, `inr` leaves the loop. -/
def step {X : Type} [Add X] (tol : ℚ) (dx : X → X) (norm : X → Norm) (atol : ℚ) (m : MaxIter)
    (s : St X) : Option (St X ⊕ Res X) :=
  let iter := s.iter + 1
  let d := dx s.xi
  let b := norm d
  match check tol s.beta.head? b atol iter m with
  | none => none
  | some v =>
    let xi1 := s.xi + d
    match v.info with
    | some i => some (.inr ⟨iter, b :: s.beta, xi1, v.judge, i⟩)
    | none => some (.inl ⟨iter, b :: s.beta, xi1⟩)

/-- The outcome of the first `n` passes of the loop: still running, left, or raised. -/
def runFor {X : Type} [Add X] (tol : ℚ) (dx : X → X) (norm : X → Norm) (atol : ℚ) (m : MaxIter)
    (x0 : X) : Nat → Option (St X ⊕ Res X)
  | 0 => some (.inl ⟨0, [], x0⟩)
  | n + 1 =>
    match runFor tol dx norm atol m x0 n with
    | none => none
    | some (.inr r) => some (.inr r)
    | some (.inl s) => step tol dx norm atol m s

end Phyem.Newton
