import Verif.TimeDisc.Model
import Verif.LinRepr.Spec

/-!
What temporal discretisation should do to a term, in terms of how its forms are built.
-/

namespace Phyem.TimeDisc

open Phyem.LinRepr (Str Form Scalar)
open Phyem.WeakForm (Term str)

/-- The term with the texts of its forms. -/
def text {R : Type} (t : Term R) : TTerm R := ⟨t.kind, t.factor, t.f0.lin, t.f1.lin, t.restricted⟩

/-- `(a@ke - a@ks) / (ke - ks)`. -/
def quotient (ts n ks ke : Str) : Form :=
  .sdiv (.sub (.root (atName ts n ke)) (.root (atName ts n ks))) (.root (stepName ts ks ke))

/-- What one command means for term `k` of equation `i`: `orig` is the term of the formulation,
`cur` the term as discretised so far. A time derivative becomes the difference quotient, everything
else of the original term being kept; an average takes the place of the averaged form. -/
def meaning {R : Type} (ts : Str) (i k : ℕ) (orig cur : Term R) : Cmd → Term R
  | .define _ => cur
  | .differentiate i' k' ks ke =>
    if i' = i ∧ k' = k then
      match orig.f0 with
      | .un .timeDerivative (.root n) => { orig with f0 := quotient ts n ks ke }
      | _ => cur
    else cur
  | .average i' k' f tis =>
    if i' = i ∧ k' = k then
      match f with
      | .root n =>
        match averageForm ts n tis with
        | some a => { cur with f0 := cur.f0.subst n a, f1 := cur.f1.subst n a }
        | none => cur
      | _ => cur
    else cur

/-- What a history means for term `k` of equation `i`. -/
def discretised {R : Type} (ts : Str) (cs : List Cmd) (i k : ℕ) (t : Term R) : Term R :=
  cs.foldl (meaning ts i k t) t

/-- The command addresses term `k` of equation `i`. -/
def Cmd.about (i k : ℕ) : Cmd → Prop
  | .define _ => False
  | .differentiate i' k' _ _ => i' = i ∧ k' = k
  | .average i' k' _ _ => i' = i ∧ k' = k

/-- The cases in which the library does what the command means: a differentiated term has factor 1,
and a form that is averaged over several instants occurs in the term as a whole form or a summand
only. -/
def Fine {R : Type} [One R] (orig cur : Term R) : Cmd → Prop
  | .define _ => True
  | .differentiate _ _ _ _ => orig.factor = 1 ∧ orig.restricted = false
  | .average _ _ f tis => tis.length = 1 ∨ ∀ n, f = .root n → cur.f0.onlySummand n ∧ cur.f1.onlySummand n

end Phyem.TimeDisc
