import Verif.MgSolver.Model
import Verif.Multigrid.Spec

/-
What the multigrid solver is meant to compute, without the record of the inputs and outputs of the steps, without the pairing of the
steps and without cleaning: a current system `(x, b)` and a stack of the systems that were left to compute a correction.
-/

namespace Phyem.MgSolver

open Phyem.Multigrid (Step)

variable {V O : Type} {p : ℕ} [AddCommGroup V]

/-- The whole matrix and the whole right hand side of a layer. -/
def Sys.mat (S : Sys V O p) (l : ℕ) (x : V) : V := ∑ r, S.A l r x

def Sys.rhs (S : Sys V O p) (l : ℕ) : V := ∑ r, S.b l r

/-- The same systems and solvers, distributed in different ways over different numbers of processes: the solvers only look at the sum
of a distributed right hand side (`gmres_distribution`, `lgmres_distribution` in the area `Krylov`). -/
structure Same {q : ℕ} (S : Sys V O p) (S' : Sys V O q) : Prop where
  n : S.n = S'.n
  mat : ∀ l x, S.mat l x = S'.mat l x
  rhs : ∀ l, S.rhs l = S'.rhs l
  pass : ∀ c l u x, S.pass c l u x = S'.pass c l u x
  direct : ∀ l f g, (∑ r, f r) = ∑ r, g r → S.direct l f = S'.direct l g
  iter : ∀ l f g x, (∑ r, f r) = ∑ r, g r → S.iter l f x = S'.iter l g x
  first : ∀ x, S.first x = S'.first x
  last : ∀ x, S.last x = S'.last x

/-- The system in work: an approximation and its right hand side. -/
structure Work (V : Type) where
  x : V
  b : V

/-- One step on the work at hand `w` and the works that wait for a correction.

* a restriction leaves `w` and starts the system of the correction, whose right hand side is the restricted residual `A x - b`;
* an interpolation with a work waiting takes that up again, with the interpolated correction added to its approximation;
* an interpolation with no work waiting goes up to the given system of the next layer, improving the interpolated approximation.
-/
def work (S : Sys V O p) : Step → Work V × List (Work V) → Option (Work V × List (Work V))
  | .R layer, (w, wait) =>
    match S.pass true layer.toNat (layer - 1).toNat (S.mat layer.toNat w.x - w.b) with
    | none => none
    | some e =>
      match (if layer - 1 = 0 then S.direct 0 (atMaster e) else S.iter (layer - 1).toNat (atMaster e) 0) with
      | none => none
      | some dx => some (⟨dx, e⟩, w :: wait)
  | .I layer, (w, old :: wait) =>
    match S.pass false layer.toNat (layer + 1).toNat w.x with
    | none => none
    | some dx => some (⟨old.x + dx, old.b⟩, wait)
  | .I layer, (w, []) =>
    match S.pass false layer.toNat (layer + 1).toNat w.x with
    | none => none
    | some v =>
      match S.iter (layer + 1).toNat (S.b (layer + 1).toNat) v with
      | none => none
      | some x => some (⟨x, S.rhs (layer + 1).toNat⟩, [])

/-- All steps. -/
def works (S : Sys V O p) : List Step → Work V × List (Work V) → Option (Work V × List (Work V))
  | [], st => some st
  | step :: l, st =>
    match work S step st with
    | none => none
    | some st => works S l st

/-- The first approximation: the direct solution on the lowest layer, or an improvement of the given `x0` on the top layer. -/
def begin_ (S : Sys V O p) (x0 : Option V) : Step → Option (Work V)
  | .I _ => (S.direct 0 (S.b 0)).map (⟨·, S.rhs 0⟩)
  | .R _ =>
    match x0 with
    | none => none
    | some v => (S.first v).map (⟨·, S.rhs (S.n - 1)⟩)

end Phyem.MgSolver
