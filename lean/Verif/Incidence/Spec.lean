import Verif.Incidence.Model
import Mathlib.Algebra.BigOperators.Ring.Finset

/-
Specification vocabulary for C18 and C19.
-/

namespace Phyem.Incidence

/-- Matrix (with `n` columns) times vector. -/
def app {R : Type*} [CommRing R] (n : Nat) (E : Mat) (v : Nat → R) (r : Nat) : R :=
  ∑ c ∈ Finset.range n, (E r c : R) * v c

/-- Entry of the product of a matrix with `n` columns and a matrix with `n` rows. -/
def mul (n : Nat) (A B : Mat) (r c : Nat) : Int := ∑ m ∈ Finset.range n, A r m * B m c

end Phyem.Incidence
