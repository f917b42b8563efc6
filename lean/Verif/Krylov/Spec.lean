import Verif.Krylov.Model
import Mathlib.LinearAlgebra.Span.Basic

/-!
# Iterative solvers: the words of the theorems
-/

namespace Phyem.Krylov

open Matrix

variable {n : ℕ}

/-- The length of the residual of the system `A x = f`. -/
noncomputable def size (A : Matrix (Fin n) (Fin n) ℝ) (f x : Vec n) : ℝ := Real.sqrt (∑ i, (f i - (A *ᵥ x) i) ^ 2)

/-- The Krylov space: all combinations of `r, A r, ..., A^(m-1) r`. -/
def krylov (A : Matrix (Fin n) (Fin n) ℝ) (r : Vec n) (m : ℕ) : Submodule ℝ (Vec n) :=
  Submodule.span ℝ (Set.range fun i : Fin m => (A ^ (i : ℕ)) *ᵥ r)

/-- `y` is a best correction of `x` in the space `W`: no other correction in the space leaves a smaller residual. -/
def Best (A : Matrix (Fin n) (Fin n) ℝ) (f x : Vec n) (W : Submodule ℝ (Vec n)) (y : Vec n) : Prop :=
  y ∈ W ∧ ∀ z ∈ W, size A f (x + y) ≤ size A f (x + z)

/-- What the user sees of a run: nothing while it is going on, the result in the end. -/
def result {S : Type} : Option (S ⊕ Res n) → Option (Option (Res n))
  | none => none
  | some (.inl _) => some none
  | some (.inr r) => some (some r)

end Phyem.Krylov
