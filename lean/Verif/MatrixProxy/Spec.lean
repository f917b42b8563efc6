import Verif.MatrixProxy.Model
import Mathlib.Algebra.Algebra.Basic

/-!
What block vectors, block matrices and their products stand for. Matrices of all sizes are values in
one (non-commutative) algebra `A` over the commutative ring `R` of factors.
-/

namespace Phyem.MatrixProxy

section
variable {R A N : Type} [CommRing R] [Ring A] [Algebra R A]

/-- Values of root arrays and of their transposes. -/
abbrev Val (A : Type) := Comp → Bool → A

/-- The value of an array: factor times product of the components. -/
def Arr.val (v : Val A) (a : Arr R) : A := a.factor • (a.comps.map fun p => v p.1 p.2).prod

/-- The value of a list of signed things. -/
def total {T : Type} (f : T → A) (l : List (Sign × T)) : A := (l.map fun p => p.1.act (f p.2)).sum

/-- Row `i` of a product of a block matrix and a block vector: `Σ_k M_ik v_k`. -/
def mvValue (v : Val A) (mv : BM R × BV R) (i : ℕ) : A :=
  (((mv.1.rows.getD i []).zip mv.2).map fun p => total (Arr.val v) p.1 * total (Arr.val v) p.2).sum

/-- Row `i` of one side of a proxy: collected products, remaining terms, nonlinear terms. -/
def sideValue (v : Val A) (ν : N → A) (mvs : List (BM R × BV R)) (rem : BV R)
    (non : List (List (Sign × N))) (i : ℕ) : A :=
  (mvs.map fun mv => mvValue v mv i).sum + total (Arr.val v) (rem.getD i []) + total ν (non.getD i [])

end

/-- A term of the algebraic proxy without the test vector in front. -/
def strip {R N : Type} : ApTerm R N → ApTerm R N
  | .lin a => .lin ⟨a.factor, a.comps.tail⟩
  | .non n => .non n

/-- The value of a term without its test vector. -/
def ApTerm.val {R A N : Type} [CommRing R] [Ring A] [Algebra R A] (v : Val A) (ν : N → A) :
    ApTerm R N → A
  | .lin a => (⟨a.factor, a.comps.tail⟩ : Arr R).val v
  | .non n => ν n

/-- The signed terms that a product of a row of cells and a vector stands for. -/
def product {R : Type} [Mul R] (row : List (Cell R)) (w : BV R) : Cell R :=
  (row.zip w).flatMap fun p => p.1.flatMap fun x => p.2.map fun q => (x.1.mul q.1, x.2.matmul q.2)

/-- The signed terms of row `i` of one side: those collected in products, and those remaining. -/
def sideTerms {R : Type} [Mul R] (mvs : List (BM R × BV R)) (rem : BV R) (i : ℕ) : Cell R :=
  (mvs.flatMap fun mv => product (mv.1.rows.getD i []) mv.2) ++ rem.getD i []

/-- The array ends with one of the given vectors, not transposed. -/
def Arr.endsIn {R : Type} (a : Arr R) (ts : List Comp) : Prop := ∃ t ∈ ts, a.comps.getLast? = some (t, false)

end Phyem.MatrixProxy
