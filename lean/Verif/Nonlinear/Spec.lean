import Verif.Nonlinear.Model
import Mathlib.Algebra.BigOperators.Group.Finset.Basic
import Mathlib.Data.List.Nodup

/-!
What multilinear terms and the residual of a nonlinear system mean.
-/

open scoped BigOperators

namespace Phyem.Nonlinear

variable {K : Type} [CommRing K]

/-- The numbers `a(i₀, i₁, …)` of an operator in an element. -/
def Op.entries : Op K → ℕ → Arr K
  | .array data, e => data e
  | .scaled c op, e => ⟨(op.entries e).shape, fun idx => c * (op.entries e).val idx⟩

/-- `∑ a(i₀, …, r, …) ∏ v_l(i_l)`: index `r` in place `k`, a vector `v_l` in every other place `l`. -/
def contract (a : Arr K) (k r : ℕ) (v : ℕ → ℕ → K) : K :=
  (((indices a.shape).filter fun idx => idx.getD k 0 = r).map fun idx =>
    a.val idx * ∏ l ∈ (Finset.range a.shape.length).erase k, v l (idx.getD l 0)).sum

/-- The place of the test form of row `i` in a term. -/
def Sys.testPlace (s : Sys K) (i : ℕ) (t : Term K) : ℕ := (t.corr.map Operand.key).idxOf (s.tests i).key

/-- Which unknown is in place `l` of a term. -/
def Sys.unknownAt (s : Sys K) (t : Term K) (l : ℕ) : ℕ :=
  (s.unknowns.map Operand.key).idxOf ((t.corr.map Operand.key).getD l (.generic 0))

/-- The residual `A x + N(x) - b` of row `i` in element `e`, for local test dof `r`. -/
def Sys.residual (s : Sys K) (x : ℕ → ℕ → ℕ → K) (i e r : ℕ) : K :=
  (∑ j ∈ Finset.range s.unknowns.length, ∑ c ∈ Finset.range (s.m j e), s.A i j e r c * x j e c)
  + ((s.terms i).map fun t => (if t.2 then 1 else -1) *
      contract (t.1.op.entries e) (s.testPlace i t.1) r fun l c => x (s.unknownAt t.1 l) e c).sum
  - s.b i e r

/-- The number of local dofs of the form in place `l` of a term. -/
def Sys.dofs (s : Sys K) (i : ℕ) (t : Term K) (e l : ℕ) : ℕ :=
  if l = s.testPlace i t then s.n i e else s.m (s.unknownAt t l) e

/-- A term of row `i` that is multilinear in its test form and at least two different unknowns. -/
structure TermFits (s : Sys K) (i : ℕ) (t : Term K) : Prop where
  few : t.corr.length < 14
  many : 3 ≤ t.corr.length
  distinct : (t.corr.map Operand.key).Nodup
  objects : (t.corr.map Operand.addr).Nodup
  test : (s.tests i).key ∈ t.corr.map Operand.key
  unknowns : ∀ k ∈ t.corr.map Operand.key, k = (s.tests i).key ∨ k ∈ s.unknowns.map Operand.key
  shape : ∀ e ∈ s.elements, (t.op.entries e).shape = (List.range t.corr.length).map (s.dofs i t e)

/-- A nonlinear system: different unknowns, test forms that are no unknowns, terms that fit. -/
structure Fits (s : Sys K) : Prop where
  distinct : (s.unknowns.map Operand.key).Nodup
  tests : ∀ i < s.rows, (s.tests i).key ∉ s.unknowns.map Operand.key
  terms : ∀ i < s.rows, ∀ t ∈ s.terms i, TermFits s i t.1

end Phyem.Nonlinear
