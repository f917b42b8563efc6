import Verif.Chaining.Model

/-!
Specification of chaining: what it means that a numbering is the chain of several numberings.
-/

namespace Phyem.Chaining

/-- The dofs of an element in the order of a row of the chained matrix, named by unknown and number within the
unknown: first the row of unknown 0, then the row of unknown 1, …  (`rows` are the rows of the element.) -/
def dofsOf (rows : List (List ℕ)) : List (ℕ × ℕ) :=
  rows.zipIdx.flatMap fun q => q.1.map fun n => (q.2, n)

/-- `out` numbers the dofs of the elements `es`: one number per dof; two numbers are equal exactly if they are
of the same dof of the same unknown; the numbers used are `0 … total - 1`. -/
structure IsChaining (es : ℕ → Prop) (rows : ℕ → List (List ℕ)) (out : ℕ → List ℕ) (total : ℕ) : Prop where
  lengths : ∀ e, es e → (out e).length = (dofsOf (rows e)).length
  same : ∀ (e e' k k' : ℕ) (x x' : ℕ × ℕ), es e → es e' → (dofsOf (rows e))[k]? = some x →
    (dofsOf (rows e'))[k']? = some x' → ((out e)[k]? = (out e')[k']? ↔ x = x')
  range : ∀ v, (∃ e, es e ∧ v ∈ out e) ↔ v < total

/-- All numbers below `n` are used, and no others. -/
def Contiguous (nums : List ℕ) (n : ℕ) : Prop := ∀ v, v ∈ nums ↔ v < n

/-- A gathering matrix whose numbers appear in order: `b e` numbers occur before element `e`, and the new ones of
element `e` are `b e … b (e+1) - 1`, each once. -/
def InOrder (g : GM) (b : ℕ → ℕ) : Prop :=
  b 0 = 0 ∧ ∀ e < g.length, b e ≤ b (e + 1) ∧
    ((rowOf g e).filter fun n => b e ≤ n).Perm (List.range' (b e) (b (e + 1) - b e))

/-- No element appears twice, neither on a rank nor on two ranks. -/
def Distinct (g : DGM) : Prop := g.keys.flatten.Nodup

/-- The elements of a distributed matrix. -/
def Elem (g : DGM) (e : ℕ) : Prop := e ∈ g.keys.flatten

end Phyem.Chaining
