import Verif.Instant.Model
import Verif.Chaining.Spec

/-!
# What is said about cochains

Small notions: where the local dofs are, what it means that the values agree, and which value is the last one.
-/

namespace Phyem.Instant

open Phyem Phyem.Chaining

/-- Rank `r` has element `e`, with the numbers `ns`. -/
def Has (g : DGM) (r e : ℕ) (ns : List ℕ) : Prop := ∃ d, g[r]? = some d ∧ (e, ns) ∈ d

/-- Every local dof has the value of its number. -/
def Agrees (I : Inst) (F : ℕ → ℚ) : Prop := ∀ r e ns, Has I.gm r e ns → I.item r e = some (ns.map F)

/-- All elements have as many values as dofs. -/
def Full (I : Inst) : Prop := ∀ r e ns, Has I.gm r e ns → ∃ v, I.item r e = some v ∧ v.length = ns.length

/-- The numbers and values of all local dofs: rank after rank, element after element, dof after dof. -/
def places (I : Inst) : List (ℕ × ℚ) :=
  I.gm.zipIdx.flatMap fun q => q.1.flatMap fun p => p.2.zip ((I.item q.2 p.1).getD [])

/-- The value of the last place with number `n`. -/
def lastValue (l : List (ℕ × ℚ)) (n : ℕ) : Option ℚ := ((l.filter fun x => x.1 = n).getLast?).map Prod.snd

end Phyem.Instant
