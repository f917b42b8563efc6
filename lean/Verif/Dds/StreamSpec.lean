import Verif.Dds.Stream

/-!
# What a stream function is

Stated about the data only: the flow through an edge, functions that change by the flow, and regions that meet at corners.
-/

namespace Phyem.Dds

/-- The flow through the edge from point `a` to point `b`, by the trapezoidal rule: the mean of `u` times the change of `y`
minus the mean of `v` times the change of `x`. -/
def Reg.flow (r : Reg) (a b : ℕ × ℕ) : ℚ :=
  (r.u a.1 a.2 + r.u b.1 b.2) / 2 * (r.y b.1 b.2 - r.y a.1 a.2)
    - (r.v a.1 a.2 + r.v b.1 b.2) / 2 * (r.x b.1 b.2 - r.x a.1 a.2)

/-- The region has points. -/
def Reg.HasPoints (r : Reg) : Prop := 0 < r.n0 ∧ 0 < r.n1

/-- Between neighbouring points of the region `ψ` changes by the flow through the edge. -/
def Reg.Carries (r : Reg) (ψ : ℚ → ℚ → ℚ) : Prop :=
  (∀ i j, i + 1 < r.n0 → j < r.n1 →
    ψ (r.x (i + 1) j) (r.y (i + 1) j) - ψ (r.x i j) (r.y i j) = r.flow (i, j) (i + 1, j)) ∧
  (∀ i j, i < r.n0 → j + 1 < r.n1 →
    ψ (r.x i (j + 1)) (r.y i (j + 1)) - ψ (r.x i j) (r.y i j) = r.flow (i, j) (i, j + 1))

/-- The value of `ψ` at a corner of the region. -/
def Reg.atCorner (r : Reg) (ψ : ℚ → ℚ → ℚ) (c : Corner) : ℚ :=
  ψ (r.x (r.index c).1 (r.index c).2) (r.y (r.index c).1 (r.index c).2)

/-- The regions meet in a corner: the seven decimals of its coordinates are the same. -/
def Meet (r r' : Reg) : Prop := ∃ c c', r.keyAt c = r'.keyAt c'

/-- One comes to the region from a region in `S` by going from corner to corner within `regs`. -/
inductive Reached (regs : List Reg) (S : Reg → Prop) : Reg → Prop
  | base {r : Reg} : r ∈ regs → S r → Reached regs S r
  | step {r r' : Reg} : Reached regs S r → r' ∈ regs → Meet r r' → Reached regs S r'

/-- The region where the computation begins: the first one, or those that have the given point as a corner. -/
def Begins (regs : List Reg) (start : Option ((ℚ × ℚ) × ℚ)) (r : Reg) : Prop :=
  match start with
  | none => regs.head? = some r
  | some (p, _) => ∃ c, r.keyAt c = keyOf p.1 p.2

end Phyem.Dds
