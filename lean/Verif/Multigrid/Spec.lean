import Verif.Multigrid.Model

/-
What C52 and C53 mean, independently of the loops of the model.
-/

namespace Phyem.Multigrid

/-- Layer a step starts from / arrives at. -/
def Step.src : Step → Int
  | .R l => l
  | .I l => l

def Step.dst : Step → Int
  | .R l => l - 1
  | .I l => l + 1

/-- The steps lead from layer `a` to layer `b`, each starting where the previous one ended. -/
def Path : Int → List Step → Int → Prop
  | a, [], b => a = b
  | a, s :: l, b => a = s.src ∧ Path s.dst l b

/-- All steps are between existing layers `0 .. n-1`. -/
def WithinLayers (n : Nat) (l : List Step) : Prop :=
  ∀ s ∈ l, (0 ≤ s.src ∧ s.src < n) ∧ (0 ≤ s.dst ∧ s.dst < n)

/-- `dict` pairs the interpolations of a scheme with restrictions like closing with opening
brackets. -/
structure ProperPairing (scheme : List Step) (dict : List (Nat × Option Nat)) : Prop where
  /-- no interpolation has two entries -/
  nodup : (dict.map Prod.fst).Nodup
  /-- the keys are the interpolations -/
  keys : ∀ i, (∃ v, (i, v) ∈ dict) ↔ ∃ l, scheme[i]? = some (.I l)
  /-- every restriction is paired with exactly one interpolation -/
  values : ∀ r l, scheme[r]? = some (.R l) → ∃! i, (i, some r) ∈ dict
  /-- a pair connects the same two layers, the restriction coming first -/
  match_ : ∀ i r, (i, some r) ∈ dict →
    r < i ∧ ∃ l, scheme[r]? = some (.R l) ∧ scheme[i]? = some (.I (l - 1))
  /-- pairs are nested or disjoint -/
  nested : ∀ i r i' r', (i, some r) ∈ dict → (i', some r') ∈ dict → r < r' → r' < i → i' < i

/-- The layers at which a zigzag with the given leg lengths turns, starting at layer `c` in direction
`d` (the end point included). -/
def turnLayers : Dir → List Nat → Int → List Int
  | _, [], _ => []
  | .R, s :: ss, c => (c - s) :: turnLayers .I ss (c - s)
  | .I, s :: ss, c => (c + s) :: turnLayers .R ss (c + s)

end Phyem.Multigrid
