import Verif.Sections.Model
import Verif.Great.Spec
import Mathlib.Topology.Order.Monotone

/-!
What boundary sections are, independently of how the code finds them.
-/

namespace Phyem.Sections

open Phyem.Great Phyem.Dict

/-- A face of an element of the patch that no other face of an element of the patch meets. -/
def BoundaryFace (mesh : Mesh) (patch : List ℕ) (p : Position) : Prop :=
  p.1 ∈ patch ∧ (∃ nodes, FaceAt mesh p nodes) ∧ ∀ q, q.1 ∈ patch → ¬ Meet mesh p q

/-- The request with and without the word "except". -/
def Including.opposite : Including → Option Including
  | .boundary => none
  | .ounv ex vs => some (.ounv (!ex) vs)
  | .lines ex ps => some (.lines (!ex) ps)
  | .polygons ex ps => some (.polygons (!ex) ps)
  | .curves ex cs => some (.curves (!ex) cs)
  | .segments ex ps => some (.segments (!ex) ps)

/-- The request without the word "except". -/
def Including.plain : Including → Prop
  | .boundary => True
  | .ounv ex _ | .lines ex _ | .polygons ex _ | .curves ex _ | .segments ex _ => ex = false

/-- The point at `μ` on the line through two points: the first one for `μ = 0`, the second one for `μ = 1`. -/
def between (A B : ℝ × ℝ) (μ : ℝ) : ℝ × ℝ := (A.1 + μ * (B.1 - A.1), A.2 + μ * (B.2 - A.2))

/-- The line through two points. -/
def Line (A B : ℝ × ℝ) : Set (ℝ × ℝ) := {P | ∃ μ : ℝ, P = between A B μ}

/-- The points between two points. -/
def Segment (A B : ℝ × ℝ) : Set (ℝ × ℝ) := {P | ∃ μ : ℝ, 0 ≤ μ ∧ μ ≤ 1 ∧ P = between A B μ}

/-- The edges of a polygon and what is inside of it. -/
def Polygon.points (p : Polygon) : Set (ℝ × ℝ) :=
  {P | p.inside P = true} ∪ {P | ∃ i A B, p.vertices[i]? = some A ∧
    p.vertices[(i + 1) % p.vertices.length]? = some B ∧ P ∈ Segment A B}

/-- The parameters of a curve. -/
def Interval.points (i : Interval) : Set ℝ := if i.closed then Set.Icc i.lb i.ub else Set.Ioo i.lb i.ub

/-- The points of a curve. -/
def Curve.points (c : Curve) : Set (ℝ × ℝ) := {P | ∃ t ∈ c.t.points, P = (c.xt t, c.yt t)}

/-- A curve that the constructor accepted, whose `x` increases or decreases from one end to the other, and whose inverse
function is one. -/
structure Curve.Good (c : Curve) : Prop where
  made : ∃ inv : (ℝ → ℝ) → ℝ → ℝ, curve inv c.xt c.yt c.t = some c
  mono : StrictMonoOn c.xt (Set.Icc c.t.lb c.t.ub) ∨ StrictAntiOn c.xt (Set.Icc c.t.lb c.t.ub)
  inverse : ∀ t ∈ Set.Icc c.t.lb c.t.ub, c.tx (c.xt t) = t

/-- All points of a face are in a set. -/
def Face.within (f : Face) (S : Set (ℝ × ℝ)) : Prop := ∀ t : ℝ, -1 ≤ t → t ≤ 1 → f.map t ∈ S

/-- A straight face. -/
def Face.straight (f : Face) : Prop := ∀ t : ℝ, f.map t = between (f.map (-1)) (f.map 1) ((t + 1) / 2)

/-- What a request without "except" asks for: a face with one of these outward unit normal vectors, or all of whose points
are on one of the lines, in one of the polygons, on one of the curves, on one of the segments. -/
def Including.asks : Including → Face → Prop
  | .boundary, _ => True
  | .ounv _ vs, f => f.plane = some true ∧ f.normal ∈ vs
  | .lines _ ps, f => ∃ l ∈ ps, f.within (Line l.1 l.2)
  | .polygons _ ps, f => ∃ p ∈ ps, f.within p.points
  | .curves _ cs, f => ∃ c ∈ cs, f.within c.points
  | .segments _ ps, f => ∃ l ∈ ps, f.within (Segment l.1 l.2)

/-- How much the sum of two distances may be off: twice `1e-8`, and `1e-9` of the length and of the sum. -/
noncomputable def slack (L : ℝ) : ℝ := 2e-8 + 2e-9 * L

end Phyem.Sections
