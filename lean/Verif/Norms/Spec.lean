import Mathlib.MeasureTheory.Function.Jacobian
import Mathlib.MeasureTheory.Integral.Prod
import Mathlib.MeasureTheory.Integral.IntervalIntegral.Basic
import Mathlib.MeasureTheory.Measure.Haar.OfBasis
import Mathlib.LinearAlgebra.Matrix.Determinant.Basic
import Mathlib.LinearAlgebra.Determinant
import Mathlib.Analysis.InnerProductSpace.PiL2
import Verif.Reduce.Spec

/-!
What norms and errors stand for: integrals over the elements of physical space, in terms of Mathlib, and the charts of elements.
-/

namespace Phyem.Norms

open Set MeasureTheory

/-- The inside of the reference interval, square and cube. -/
abbrev O : Set ℝ := Ioo (-1) 1
abbrev O2 : Set (ℝ × ℝ) := O ×ˢ O
abbrev O3 : Set (ℝ × ℝ × ℝ) := O ×ˢ O ×ˢ O

/-- The determinant of the Jacobian matrix. -/
def det2 (J : ℕ → ℕ → ℝ) : ℝ := J 0 0 * J 1 1 - J 0 1 * J 1 0
def det3 (J : ℕ → ℕ → ℝ) : ℝ :=
  J 0 0 * (J 1 1 * J 2 2 - J 1 2 * J 2 1) - J 0 1 * (J 1 0 * J 2 2 - J 1 2 * J 2 0) + J 0 2 * (J 1 0 * J 2 1 - J 1 1 * J 2 0)

/-- `Φ` maps the inside of the reference interval one-to-one, is differentiable there with derivative `D`, and keeps the
orientation. -/
structure Chart1 (Φ D : ℝ → ℝ) : Prop where
  diff : ∀ x ∈ O, HasDerivAt Φ (D x) x
  inj : InjOn Φ O
  pos : ∀ x ∈ O, 0 ≤ D x

/-- `Φ` maps the inside of the reference square one-to-one, is differentiable there with Jacobian matrix `J`, and keeps the
orientation. Collapsed mappings to triangles are of this kind. -/
structure Chart2 (Φ : ℝ → ℝ → ℝ × ℝ) (J : ℝ → ℝ → ℕ → ℕ → ℝ) : Prop where
  diff : ∀ x ∈ O, ∀ y ∈ O, DifferentiableAt ℝ (fun P : ℝ × ℝ => Φ P.1 P.2) (x, y)
  jac : ∀ x ∈ O, ∀ y ∈ O, fderiv ℝ (fun P : ℝ × ℝ => Φ P.1 P.2) (x, y) (1, 0) = (J x y 0 0, J x y 1 0) ∧
    fderiv ℝ (fun P : ℝ × ℝ => Φ P.1 P.2) (x, y) (0, 1) = (J x y 0 1, J x y 1 1)
  inj : InjOn (fun P : ℝ × ℝ => Φ P.1 P.2) O2
  pos : ∀ x ∈ O, ∀ y ∈ O, 0 ≤ det2 (J x y)

/-- The same for the reference cube. -/
structure Chart3 (Φ : ℝ → ℝ → ℝ → ℝ × ℝ × ℝ) (J : ℝ → ℝ → ℝ → ℕ → ℕ → ℝ) : Prop where
  diff : ∀ x ∈ O, ∀ y ∈ O, ∀ z ∈ O, DifferentiableAt ℝ (fun P : ℝ × ℝ × ℝ => Φ P.1 P.2.1 P.2.2) (x, y, z)
  jac : ∀ x ∈ O, ∀ y ∈ O, ∀ z ∈ O,
    fderiv ℝ (fun P : ℝ × ℝ × ℝ => Φ P.1 P.2.1 P.2.2) (x, y, z) (1, 0, 0) = (J x y z 0 0, J x y z 1 0, J x y z 2 0) ∧
    fderiv ℝ (fun P : ℝ × ℝ × ℝ => Φ P.1 P.2.1 P.2.2) (x, y, z) (0, 1, 0) = (J x y z 0 1, J x y z 1 1, J x y z 2 1) ∧
    fderiv ℝ (fun P : ℝ × ℝ × ℝ => Φ P.1 P.2.1 P.2.2) (x, y, z) (0, 0, 1) = (J x y z 0 2, J x y z 1 2, J x y z 2 2)
  inj : InjOn (fun P : ℝ × ℝ × ℝ => Φ P.1 P.2.1 P.2.2) O3
  pos : ∀ x ∈ O, ∀ y ∈ O, ∀ z ∈ O, 0 ≤ det3 (J x y z)

/-- The element in physical space (its inside: the faces have no volume). -/
def Region1 (Φ : ℝ → ℝ) : Set ℝ := Φ '' O
def Region2 (Φ : ℝ → ℝ → ℝ × ℝ) : Set (ℝ × ℝ) := (fun P : ℝ × ℝ => Φ P.1 P.2) '' O2
def Region3 (Φ : ℝ → ℝ → ℝ → ℝ × ℝ × ℝ) : Set (ℝ × ℝ × ℝ) := (fun P : ℝ × ℝ × ℝ => Φ P.1 P.2.1 P.2.2) '' O3

/-- The sum of the `d`-th powers of the absolute values of the components of a vector, and of the difference of two vectors: for
`d = 2` the square of the length and of the distance. -/
noncomputable def lend (d : ℕ) (u : List ℝ) : ℝ := (u.map fun a => |a| ^ d).sum
noncomputable def distd (d : ℕ) (u v : List ℝ) : ℝ := (List.zipWith (fun a b => |a - b| ^ d) u v).sum

end Phyem.Norms
