import Verif.Trilinear.Model
import Mathlib.LinearAlgebra.CrossProduct

/-! Specification: the fields at a quadrature point, their products, and the contraction of an array with three cochains. -/

namespace Phyem.Trilinear

variable {K : Type} [Field K]

open Matrix

/-- The values of the components of a form with cochain `x` at a point, `rm` being the rows of the reconstruction matrices. -/
def field (rm : List (List K)) (x : ℕ → K) : List K := rm.map fun row => Poly.dot row 0 x

/-- A field as a vector of space: a scalar is normal to the plane, a vector of the plane lies in it. -/
def vec3 : List K → Fin 3 → K
  | [w] => ![0, 0, w]
  | [u, v] => ![u, v, 0]
  | [u, v, w] => ![u, v, w]
  | _ => 0

/-- `(A × B) · C`. -/
def triple (A B C : List K) : K := crossProduct (vec3 A) (vec3 B) ⬝ᵥ vec3 C

/-- `A B · C` for a scalar `A`. -/
def scaledDot (A B C : List K) : K := A.getD 0 0 * ((List.zipWith (· * ·) B C).sum)

/-- The quadrature of a function of the three fields. -/
def quad (F : List K → List K → List K → K) (pts : List (Pt K)) (x y z : ℕ → K) : K :=
  (pts.map fun q => q.m * F (field q.a x) (field q.b y) (field q.c z)).sum

/-- The array contracted with three cochains. -/
def full (nA nB nC : ℕ) (d : ℕ → ℕ → ℕ → K) (x y z : ℕ → K) : K :=
  ∑ i ∈ Finset.range nA, ∑ j ∈ Finset.range nB, ∑ k ∈ Finset.range nC, d i j k * x i * y j * z k

/-- All points have forms with `la`, `lb`, `lc` components and `nA`, `nB`, `nC` dofs. -/
def Fits (la lb lc nA nB nC : ℕ) (pts : List (Pt K)) : Prop :=
  ∀ q ∈ pts, (q.a.length = la ∧ ∀ row ∈ q.a, row.length = nA) ∧ (q.b.length = lb ∧ ∀ row ∈ q.b, row.length = nB) ∧
    (q.c.length = lc ∧ ∀ row ∈ q.c, row.length = nC)

end Phyem.Trilinear
