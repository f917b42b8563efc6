import Mathlib.Analysis.Calculus.ContDiff.Basic
import Mathlib.Analysis.Calculus.FDeriv.Prod
import Mathlib.Analysis.Calculus.Deriv.Basic
import Mathlib.MeasureTheory.Integral.IntervalIntegral.Basic

/-!
What the reduction of a function stands for: quadrature rules moved to an interval, smooth mappings of the reference element
and their Jacobian matrices, and the vector calculus operators, all in terms of Mathlib.
-/

namespace Phyem.Reduce

open Set MeasureTheory

/-- The quadrature rule with points `qs` and weights `ws` of `[-1, 1]`, moved to the interval from `a` to `b`. -/
def rule {K : Type} [Field K] (qs ws : List K) (g : K → K) (a b : K) : K :=
  (b - a) / 2 * (List.zipWith (fun t w => w * g (a + (b - a) / 2 * (t + 1))) qs ws).sum

/-- The product rule on a rectangle. -/
def rule2 {K : Type} [Field K] (qx wx qy wy : List K) (g : K → K → K) (a b c d : K) : K :=
  rule qx wx (fun x => rule qy wy (fun y => g x y) c d) a b

/-- The product rule on a box. -/
def rule3 {K : Type} [Field K] (qx wx qy wy qz wz : List K) (g : K → K → K → K) (a b c d e f : K) : K :=
  rule qx wx (fun x => rule qy wy (fun y => rule qz wz (fun z => g x y z) e f) c d) a b

/-- The error of the rule for the integral of `g` from `a` to `b`. -/
noncomputable def err (qs ws : List ℝ) (g : ℝ → ℝ) (a b : ℝ) : ℝ := |rule qs ws g a b - ∫ x in a..b, g x|

/-- The error of the product rule for the integral of `g` over a rectangle. -/
noncomputable def err2 (qx wx qy wy : List ℝ) (g : ℝ → ℝ → ℝ) (a b c d : ℝ) : ℝ :=
  |rule2 qx wx qy wy g a b c d - ∫ x in a..b, ∫ y in c..d, g x y|

/-- The error of the product rule for the integral of `g` over a box. -/
noncomputable def err3 (qx wx qy wy qz wz : List ℝ) (g : ℝ → ℝ → ℝ → ℝ) (a b c d e f : ℝ) : ℝ :=
  |rule3 qx wx qy wy qz wz g a b c d e f - ∫ x in a..b, ∫ y in c..d, ∫ z in e..f, g x y z|

/-- The reference interval. -/
abbrev I : Set ℝ := Icc (-1) 1

/-- `xs` are the `p + 1` nodes of a basis of degree `p`, in the reference interval. -/
structure Nodes (p : ℕ) (xs : List ℝ) : Prop where
  len : xs.length = p + 1
  inside : ∀ x ∈ xs, x ∈ I

/-- `Φ` is a continuously differentiable mapping around every point of the reference interval and `D` is its derivative. -/
structure Elem1 (Φ D : ℝ → ℝ) : Prop where
  smooth : ∀ x ∈ I, ContDiffAt ℝ 1 Φ x
  jac : ∀ x ∈ I, deriv Φ x = D x

/-- `Φ` is a twice continuously differentiable mapping around every point of the reference square and `J` is its Jacobian
matrix. -/
structure Elem2 (Φ : ℝ → ℝ → ℝ × ℝ) (J : ℝ → ℝ → ℕ → ℕ → ℝ) : Prop where
  smooth : ∀ x ∈ I, ∀ y ∈ I, ContDiffAt ℝ 2 (fun P : ℝ × ℝ => Φ P.1 P.2) (x, y)
  jac : ∀ x ∈ I, ∀ y ∈ I, fderiv ℝ (fun P : ℝ × ℝ => Φ P.1 P.2) (x, y) (1, 0) = (J x y 0 0, J x y 1 0) ∧
    fderiv ℝ (fun P : ℝ × ℝ => Φ P.1 P.2) (x, y) (0, 1) = (J x y 0 1, J x y 1 1)

/-- The same for the reference cube. -/
structure Elem3 (Φ : ℝ → ℝ → ℝ → ℝ × ℝ × ℝ) (J : ℝ → ℝ → ℝ → ℕ → ℕ → ℝ) : Prop where
  smooth : ∀ x ∈ I, ∀ y ∈ I, ∀ z ∈ I, ContDiffAt ℝ 2 (fun P : ℝ × ℝ × ℝ => Φ P.1 P.2.1 P.2.2) (x, y, z)
  jac : ∀ x ∈ I, ∀ y ∈ I, ∀ z ∈ I,
    fderiv ℝ (fun P : ℝ × ℝ × ℝ => Φ P.1 P.2.1 P.2.2) (x, y, z) (1, 0, 0) = (J x y z 0 0, J x y z 1 0, J x y z 2 0) ∧
    fderiv ℝ (fun P : ℝ × ℝ × ℝ => Φ P.1 P.2.1 P.2.2) (x, y, z) (0, 1, 0) = (J x y z 0 1, J x y z 1 1, J x y z 2 1) ∧
    fderiv ℝ (fun P : ℝ × ℝ × ℝ => Φ P.1 P.2.1 P.2.2) (x, y, z) (0, 0, 1) = (J x y z 0 2, J x y z 1 2, J x y z 2 2)

/-- `f` (a function of points of the physical space) is `n` times continuously differentiable around the element. -/
def SmoothOn2 {F : Type} [NormedAddCommGroup F] [NormedSpace ℝ F] (Φ : ℝ → ℝ → ℝ × ℝ) (f : ℝ × ℝ → F) : Prop :=
  ∀ x ∈ I, ∀ y ∈ I, ContDiffAt ℝ 1 f (Φ x y)

def SmoothOn3 {F : Type} [NormedAddCommGroup F] [NormedSpace ℝ F] (Φ : ℝ → ℝ → ℝ → ℝ × ℝ × ℝ) (f : ℝ × ℝ × ℝ → F) : Prop :=
  ∀ x ∈ I, ∀ y ∈ I, ∀ z ∈ I, ContDiffAt ℝ 1 f (Φ x y z)

/-- The gradient. -/
noncomputable def grad2 (f : ℝ × ℝ → ℝ) (P : ℝ × ℝ) : ℝ × ℝ := (fderiv ℝ f P (1, 0), fderiv ℝ f P (0, 1))

/-- The rotation of a vector field. -/
noncomputable def rot2 (v : ℝ × ℝ → ℝ × ℝ) (P : ℝ × ℝ) : ℝ := (fderiv ℝ v P (1, 0)).2 - (fderiv ℝ v P (0, 1)).1

/-- The curl of a scalar field. -/
noncomputable def curl2 (f : ℝ × ℝ → ℝ) (P : ℝ × ℝ) : ℝ × ℝ := (fderiv ℝ f P (0, 1), -fderiv ℝ f P (1, 0))

/-- The divergence. -/
noncomputable def div2 (v : ℝ × ℝ → ℝ × ℝ) (P : ℝ × ℝ) : ℝ := (fderiv ℝ v P (1, 0)).1 + (fderiv ℝ v P (0, 1)).2

noncomputable def grad3 (f : ℝ × ℝ × ℝ → ℝ) (P : ℝ × ℝ × ℝ) : ℝ × ℝ × ℝ :=
  (fderiv ℝ f P (1, 0, 0), fderiv ℝ f P (0, 1, 0), fderiv ℝ f P (0, 0, 1))

noncomputable def curl3 (v : ℝ × ℝ × ℝ → ℝ × ℝ × ℝ) (P : ℝ × ℝ × ℝ) : ℝ × ℝ × ℝ :=
  ((fderiv ℝ v P (0, 1, 0)).2.2 - (fderiv ℝ v P (0, 0, 1)).2.1, (fderiv ℝ v P (0, 0, 1)).1 - (fderiv ℝ v P (1, 0, 0)).2.2,
    (fderiv ℝ v P (1, 0, 0)).2.1 - (fderiv ℝ v P (0, 1, 0)).1)

noncomputable def div3 (v : ℝ × ℝ × ℝ → ℝ × ℝ × ℝ) (P : ℝ × ℝ × ℝ) : ℝ :=
  (fderiv ℝ v P (1, 0, 0)).1 + (fderiv ℝ v P (0, 1, 0)).2.1 + (fderiv ℝ v P (0, 0, 1)).2.2

/-- The dot product. -/
def dot2 (a b : ℝ × ℝ) : ℝ := a.1 * b.1 + a.2 * b.2

/-- The component of a vector normal to the second one (turned clockwise by a right angle), times the length of the latter. -/
def cross2 (a b : ℝ × ℝ) : ℝ := a.1 * b.2 - a.2 * b.1

def dot3 (a b : ℝ × ℝ × ℝ) : ℝ := a.1 * b.1 + a.2.1 * b.2.1 + a.2.2 * b.2.2

/-- The cross product. -/
def cross3 (a b : ℝ × ℝ × ℝ) : ℝ × ℝ × ℝ :=
  (a.2.1 * b.2.2 - a.2.2 * b.2.1, a.2.2 * b.1 - a.1 * b.2.2, a.1 * b.2.1 - a.2.1 * b.1)

/-- The tangent vector of the coordinate line along which `a` (a unit vector) points. -/
noncomputable def tan2 (Φ : ℝ → ℝ → ℝ × ℝ) (x y : ℝ) (a : ℝ × ℝ) : ℝ × ℝ :=
  fderiv ℝ (fun P : ℝ × ℝ => Φ P.1 P.2) (x, y) a

noncomputable def tan3 (Φ : ℝ → ℝ → ℝ → ℝ × ℝ × ℝ) (x y z : ℝ) (a : ℝ × ℝ × ℝ) : ℝ × ℝ × ℝ :=
  fderiv ℝ (fun P : ℝ × ℝ × ℝ => Φ P.1 P.2.1 P.2.2) (x, y, z) a

end Phyem.Reduce
