import Verif.Funcs.Spec

/-!
# Specification: the equations of magnetohydrodynamics

Formulas of vector calculus, once with partial derivatives and once with difference quotients. Nothing here refers to the
samples of the model.
-/

namespace Phyem.Samples

open Phyem.Funcs

/-- A vector field. -/
abbrev Vec := F3 ℝ × F3 ℝ × F3 ℝ

/-- The partial derivative in the variable `a`. -/
noncomputable def D3 (a : Ax3) (f : F3 ℝ) : F3 ℝ := fun t x y z => deriv (line3 a f t x y z) (coord3 a t x y z)

/-- All partial derivatives exist everywhere. -/
def Smooth3 (f : F3 ℝ) : Prop :=
  ∀ a t x y z, DifferentiableAt ℝ (line3 a f t x y z) (coord3 a t x y z)

/-- All partial derivatives of all components exist everywhere. -/
def SmoothV (v : Vec) : Prop := Smooth3 v.1 ∧ Smooth3 v.2.1 ∧ Smooth3 v.2.2

/-- The divergence with the derivatives `D`. -/
def div (D : Ax3 → F3 ℝ → F3 ℝ) (v : Vec) : F3 ℝ := fun t x y z =>
  D .x v.1 t x y z + D .y v.2.1 t x y z + D .z v.2.2 t x y z

/-- The curl with the derivatives `D`. -/
def curl (D : Ax3 → F3 ℝ → F3 ℝ) (v : Vec) : Vec :=
  (fun t x y z => D .y v.2.2 t x y z - D .z v.2.1 t x y z, fun t x y z => D .z v.1 t x y z - D .x v.2.2 t x y z,
    fun t x y z => D .x v.2.1 t x y z - D .y v.1 t x y z)

/-- The gradient with the derivatives `D`. -/
def grad (D : Ax3 → F3 ℝ → F3 ℝ) (f : F3 ℝ) : Vec := (D .x f, D .y f, D .z f)

/-- The derivative in time. -/
def dt (D : Ax3 → F3 ℝ → F3 ℝ) (v : Vec) : Vec := (D .t v.1, D .t v.2.1, D .t v.2.2)

/-- The cross product. -/
def cross (v w : Vec) : Vec :=
  (fun t x y z => v.2.1 t x y z * w.2.2 t x y z - v.2.2 t x y z * w.2.1 t x y z,
    fun t x y z => v.2.2 t x y z * w.1 t x y z - v.1 t x y z * w.2.2 t x y z,
    fun t x y z => v.1 t x y z * w.2.1 t x y z - v.2.1 t x y z * w.1 t x y z)

/-- The values at a point. -/
def at3 (v : Vec) (t x y z : ℝ) : ℝ × ℝ × ℝ := (v.1 t x y z, v.2.1 t x y z, v.2.2 t x y z)

/-- `∂u/∂t + ω × u + 1/Rf curl ω - c j × B + grad P` -/
noncomputable def momentum (D : Ax3 → F3 ℝ → F3 ℝ) (u w j B : Vec) (P : F3 ℝ) (c Rf t x y z : ℝ) : ℝ × ℝ × ℝ :=
  at3 (dt D u) t x y z + at3 (cross w u) t x y z + (1 / Rf) • at3 (curl D w) t x y z - c • at3 (cross j B) t x y z
    + at3 (grad D P) t x y z

/-- `1/Rm j - E - u × B + η j × B` -/
noncomputable def ohm (u E B j : Vec) (Rm eta t x y z : ℝ) : ℝ × ℝ × ℝ :=
  (1 / Rm) • at3 j t x y z - at3 E t x y z - at3 (cross u B) t x y z + eta • at3 (cross j B) t x y z

/-- The boundary of the cube between `a` and `b` in each direction: a point of the cube, and the axis normal to a face it is
on. -/
def OnFace (a b : ℝ) (n : Fin 3) (x y z : ℝ) : Prop :=
  x ∈ Set.Icc a b ∧ y ∈ Set.Icc a b ∧ z ∈ Set.Icc a b ∧
    match n with
    | 0 => x = a ∨ x = b
    | 1 => y = a ∨ y = b
    | 2 => z = a ∨ z = b

/-- The cross product with the normal is zero: the components along the face are zero. -/
def TangentZero (n : Fin 3) (v : ℝ × ℝ × ℝ) : Prop :=
  match n with
  | 0 => v.2.1 = 0 ∧ v.2.2 = 0
  | 1 => v.1 = 0 ∧ v.2.2 = 0
  | 2 => v.1 = 0 ∧ v.2.1 = 0

/-- The product with the normal is zero: the component across the face is zero. -/
def NormalZero (n : Fin 3) (v : ℝ × ℝ × ℝ) : Prop :=
  match n with
  | 0 => v.1 = 0
  | 1 => v.2.1 = 0
  | 2 => v.2.2 = 0

/-- Periodic with the period `L` in each direction. -/
def Periodic3 (L : ℝ) (f : F3 ℝ) : Prop :=
  ∀ t x y z, f t (x + L) y z = f t x y z ∧ f t x (y + L) z = f t x y z ∧ f t x y (z + L) = f t x y z

end Phyem.Samples
