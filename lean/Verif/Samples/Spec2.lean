import Verif.Funcs.Spec

/-!
# Specification: equations in the plane
-/

namespace Phyem.Samples

open Phyem.Funcs

/-- The partial derivative in the variable `a`. -/
noncomputable def D2 (a : Ax2) (f : F2 ℝ) : F2 ℝ := fun t x y => deriv (line2 a f t x y) (coord2 a t x y)

/-- All partial derivatives exist everywhere. -/
def Smooth2 (f : F2 ℝ) : Prop := ∀ a t x y, DifferentiableAt ℝ (line2 a f t x y) (coord2 a t x y)

/-- `g` is the partial derivative of `f` in the variable `a`. -/
def IsD (a : Ax2) (f g : F2 ℝ) : Prop := ∀ t x y, HasDerivAt (line2 a f t x y) (g t x y) (coord2 a t x y)

/-- A vector field in the plane. -/
abbrev Vec2 := F2 ℝ × F2 ℝ

/-- The divergence. -/
def div2 (D : Ax2 → F2 ℝ → F2 ℝ) (v : Vec2) : F2 ℝ := fun t x y => D .x v.1 t x y + D .y v.2 t x y
/-- The curl of a scalar. -/
def curl2 (D : Ax2 → F2 ℝ → F2 ℝ) (f : F2 ℝ) : Vec2 := (D .y f, fun t x y => - D .x f t x y)
/-- The rotation of a vector. -/
def rot2 (D : Ax2 → F2 ℝ → F2 ℝ) (v : Vec2) : F2 ℝ := fun t x y => D .x v.2 t x y - D .y v.1 t x y
/-- The values at a point. -/
def at2 (v : Vec2) (t x y : ℝ) : ℝ × ℝ := (v.1 t x y, v.2 t x y)
/-- The cross product of a scalar and a vector. -/
def turn (w : F2 ℝ) (v : Vec2) : Vec2 := (fun t x y => - (w t x y * v.2 t x y), fun t x y => w t x y * v.1 t x y)

/-- `∂u/∂t + ω × u + k curl ω - c j × B + grad P`, where `ω = rot u` and `j = rot B`; `k` is the inverse of a Reynolds
number. -/
noncomputable def momentum2 (D : Ax2 → F2 ℝ → F2 ℝ) (u B : Vec2) (P : F2 ℝ) (c k t x y : ℝ) : ℝ × ℝ :=
  (D .t u.1 t x y, D .t u.2 t x y) + at2 (turn (rot2 D u) u) t x y + k • at2 (curl2 D (rot2 D u)) t x y
    - c • at2 (turn (rot2 D B) B) t x y + (D .x P t x y, D .y P t x y)

/-- The vector field that is zero. -/
def none2 : Vec2 := (fun _ _ _ => 0, fun _ _ _ => 0)

/-- The inverse of a Reynolds number, zero for an infinite one. -/
noncomputable def inverse : Option ℝ → ℝ
  | none => 0
  | some c => 1 / c

/-- Periodic with the period `L` in each direction. -/
def Periodic2 (L : ℝ) (f : F2 ℝ) : Prop := ∀ t x y, f t (x + L) y = f t x y ∧ f t x (y + L) = f t x y

end Phyem.Samples
