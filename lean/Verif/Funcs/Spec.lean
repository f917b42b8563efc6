import Verif.Funcs.Model3
import Mathlib.Analysis.Calculus.Deriv.Basic

/-!
# Specification: partial derivatives and the calculus operators

Nothing here refers to the operators of the model; only the kinds of variables and the types of
functions are shared.
-/

namespace Phyem.Funcs

/-- `f` restricted to the line through `(t, x, y)` in which only the variable `a` changes. -/
def line2 : Ax2 → F2 ℝ → ℝ → ℝ → ℝ → ℝ → ℝ
  | .t, f, _, x, y => fun u => f u x y
  | .x, f, t, _, y => fun u => f t u y
  | .y, f, t, x, _ => fun u => f t x u

/-- The variable `a` at `(t, x, y)`. -/
def coord2 : Ax2 → ℝ → ℝ → ℝ → ℝ
  | .t, t, _, _ => t
  | .x, _, x, _ => x
  | .y, _, _, y => y

/-- `f` restricted to the line through `(t, x, y, z)` in which only the variable `a` changes. -/
def line3 : Ax3 → F3 ℝ → ℝ → ℝ → ℝ → ℝ → ℝ → ℝ
  | .t, f, _, x, y, z => fun u => f u x y z
  | .x, f, t, _, y, z => fun u => f t u y z
  | .y, f, t, x, _, z => fun u => f t x u z
  | .z, f, t, x, y, _ => fun u => f t x y u

/-- The variable `a` at `(t, x, y, z)`. -/
def coord3 : Ax3 → ℝ → ℝ → ℝ → ℝ → ℝ
  | .t, t, _, _, _ => t
  | .x, _, x, _, _ => x
  | .y, _, _, y, _ => y
  | .z, _, _, _, z => z

/-- `f` has three derivatives within `h` of `c`, the third bounded by `M`. -/
def ThirdBound (f : ℝ → ℝ) (c h M : ℝ) : Prop :=
  ∃ f1 f2 f3 : ℝ → ℝ, ∀ u ∈ Set.Icc (c - h) (c + h),
    HasDerivAt f (f1 u) u ∧ HasDerivAt f1 (f2 u) u ∧ HasDerivAt f2 (f3 u) u ∧ |f3 u| ≤ M

/-- `p` is the partial derivative of `f` in the variable `a` at `(t, x, y)`, and what the library
can know of it is right up to `ε`: the given function `d` if there is one, or else `f` is smooth
enough for differences with the step 1e-4. -/
def Known2 (ε : ℝ) (a : Ax2) (f : F2 ℝ) (d : Option (F2 ℝ)) (t x y p : ℝ) : Prop :=
  HasDerivAt (line2 a f t x y) p (coord2 a t x y) ∧
    match d with
    | some g => |g t x y - p| ≤ ε
    | none => ∃ M, ThirdBound (line2 a f t x y) (coord2 a t x y) 1e-4 M ∧ M * 1e-4 ^ 2 / 6 ≤ ε

/-- The same in three dimensions, where the step is 1e-6. -/
def Known3 (ε : ℝ) (a : Ax3) (f : F3 ℝ) (d : Option (F3 ℝ)) (t x y z p : ℝ) : Prop :=
  HasDerivAt (line3 a f t x y z) p (coord3 a t x y z) ∧
    match d with
    | some g => |g t x y z - p| ≤ ε
    | none => ∃ M, ThirdBound (line3 a f t x y z) (coord3 a t x y z) 1e-6 M ∧ M * 1e-6 ^ 2 / 6 ≤ ε

/-! ### Checking given derivatives -/

/-- The difference quotient of `f` in the variable `a` with the step 1e-4 on both sides. -/
noncomputable def diff2 (a : Ax2) (f : F2 ℝ) : F2 ℝ := fun t x y =>
  (line2 a f t x y (coord2 a t x y + 1e-4) - line2 a f t x y (coord2 a t x y - 1e-4)) / 2e-4

/-- The difference quotient of `f` in the variable `a` with the step 1e-6 on both sides. -/
noncomputable def diff3 (a : Ax3) (f : F3 ℝ) : F3 ℝ := fun t x y z =>
  (line3 a f t x y z (coord3 a t x y z + 1e-6) - line3 a f t x y z (coord3 a t x y z - 1e-6)) / 2e-6

/-- The pairs (given value, difference quotient) agree: all of them absolutely, or all of them
relatively, up to 1e-5. -/
def Agree (v : List (ℝ × ℝ)) : Prop :=
  v ≠ [] ∧ ((∀ p ∈ v, |p.1 - p.2| < 1e-5) ∨ ∀ p ∈ v, p.2 ≠ 0 ∧ |p.1 - p.2| < 1e-5 * |p.2|)

/-- The same with the errors relative to the given values. -/
def AgreeZ (v : List (ℝ × ℝ)) : Prop :=
  v ≠ [] ∧ ((∀ p ∈ v, |p.1 - p.2| < 1e-5) ∨ ∀ p ∈ v, p.1 ≠ 0 ∧ |p.1 - p.2| < 1e-5 * |p.1|)

/-- The given derivatives of a scalar: the number of the loop over the elements in which it is
checked, the variable and the function it should be the derivative of, and the given function. -/
noncomputable def S2.given (a : S2 ℝ) : List (ℕ × Ax2 × F2 ℝ × F2 ℝ) :=
  (a.dt.toList.map fun d => (0, .t, a.s, d)) ++ (a.dx.toList.map fun d => (0, .x, a.s, d)) ++
  (a.dy.toList.map fun d => (0, .y, a.s, d)) ++
  (a.ddtt.toList.map fun d => (1, .t, diff2 .t a.s, d)) ++
  (a.ddxx.toList.map fun d => (2, .x, diff2 .x a.s, d)) ++
  (a.ddxy.toList.map fun d => (2, .y, diff2 .x a.s, d)) ++
  (a.ddyx.toList.map fun d => (3, .x, diff2 .y a.s, d)) ++
  (a.ddyy.toList.map fun d => (3, .y, diff2 .y a.s, d))

/-- The given derivatives of a vector. -/
def V2.given (v : V2 ℝ) : List (Ax2 × F2 ℝ × F2 ℝ) :=
  (v.dudt.toList.map fun d => (.t, v.v0, d)) ++ (v.dvdt.toList.map fun d => (.t, v.v1, d)) ++
  (v.dudx.toList.map fun d => (.x, v.v0, d)) ++ (v.dudy.toList.map fun d => (.y, v.v0, d)) ++
  (v.dvdx.toList.map fun d => (.x, v.v1, d)) ++ (v.dvdy.toList.map fun d => (.y, v.v1, d))

/-- The given derivatives of a scalar in space. -/
def S3.given (a : S3 ℝ) : List (Ax3 × F3 ℝ × F3 ℝ) :=
  (a.dt.toList.map fun d => (.t, a.s, d)) ++ (a.dx.toList.map fun d => (.x, a.s, d)) ++
  (a.dy.toList.map fun d => (.y, a.s, d)) ++ (a.dz.toList.map fun d => (.z, a.s, d))

/-- The given derivatives of a vector in space. -/
def V3.given (v : V3 ℝ) : List (Ax3 × F3 ℝ × F3 ℝ) :=
  (v.dudt.toList.map fun d => (.t, v.v0, d)) ++ (v.dvdt.toList.map fun d => (.t, v.v1, d)) ++
  (v.dwdt.toList.map fun d => (.t, v.v2, d)) ++
  (v.dudx.toList.map fun d => (.x, v.v0, d)) ++ (v.dudy.toList.map fun d => (.y, v.v0, d)) ++
  (v.dudz.toList.map fun d => (.z, v.v0, d)) ++
  (v.dvdx.toList.map fun d => (.x, v.v1, d)) ++ (v.dvdy.toList.map fun d => (.y, v.v1, d)) ++
  (v.dvdz.toList.map fun d => (.z, v.v1, d)) ++
  (v.dwdx.toList.map fun d => (.x, v.v2, d)) ++ (v.dwdy.toList.map fun d => (.y, v.v2, d)) ++
  (v.dwdz.toList.map fun d => (.z, v.v2, d))

/-- A given derivative `d` of `f` in the variable `a` agrees with the difference quotient of `f` at
the time `t` and the points `pts`. -/
def Agrees2 (a : Ax2) (f d : F2 ℝ) (t : ℝ) (pts : List (ℝ × ℝ)) : Prop :=
  Agree (pts.map fun p => (d t p.1 p.2, diff2 a f t p.1 p.2))

/-- The same in space; the errors in the variable `z` are relative to the given values. -/
def Agrees3 (a : Ax3) (f d : F3 ℝ) (t : ℝ) (pts : List (ℝ × ℝ × ℝ)) : Prop :=
  (if a = .z then AgreeZ else Agree)
    (pts.map fun p => (d t p.1 p.2.1 p.2.2, diff3 a f t p.1 p.2.1 p.2.2))

end Phyem.Funcs
