import Mathlib.Algebra.Ring.Basic
import Mathlib.Algebra.BigOperators.Group.List.Basic
import Mathlib.Tactic.Ring

/-!
The two signs `'+'` and `'-'` that phyem attaches to the terms of an equation.
-/

namespace Phyem

/-- `'+'` or `'-'` (`src/pde.py:265`, `src/wf/main.py:390`, `sign_dict`). -/
inductive Sign
  | pos
  | neg
deriving DecidableEq, Repr

namespace Sign

/-- `'+' ↔ '-'`. -/
def flip : Sign → Sign
  | pos => neg
  | neg => pos

/-- Product of signs. -/
def mul : Sign → Sign → Sign
  | pos, s => s
  | neg, s => s.flip

/-- `s • x`. -/
def act {R : Type} [Neg R] : Sign → R → R
  | pos, x => x
  | neg, x => -x

@[simp] theorem flip_flip (s : Sign) : s.flip.flip = s := by cases s <;> rfl

theorem act_flip {R : Type} [CommRing R] (s : Sign) (x : R) : s.flip.act x = -(s.act x) := by
  cases s <;> simp [flip, act]

theorem act_mul {R : Type} [CommRing R] (s t : Sign) (x : R) : (s.mul t).act x = s.act (t.act x) := by
  cases s <;> cases t <;> simp [mul, flip, act]

@[simp] theorem act_zero {R : Type} [CommRing R] (s : Sign) : s.act (0 : R) = 0 := by
  cases s <;> simp [act]

theorem act_add {R : Type} [CommRing R] (s : Sign) (x y : R) :
    s.act (x + y) = s.act x + s.act y := by
  cases s <;> simp [act]; ring

theorem act_mul_left {R : Type} [CommRing R] (s : Sign) (x y : R) :
    s.act (x * y) = x * s.act y := by
  cases s <;> simp [act]

theorem act_mul_right {R : Type} [CommRing R] (s : Sign) (x y : R) :
    s.act (x * y) = s.act x * y := by
  cases s <;> simp [act]

end Sign

/-- Value of a list of signed things, `Σ sign * value`. -/
def signedSum {R T : Type} [CommRing R] (v : T → R) (l : List (Sign × T)) : R :=
  (l.map fun p => p.1.act (v p.2)).sum

section
variable {R T : Type} [CommRing R] (v : T → R)

@[simp] theorem signedSum_nil : signedSum v [] = 0 := rfl

@[simp] theorem signedSum_cons (p : Sign × T) (l : List (Sign × T)) :
    signedSum v (p :: l) = p.1.act (v p.2) + signedSum v l := rfl

@[simp] theorem signedSum_append (l m : List (Sign × T)) :
    signedSum v (l ++ m) = signedSum v l + signedSum v m := by
  simp [signedSum]

theorem signedSum_flip (l : List (Sign × T)) :
    signedSum v (l.map fun p => (p.1.flip, p.2)) = -signedSum v l := by
  induction l with
  | nil => simp
  | cons p l ih => simp only [List.map_cons, signedSum_cons, ih, Sign.act_flip]; ring
end

end Phyem
