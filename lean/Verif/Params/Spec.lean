import Verif.Params.Model

/-!
What the arithmetic of constant scalars should mean.
-/

namespace Phyem.Params

variable {T : Type}

/-- An expression of scalars and numbers. -/
inductive Exp
  | scalar (i : ℕ)
  | addNum (a : Exp) (q : ℚ)
  | raddNum (q : ℚ) (a : Exp)
  | add (a b : Exp)
  | divNum (a : Exp) (q : ℚ)
  | div (a b : Exp)

/-- Its value, given those of the scalars. -/
def Exp.value (val : ℕ → Option ℚ) : Exp → Option ℚ
  | .scalar i => val i
  | .addNum a q => (a.value val).map (· + q)
  | .raddNum q a => (a.value val).map (q + ·)
  | .add a b => (a.value val).bind fun x => (b.value val).map (x + ·)
  | .divNum a q => (a.value val).bind fun x => if q = 0 then none else some (x / q)
  | .div a b => (a.value val).bind fun x => (b.value val).bind fun y => if y = 0 then none else some (x / y)

/-- Python computes an expression: its parts from left to right, then the operation. -/
def Exp.build (s : State T) : Exp → State T × Option ℕ
  | .scalar i => (s, some i)
  | .addNum a q =>
    match a.build s with
    | (s1, some i) => Params.addNum s1 i q
    | (s1, none) => (s1, none)
  | .raddNum q a =>
    match a.build s with
    | (s1, some i) => Params.raddNum s1 i q
    | (s1, none) => (s1, none)
  | .add a b =>
    match a.build s with
    | (s1, some i) =>
      match b.build s1 with
      | (s2, some j) => Params.add s2 i j
      | (s2, none) => (s2, none)
    | (s1, none) => (s1, none)
  | .divNum a q =>
    match a.build s with
    | (s1, some i) => Params.divNum s1 i q
    | (s1, none) => (s1, none)
  | .div a b =>
    match a.build s with
    | (s1, some i) =>
      match b.build s1 with
      | (s2, some j) => Params.div s2 i j
      | (s2, none) => (s2, none)
    | (s1, none) => (s1, none)

/-- The scalars of the expression are root scalars. -/
def Exp.Roots (s : State T) : Exp → Prop
  | .scalar i => ∃ p, s[i]? = some p ∧ p.root = true
  | .addNum a _ => a.Roots s
  | .raddNum _ a => a.Roots s
  | .add a b => a.Roots s ∧ b.Roots s
  | .divNum a _ => a.Roots s
  | .div a b => a.Roots s ∧ b.Roots s

/-- No named scalar is written like a number. -/
def Named (h : List (UserOp T)) : Prop := ∀ sym q, UserOp.named sym (.num q) ∉ h

/-- The values of the numbers have not been changed. -/
def NumbersKept (s : State T) : Prop :=
  ∀ p ∈ s, ∀ q, p.real = true → p.lin = [.root (.num q)] → p.value = .float q

end Phyem.Params
