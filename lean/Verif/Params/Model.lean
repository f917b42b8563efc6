import Mathlib.Algebra.Order.Field.Rat

/-!
Constant scalars and factors of terms: `/repo/src/form/parameters.py`.

Simplifications.  Numbers are exact rationals: rounding of floats, `inf`, `nan` and `bool` are left out.
A text is the decimal writing of a number, `\frac{1}{n}` or anything else.  Linguistic representations are
lists of tokens: the texts of root scalars have none of the characters of the operators (config.py:331),
so the strings and the lists determine one another.  Keyword arguments of calls are one value of a type `T`.
-/

namespace Phyem.Params

/-- A string: the decimal writing of a number, `\frac{1}{n}`, anything else. -/
inductive Text
  | num (q : ℚ)
  | frac (n : ℤ)
  | other (s : String)
  deriving DecidableEq

/-- A part of a linguistic representation: a root scalar, plus, division (config.py:385-396). -/
inductive Tok
  | root (t : Text)
  | plus
  | div
  deriving DecidableEq

/-- The value of a scalar: not set, an `int`, a `float`, a callable. -/
inductive Value (T : Type)
  | unset
  | int (n : ℤ)
  | float (q : ℚ)
  | fn (f : T → Option ℚ)

/-- The fields of a `ConstantScalar0Form`, parameters.py:77-101. -/
structure Scalar (T : Type) where
  sym : List Text
  lin : List Tok
  real : Bool
  root : Bool
  value : Value T

/-- All scalars that were made, in this order.  Those with `root` are in `_global_root_constant_scalars`,
parameters.py:11. -/
abbrev State (T : Type) := List (Scalar T)

variable {T : Type}

/-- The symbolic representation of a number, parameters.py:25-30. -/
def symOf (q : ℚ) : Text :=
  if q = 1 then .num 1 else if q ≠ 0 ∧ (1 / q).den = 1 then .frac (1 / q).num else .num q

/-- `_check_sym_repr`, config.py:361-366. -/
def okSym : Text → Bool
  | .other s => s.toList.any (· != ' ')
  | _ => true

/-- The checks of `_parse_lin_repr`, config.py:327-334. -/
def okLin : Text → Bool
  | .num _ => true
  | .frac _ => false
  | .other s => s != "" && s.toList.all fun c => !("{$\\}".toList.contains c)

/-- The value of a new scalar, parameters.py:94-100. -/
def initial (lin : Text) (real : Bool) : Value T :=
  match lin, real with
  | .num q, true => .float q
  | _, _ => .unset

/-- `constant_scalar` with its two representations, parameters.py:45-69. -/
def make (s : State T) (sym lin : Text) (real : Bool) : State T × Option ℕ :=
  if !okSym sym then (s, none)
  else
    match s.findIdx? fun p => p.root && p.lin == [.root lin] && p.sym == [sym] with
    | some i => (s, some i)
    | none =>
      if s.any fun p => p.root && (p.lin == [.root lin] || p.sym == [sym]) then (s, none)
      else if !okLin lin then (s, none)
      else (s ++ [⟨[sym], [.root lin], real, true, initial lin real⟩], some s.length)

/-- `constant_scalar(q)`, parameters.py:18-32. -/
def number (s : State T) (q : ℚ) : State T × Option ℕ := make s (symOf q) (.num q) true

/-- `constant_scalar(sym, lin)`, parameters.py:36-40. -/
def named (s : State T) (sym lin : Text) : State T × Option ℕ := make s sym lin false

/-- `p.value = v`, parameters.py:134-141. -/
def setValue (s : State T) (i : ℕ) (v : Value T) : State T := s.modify i fun p => { p with value := v }

/-- `p(...)`, parameters.py:143-154. -/
def callOn (p : Scalar T) (t : T) : Option ℚ :=
  if p.real then
    match p.value with
    | .float q => some q
    | _ => none
  else
    match p.value with
    | .unset => none
    | .int n => some n
    | .float q => some q
    | .fn f => f t

/-- `p(...)` for the scalar with this index. -/
def call (s : State T) (i : ℕ) (t : T) : Option ℚ := s[i]?.bind fun p => callOn p t

/-- `float(p._sym_repr)`. -/
def floatSym (p : Scalar T) : Option ℚ :=
  match p.sym with
  | [.num q] => some q
  | _ => none

/-- A scalar that is not root: parameters.py:172, 182, 202, 221.  Its symbolic representation does not
matter. -/
def compound (s : State T) (lin : List Tok) : State T × Option ℕ :=
  (s ++ [⟨[], lin, false, false, .unset⟩], some s.length)

/-- `p + q` with a number, parameters.py:160-172. -/
def addNum (s : State T) (i : ℕ) (q : ℚ) : State T × Option ℕ :=
  match s[i]? with
  | none => (s, none)
  | some p =>
    if p.real then
      match floatSym p with
      | some x => number s (x + q)
      | none => (s, none)
    else compound s (p.lin ++ .plus :: [.root (.num q)])

/-- `q + p`, parameters.py:187-202. -/
def raddNum (s : State T) (i : ℕ) (q : ℚ) : State T × Option ℕ :=
  match s[i]? with
  | none => (s, none)
  | some p =>
    if p.real then
      match floatSym p with
      | some x => number s (x + q)
      | none => (s, none)
    else compound s (.root (.num q) :: .plus :: p.lin)

/-- `p + p'`, parameters.py:174-182. -/
def add (s : State T) (i j : ℕ) : State T × Option ℕ :=
  match s[i]?, s[j]? with
  | some p, some p' =>
    if p'.real then
      match floatSym p' with
      | some x => addNum s i x
      | none => (s, none)
    else compound s (p.lin ++ .plus :: p'.lin)
  | _, _ => (s, none)

/-- `p / p'`, parameters.py:212-221. -/
def div (s : State T) (i j : ℕ) : State T × Option ℕ :=
  match s[i]?, s[j]? with
  | some p, some p' =>
    if p.real && p'.real then (s, none) else compound s (p.lin ++ .div :: p'.lin)
  | _, _ => (s, none)

/-- `p / q` with a number, parameters.py:209-211. -/
def divNum (s : State T) (i : ℕ) (q : ℚ) : State T × Option ℕ :=
  match number s q with
  | (s', some j) => div s' i j
  | (s', none) => (s', none)

/-- `_find_root_scalar_parameter`, parameters.py:227-234. -/
def findRoot (s : State T) (lin : List Tok) : Option ℕ := s.findIdx? fun p => p.root && p.lin == lin

/-- What `_factor_parser` returns: a root scalar or a `_Division2`. -/
inductive Factor
  | root (i : ℕ)
  | quot (i j : Option ℕ)

/-- `_factor_parser`, parameters.py:237-254. -/
def factorParser (s : State T) (lin : List Tok) : Option Factor :=
  match findRoot s lin with
  | some i => some (.root i)
  | none =>
    if lin.count .div = 1 then
      some (.quot (findRoot s (lin.takeWhile (· != .div))) (findRoot s ((lin.dropWhile (· != .div)).drop 1)))
    else none

/-- Call a factor, parameters.py:257-282 and 143-154.  A missing part of a quotient is not callable. -/
def evalFactor (s : State T) (t : T) : Factor → Option ℚ
  | .root i => call s i t
  | .quot (some i) (some j) =>
    (call s i t).bind fun a => (call s j t).bind fun b => if b = 0 then none else some (a / b)
  | .quot _ _ => none

/-- What a user does with scalars. -/
inductive UserOp (T : Type)
  | number (q : ℚ)
  | named (sym lin : Text)
  | set (i : ℕ) (v : Value T)
  | addNum (i : ℕ) (q : ℚ)
  | raddNum (i : ℕ) (q : ℚ)
  | add (i j : ℕ)
  | divNum (i : ℕ) (q : ℚ)
  | div (i j : ℕ)

/-- One action. -/
def step (s : State T) : UserOp T → State T
  | .number q => (number s q).1
  | .named sym lin => (named s sym lin).1
  | .set i v => setValue s i v
  | .addNum i q => (addNum s i q).1
  | .raddNum i q => (raddNum s i q).1
  | .add i j => (add s i j).1
  | .divNum i q => (divNum s i q).1
  | .div i j => (div s i j).1

/-- The scalars after a history. -/
def session (h : List (UserOp T)) : State T := h.foldl step []

end Phyem.Params
