import Verif.Expr.Model

/-!
Ordinary reading of an equation text, written without reference to the reader in
`Verif.Expr.Model`.
-/

namespace Phyem.Expr.Spec

/-- A term as written: the signs and blanks in front of it, and its name (blanks inside or after
the name allowed, as the library accepts them). -/
structure Item where
  pre : List Char
  name : List Char
deriving DecidableEq

/-- One side of an equation as written; `post` is what follows the last name. -/
structure Side where
  items : List Item
  post : List Char
deriving DecidableEq

def isSign (c : Char) : Bool := c = '+' || c = '-'
def isSignOrBlank (c : Char) : Bool := isSign c || c = ' '
def isNameChar (c : Char) : Bool := !(isSign c) && c ≠ '='

/-- The text of a side. -/
def Side.text (s : Side) : List Char := (s.items.flatMap fun i => i.pre ++ i.name) ++ s.post

/-- The name without blanks. -/
def Item.key (i : Item) : List Char := i.name.filter (· ≠ ' ')

/-- `pre` consists of signs and blanks, the name of other characters, not all blank. -/
def Item.wf (i : Item) : Prop :=
  (∀ c ∈ i.pre, isSignOrBlank c = true) ∧ (∀ c ∈ i.name, isNameChar c = true) ∧ i.key ≠ []

/-- Every term but the first has a sign in front. -/
def Side.wf (s : Side) : Prop :=
  (∀ i ∈ s.items, i.wf) ∧ (∀ c ∈ s.post, isSignOrBlank c = true) ∧
  ∀ i ∈ s.items.tail, ∃ c ∈ i.pre, isSign c = true

/-- Ordinary sign of a term: the product of the signs in front of it. -/
def ordinarySign : List Char → Sign
  | [] => .pos
  | c :: cs => if c = '-' then (ordinarySign cs).flip else ordinarySign cs

/-- Value of a name: `0` is zero, other names have the value of the form they stand for. -/
def nameVal {R : Type} [CommRing R] (v : List Char → R) (n : List Char) : R :=
  if n = ['0'] then 0 else v n

/-- Ordinary value of a side. -/
def Side.value {R : Type} [CommRing R] (v : List Char → R) (s : Side) : R :=
  (s.items.map fun i => (ordinarySign i.pre).act (nameVal v i.key)).sum

/-- The terms a reader expects: every name except `0`, with its ordinary sign, in order. -/
def Side.terms (s : Side) : List (Sign × List Char) :=
  (s.items.filter fun i => i.key ≠ ['0']).map fun i => (ordinarySign i.pre, i.key)

/-- At most the last sign in front of a term is a minus, and `0` has no minus in front. -/
def Item.plain (i : Item) : Prop :=
  (∃ p q, i.pre = p ++ q ∧ '-' ∉ p ∧ (q.filter isSign).length ≤ 1) ∧ (i.key = ['0'] → '-' ∉ i.pre)

end Phyem.Expr.Spec
