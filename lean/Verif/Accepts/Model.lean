import Mathlib.Data.Int.Order.Basic
import Mathlib.Data.List.Basic

/-!
The decorator that checks arguments (`tools/decorators/accepts.py`).

Modelled: whether a call goes on to the function or an error is raised. Not modelled: which error it is and what it says. Requirements are `None`, a text,
a class, or a tuple or list of texts and classes. Texts that begin with `shape` or `ndim` have been split into their entries; those without `=` or
parentheses are not modelled, and no class has a name that begins like this.
-/

namespace Phyem.Accepts

abbrev Str := List Char

/-- An entry of the text after `shape=` (`accepts.py:135-150`): a number, `x`, `...`, or something else. -/
inductive Dim where
  | num (z : ℤ)
  | any
  | dots
  | bad
deriving DecidableEq

/-- An entry of a tuple of requirements. -/
inductive Item (Cls : Type) where
  | cls (c : Cls)
  | name (s : Str)
  | shape (ds : List Dim)
  | ndim (n : ℤ)
deriving DecidableEq

/-- A requirement. -/
inductive Req (Cls : Type) where
  | none
  | text (s : Str)
  | cls (c : Cls)
  | many (l : List (Item Cls))

/-- An argument: the name of its class, the classes it is an instance of, its value if it is an `int`, and what `np.shape` gives. -/
structure Val (Cls : Type) where
  name : Str
  inst : List Cls
  int : Option ℤ
  shape : List ℕ

/-- The classes of sparse matrices (`accepts.py:84-85`, `98-99`). -/
def sparse : List Str := ["csc_matrix".toList, "csr_matrix".toList, "coo_matrix".toList, "lil_matrix".toList, "dok_matrix".toList, "dia_matrix".toList,
  "bsr_matrix".toList]

/-- What may not be in a tuple (`accepts.py:102`). -/
def alone : List Str := ["natural_number".toList, "positive_int".toList, "negative_int".toList]

variable {Cls : Type} [DecidableEq Cls]

/-- `...` is the last entry only, and all entries are understood (`accepts.py:135-149`). -/
def formed : List Dim → Bool
  | [] => true
  | [.dots] => true
  | .dots :: _ => false
  | .bad :: _ => false
  | _ :: ds => formed ds

/-- The comparison of the shape (`accepts.py:152-158`). -/
def fits : List Dim → List ℕ → Bool
  | [], _ => true
  | .dots :: _, _ => true
  | .num _ :: _, [] => false
  | .num z :: ds, n :: sh => (n : ℤ) == z && fits ds sh
  | _ :: ds, sh => fits ds sh.tail

/-- The requirement of a shape (`accepts.py:120-162`). -/
def shapeOk (sh : List ℕ) (ds : List Dim) : Bool := !sh.isEmpty && formed ds && fits ds sh

/-- The loop over the entries of a tuple (`accepts.py:118-174`). It is left after the first requirement of a shape. -/
def dimsOk (sh : List ℕ) : List (Item Cls) → Bool
  | [] => true
  | .shape ds :: _ => shapeOk sh ds
  | .ndim n :: l => (sh.length : ℤ) == n && dimsOk sh l
  | .cls _ :: l => dimsOk sh l
  | .name _ :: l => dimsOk sh l

/-- `isinstance` with a tuple: its entries are looked at one after the other. `none`: a `TypeError`, as there is an entry that is not a class. -/
def isInst (a : Val Cls) : List (Item Cls) → Option Bool
  | [] => some false
  | .cls c :: l => if a.inst.contains c then some true else isInst a l
  | _ :: _ => none

/-- The requirement of a type, for a tuple (`accepts.py:179-192`). -/
def typeOk (a : Val Cls) (l : List (Item Cls)) : Bool :=
  match isInst a l with
  | some b => b
  | none => l.contains (.name a.name)

/-- The tuple with the names of all sparse matrices if it has `sparse_matrix` (`accepts.py:97-101`). -/
def extend (l : List (Item Cls)) : List (Item Cls) := if l.contains (.name "sparse_matrix".toList) then l ++ sparse.map .name else l

/-- An entry may be in a tuple (`accepts.py:102-104`). -/
def among : Item Cls → Bool
  | .name s => !alone.contains s
  | _ => true

/-- The check of argument number `i` (`accepts.py:76-192`). -/
def check (i : ℕ) (a : Val Cls) : Req Cls → Bool
  | .none => true
  | .text s =>
    if s = "sparse_matrix".toList then sparse.contains a.name
    else if s = "natural_number".toList then a.int.any fun n => 0 ≤ n
    else if s = "positive_int".toList then a.int.any fun n => 0 < n
    else if s = "negative_int".toList then a.int.any fun n => n < 0
    else if s = [] ∨ (s = "self".toList ∧ i = 0) then true
    else a.name == s
  | .cls c => a.inst.contains c
  | .many l => (extend l).all among && dimsOk a.shape (extend l) && typeOk a (extend l)

/-- The arguments from number `i` on (`accepts.py:76`): `zip` ends with the shorter one. -/
def checks : ℕ → List (Val Cls) → List (Req Cls) → Bool
  | i, a :: as, t :: ts => check i a t && checks (i + 1) as ts
  | _, _, _ => true

/-- Whether the function is called (`accepts.py:75-195`). The keyword arguments are passed on. -/
def accepted (types : List (Req Cls)) (args : List (Val Cls)) (_kwds : List (Str × Val Cls)) : Bool := checks 0 args types

end Phyem.Accepts
