import Verif.Base.Dict
import Mathlib.Data.Finset.Basic

/-!
The decorators that keep what functions and methods have returned (`tools/decorators/memoize/memoize_1.py` to `memoize_5.py`).

A function may give something else at each call: what it would give at a call is `some v`, or `none` if it raises an error. Values that functions return
are not changed afterwards. Arguments are integers, truth values, texts and arrays of integers with one axis; floats and other objects are not modelled.
-/

namespace Phyem.Memo

open Phyem.Dict

abbrev Str := List Char

inductive Py where
  | int (n : ℤ)
  | bool (b : Bool)
  | text (s : Str)
  | arr (l : List ℤ)
deriving DecidableEq

/-- The arguments of a call: `args` and `kwargs`. -/
structure Args where
  pos : List Py
  kw : List (Str × Py)
deriving DecidableEq

def join (sep : Str) (l : List Str) : Str := sep.intercalate l

def showInt (n : ℤ) : Str := if n < 0 then '-' :: Nat.toDigits 10 n.natAbs else Nat.toDigits 10 n.natAbs

/-- What numpy writes for an array: all entries, or the first and last three if there are more than a thousand (`threshold` and `edgeitems` of
`np.set_printoptions`). The spaces and line breaks that align the entries are left out. -/
def showArr (l : List ℤ) : Str :=
  "array([".toList ++ (if l.length ≤ 1000 then join ", ".toList (l.map showInt)
    else join ", ".toList ((l.take 3).map showInt ++ ["...".toList] ++ (l.drop (l.length - 3)).map showInt)) ++ "])".toList

/-- `repr` of an argument; of texts without quotes, backslashes and line breaks. -/
def repr : Py → Str
  | .int n => showInt n
  | .bool true => "True".toList
  | .bool false => "False".toList
  | .text s => "'".toList ++ s ++ "'".toList
  | .arr l => showArr l

/-- `str` of a tuple. -/
def showPos : List Py → Str
  | [x] => "(".toList ++ repr x ++ ",)".toList
  | l => "(".toList ++ join ", ".toList (l.map repr) ++ ")".toList

/-- `str` of a dict. -/
def showKw (l : List (Str × Py)) : Str := "{".toList ++ join ", ".toList (l.map fun p => repr (.text p.1) ++ ": ".toList ++ repr p.2) ++ "}".toList

/-- The key of `memoize1` (`memoize_1.py:21`). -/
def key1 (a : Args) : Str := showPos a.pos ++ showKw a.kw

/-- Arguments as keys of dicts: `True` is the same key as 1, and arrays can not be keys. -/
def norm : Py → Option (ℤ ⊕ Str)
  | .int n => some (.inl n)
  | .bool b => some (.inl (if b then 1 else 0))
  | .text s => some (.inr s)
  | .arr _ => none

/-- The tuple of a tuple of arguments as a key; of `memoize3` (one argument, `memoize_3.py:17-20`) and `memoize4` (`memoize_4.py:17-22`). `none`: a
`TypeError`. -/
def keyPos (l : List Py) : Option (List (ℤ ⊕ Str)) := l.mapM norm

abbrev Key2 := List (ℤ ⊕ Str) × Finset (Str × (ℤ ⊕ Str))

instance : DecidableEq Key2 := fun a b => instDecidableEqProd a b

/-- The key of `memoize2` and `memoize5` besides the method: the positional arguments and the set of the others (`memoize_2.py:53`, `memoize_5.py:40`).
`none`: a `TypeError`. -/
def key2 (a : Args) : Option Key2 :=
  (keyPos a.pos).bind fun p => (a.kw.mapM fun q => (norm q.2).map fun v => (q.1, v)).map fun k => (p, k.toFinset)

variable {K O M V : Type} [DecidableEq K] [DecidableEq O] [DecidableEq M]

/-- What a call gives: the value, if none was raised, and whether the function has been run. -/
structure Res (V : Type) where
  val : Option V
  ran : Bool
deriving DecidableEq

/-- A call of a function that keeps its values in `cache` (`memoize_1.py:20-26`, `memoize_3.py:16-21`, `memoize_4.py:16-24`, and
`memoize_2.py:54-58`). `now`: what the function gives. -/
def call (cache : Dict K V) (k : K) (now : Option V) : Res V × Dict K V :=
  match get cache k with
  | some v => (⟨some v, false⟩, cache)
  | none => match now with
    | some v => (⟨some v, true⟩, put cache k v)
    | none => (⟨none, true⟩, cache)

/-- A history of calls of one function. -/
def calls (cache : Dict K V) : List (K × Option V) → List (Res V)
  | [] => []
  | e :: h => (call cache e.1 e.2).1 :: calls (call cache e.1 e.2).2 h

/-- A history of calls of a function that is decorated with `memoize1`: what the function would give and the arguments. -/
def memo1 (h : List (Option V × Args)) : List (Res V) := calls [] (h.map fun e => (key1 e.2, e.1))

/-- A history of calls of a function that is decorated with `memoize3` or `memoize4` (`memoize_3.py:16-21`, `memoize_4.py:16-24`). An argument that can
not be a key raises a `TypeError`, and the function is not run. -/
def memo4 (cache : Dict (List (ℤ ⊕ Str)) V) : List (Option V × List Py) → List (Res V)
  | [] => []
  | e :: h => match keyPos e.2 with
    | none => ⟨none, false⟩ :: memo4 cache h
    | some k => (call cache k e.1).1 :: memo4 (call cache k e.1).2 h

/-- A call of a decorated method: the object, the method, the arguments and what the method gives. -/
structure Ev (O M V : Type) where
  obj : O
  meth : M
  args : Args
  now : Option V

/-- A call of a method that is decorated with `memoize2` or `memoize5` (`memoize_2.py:47-58`, `memoize_5.py:34-45`). Each object has one dict, which is
made when it is needed, for all its methods. `none` as the key: a `TypeError` and the method has not been run. -/
def callM (w : Dict O (Dict (M × Key2) V)) (e : Ev O M V) : Res V × Dict O (Dict (M × Key2) V) :=
  match key2 e.args with
  | none => (⟨none, false⟩, put w e.obj ((get w e.obj).getD []))
  | some k => ((call ((get w e.obj).getD []) (e.meth, k) e.now).1, put w e.obj (call ((get w e.obj).getD []) (e.meth, k) e.now).2)

/-- A history of calls of methods. -/
def memo2 (w : Dict O (Dict (M × Key2) V)) : List (Ev O M V) → List (Res V)
  | [] => []
  | e :: h => (callM w e).1 :: memo2 (callM w e).2 h

end Phyem.Memo
