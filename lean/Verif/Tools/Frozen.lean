import Mathlib.Data.List.Basic

/-
Model of `tools/frozen.py` (class `Frozen`).
-/

namespace Phyem.Frozen

/-- A class: names that `dir(self)` shows for every instance.  `plain` names (methods, class
attributes) may be shadowed by an instance attribute, `readonly` names (properties without setter)
cannot be assigned.  (Properties with a setter and slots are not modelled.) -/
structure Cls where
  plain : List String
  readonly : List String

/-- Attribute values: booleans matter for the frozen flag, other values are opaque and truthy iff
`truth`. -/
inductive Val where
  | bool (b : Bool)
  | other (id : Nat) (truth : Bool)
deriving DecidableEq

def Val.truthy : Val → Bool
  | .bool b => b
  | .other _ t => t

/-- The instance dictionary. -/
abbrev Obj := List (String × Val)

/-- The name of the hidden flag. -/
def flag : String := "___FROZEN___"

def get (o : Obj) (k : String) : Option Val := o.lookup k

/-- `object.__setattr__` on the instance dictionary: update in place or append. -/
def put : Obj → String → Val → Obj
  | [], k, v => [(k, v)]
  | (k', v') :: o, k, v => if k' = k then (k', v) :: o else (k', v') :: put o k v

/-- property `___frozen___`, tools/frozen.py:33-40: reads the flag, creating it (False) when absent.
Returns the flag's truth value and the object after the access. -/
def frozen (o : Obj) : Bool × Obj :=
  match get o flag with
  | some v => (v.truthy, o)
  | none => (false, put o flag (.bool false))

/-- `key in dir(self)`. -/
def inDir (c : Cls) (o : Obj) (k : String) : Bool :=
  (get o k).isSome || c.plain.contains k || c.readonly.contains k

/-- Result of an operation: does it raise, and the object afterwards. -/
structure Out where
  raised : Bool
  obj : Obj
deriving DecidableEq

/-- `__setattr__`, tools/frozen.py:16-20; `object.__setattr__` raises `AttributeError` for a property
without setter. -/
def setattr (c : Cls) (o : Obj) (k : String) (v : Val) : Out :=
  let f := frozen o
  if f.1 && !inDir c f.2 k then ⟨true, f.2⟩
  else if c.readonly.contains k then ⟨true, f.2⟩
  else ⟨false, put f.2 k v⟩

/-- `_freeze`, tools/frozen.py:22-24. -/
def freeze (c : Cls) (o : Obj) : Out := setattr c o flag (.bool true)

/-- `_melt`, tools/frozen.py:26-28. -/
def melt (c : Cls) (o : Obj) : Out := setattr c o flag (.bool false)

/-- `_is_frozen`, tools/frozen.py:30-32. -/
def isFrozen (o : Obj) : Bool × Obj := frozen o

/-- Operations on an object.  `del` is `del obj.k` (not guarded by the class): raises when the
instance has no such attribute. -/
inductive Op where
  | set (k : String) (v : Val)
  | del (k : String)
  | freeze
  | melt
  | ask
deriving DecidableEq

def step (c : Cls) (o : Obj) : Op → Out
  | .set k v => setattr c o k v
  | .del k => if (get o k).isSome then ⟨false, o.filter (fun p => p.1 ≠ k)⟩ else ⟨true, o⟩
  | .freeze => freeze c o
  | .melt => melt c o
  | .ask => ⟨false, (isFrozen o).2⟩

/-- The object after a history of operations (exceptions are caught by the caller). -/
def run (c : Cls) : List Op → Obj → Obj
  | [], o => o
  | x :: xs, o => run c xs (step c o x).obj

/-! ### Lemmas -/

theorem get_put (o : Obj) (k k' : String) (v : Val) :
    get (put o k v) k' = if k' = k then some v else get o k' := by
  induction o with
  | nil =>
    simp only [put, get, List.lookup]
    by_cases h : k' = k
    · simp [h]
    · have : (k' == k) = false := by simpa using h
      simp [h, this]
  | cons p o ih =>
    obtain ⟨a, b⟩ := p
    simp only [put]
    unfold get at ih ⊢
    by_cases h : a = k
    · subst h
      rw [if_pos rfl]
      by_cases h' : k' = a
      · subst h'; simp [List.lookup]
      · have : (k' == a) = false := by simpa using h'
        simp [List.lookup, this, h']
    · rw [if_neg h]
      by_cases h' : k' = a
      · subst h'; simp [List.lookup, h]
      · have : (k' == a) = false := by simpa using h'
        simp only [List.lookup, this, ih]

theorem get_del (o : Obj) (k k' : String) :
    get (o.filter (fun p => p.1 ≠ k)) k' = if k' = k then none else get o k' := by
  induction o with
  | nil => simp [get]
  | cons p o ih =>
    obtain ⟨a, b⟩ := p
    unfold get at ih ⊢
    by_cases h : a = k
    · subst h
      simp only [ne_eq, not_true_eq_false, decide_false, Bool.false_eq_true, not_false_eq_true,
        List.filter_cons_of_neg]
      rw [ih]
      by_cases h' : k' = a
      · simp [h']
      · have : (k' == a) = false := by simpa using h'
        simp [List.lookup, this, h']
    · simp only [ne_eq, h, not_false_eq_true, decide_true, List.filter_cons_of_pos]
      by_cases h' : k' = a
      · subst h'; simp [List.lookup, h]
      · have : (k' == a) = false := by simpa using h'
        simp only [List.lookup, this, ih]

/-- Reading `___frozen___` changes no attribute but creates the flag. -/
theorem get_frozen (o : Obj) (k : String) (h : k ≠ flag) : get (frozen o).2 k = get o k := by
  unfold frozen
  cases get o flag with
  | none => simp [get_put, h]
  | some v => rfl

theorem frozen_frozen (o : Obj) : frozen (frozen o).2 = ((frozen o).1, (frozen o).2) := by
  unfold frozen
  cases h : get o flag with
  | none => simp [get_put, Val.truthy]
  | some v => simp [h]

end Phyem.Frozen
