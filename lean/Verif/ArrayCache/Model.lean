import Verif.Base.Dict
import Mathlib.Algebra.Order.Field.Rat
import Mathlib.Data.List.Sort

/-
Model of `tools/miscellaneous/ndarray_cache.py`.

Array entries are rational numbers (no floating point rounding, no nan or inf).  The three parallel
dictionaries `keys`, `values`, `check strings` always receive and lose the same keys and are modelled
as one dictionary of records.  One cache object is modelled, so `id(cache)` is dropped.
-/

namespace Phyem.ArrayCache

open Phyem

/-- A numpy array: shape and entries in C order. -/
structure Arr where
  shape : List ℕ
  data : List ℚ
deriving DecidableEq

/-- One cache entry. -/
structure Entry (V : Type) where
  arrays : List Arr
  check : String
  value : V

/-- `___cache_info___[cid]`. -/
structure Info where
  attempts : ℕ
  hit : ℕ
  keep : Bool
deriving DecidableEq

/-- The cache and its info (`none` before the first query). -/
structure S (V : Type) where
  cache : Dict ℕ (Entry V)
  info : Option Info

def S.empty {V : Type} : S V := ⟨[], none⟩

/-- `np.allclose(a, b)` for arrays of equal shape: `|a - b| <= 1e-8 + 1e-5 * |b|` entrywise. -/
def allclose (a b : Arr) : Bool :=
  (a.data.zip b.data).all fun p => decide (|p.1 - p.2| ≤ 1 / 10 ^ 8 + 1 / 10 ^ 5 * |p.2|)

/-- The comparison of cached arrays with the input arrays, ndarray_cache.py:71-93.  An input that is not
an ndarray is `none`. -/
def matches_ : List Arr → List (Option Arr) → Bool
  | [], [] => true
  | ca :: cs, some ia :: is => decide (ca.shape = ia.shape) && allclose ca ia && matches_ cs is
  | _, _ => false

/-- The loop over the keys, ndarray_cache.py:64-99: the first matching entry. -/
def find {V : Type} (arrays : List (Option Arr)) (check : String) : Dict ℕ (Entry V) → Option V
  | [] => none
  | (_, e) :: d =>
    if e.check = check ∧ matches_ e.arrays arrays = true then some e.value else find arrays check d

/-- `ndarray_key_comparer`, ndarray_cache.py:10-135.  (The "safety check" assertion repeats the tests
made by the loop.) -/
def query {V : Type} (s : S V) (arrays : List (Option Arr)) (check : String) : Option V × S V :=
  let info := s.info.getD ⟨0, 0, true⟩
  if info.keep then
    let r := find arrays check s.cache
    let attempts := info.attempts + 1
    let hit := info.hit + (if r.isSome then 1 else 0)
    if attempts > 100 ∧ 20 * hit < attempts then
      (r, ⟨[], some ⟨attempts, hit, false⟩⟩)
    else
      (r, ⟨s.cache, some ⟨attempts, hit, true⟩⟩)
  else (none, { s with info := some info })

/-- `max(keys.keys()) + 1`, or 0 for an empty cache; ndarray_cache.py:169-172. -/
def nextKey {V : Type} (d : Dict ℕ (Entry V)) : ℕ :=
  if d.length > 0 then d.keys.foldl max 0 + 1 else 0

/-- Eviction, ndarray_cache.py:156-167. -/
def evict {V : Type} (d : Dict ℕ (Entry V)) (maximum : ℕ) : Dict ℕ (Entry V) :=
  if d.length > 2 * maximum then
    (((d.keys.insertionSort (· ≤ ·)).take maximum).foldl (fun d k => d.del k) d)
  else d

/-- `add_to_ndarray_cache`, ndarray_cache.py:138-178; the flag is an exception (no query before, a
maximum that is not positive, an input that is not an ndarray). -/
def addTo {V : Type} (s : S V) (arrays : List (Option Arr)) (value : V) (check : String)
    (maximum : ℕ) : Bool × S V :=
  match s.info with
  | none => (true, s)
  | some info =>
    if info.keep then
      if maximum > 0 ∧ arrays.all Option.isSome then
        let d := evict s.cache maximum
        (false, { s with cache := d.put (nextKey d) ⟨arrays.filterMap id, check, value⟩ })
      else (true, s)
    else (false, s)

/-- A memoised function, as the callers write it: query first, on a miss compute and add. -/
def memo {V : Type} (f : List Arr → String → V) (maximum : ℕ) (s : S V) (arrays : List Arr)
    (check : String) : V × S V :=
  let q := query s (arrays.map some) check
  match q.1 with
  | some v => (v, q.2)
  | none => (f arrays check, (addTo q.2 (arrays.map some) (f arrays check) check maximum).2)

/-- Public operations. -/
inductive Op (V : Type) where
  | query (arrays : List (Option Arr)) (check : String)
  | add (arrays : List (Option Arr)) (value : V) (check : String) (maximum : ℕ)

def step {V : Type} (s : S V) : Op V → S V
  | .query a c => (query s a c).2
  | .add a v c m => (addTo s a v c m).2

def run {V : Type} (ops : List (Op V)) : S V := ops.foldl step S.empty

end Phyem.ArrayCache
