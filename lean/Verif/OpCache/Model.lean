import Verif.Base.Dict
import Mathlib.Data.List.Infix
import Mathlib.Data.Int.Notation

/-!
Model of local matrices that are computed on demand, cached and customised:
`MsePyStaticLocalMatrix` (msepy/tools/matrix/static/local.py:20-330, 717-808) and
`MseHttStaticLocalMatrix` (msehtt/tools/matrix/static/local.py:19-395, 572-665).

Matrix objects live on a heap and refer to their operands by position, so that operands may be shared,
customised and evaluated in any order.  The numerical content of a local matrix is an arbitrary type `α`
with arbitrary operations.  Gathering matrices only contribute the set of element numbers.
-/

namespace Phyem.OpCache

open Phyem

/-- A cache key (a Python string). -/
abbrev Key := List Char

/-- The string `unique`. -/
def unique : Key := ['u', 'n', 'i', 'q', 'u', 'e']

/-- The string `constant`. -/
def constant : Key := ['c', 'o', 'n', 's', 't', 'a', 'n', 't']

/-- The Python test `'unique' in ck` (substring). -/
def isUnique (ck : Key) : Bool := decide (unique <:+: ck)

/-- Which of the two implementations is modelled. -/
inductive Impl | msepy | msehtt
deriving DecidableEq

/-- How a derived matrix was made.
`un`: `-M`, `M.T`, `c * M`, `M.inv()`; `add`: `M + N` (msepy also `M - N`); `mul`: `M @ N`; `blk`: `bmat`. -/
inductive Kind | un | add | mul | blk
deriving DecidableEq

/-- What a matrix object computes. -/
inductive Op (α : Type)
  /-- data and cache key per element: a callable, dictionary, constant or distributor. -/
  | leaf (data : ℕ → Option α) (key : ℕ → Key)
  /-- a function of the data of other objects in the same element. -/
  | derived (kind : Kind) (args : List ℕ) (f : List α → Option α)

/-- A matrix object: `_data`, `_cache` (msepy's `_constant_cache` is the entry for the key
`constant`, which is never used as a key of `_cache`) and `customize._customizations`. -/
structure Obj (α : Type) where
  op : Op α
  cache : Dict Key α
  cust : Dict ℕ α

/-- All matrix objects in order of creation. -/
abbrev Heap (α : Type) := List (Obj α)

variable {α : Type}

/-- `len(M.customize) == 0`. -/
def untouched (s : Heap α) (i : ℕ) : Bool :=
  match s[i]? with
  | some o => o.cust.isEmpty
  | none => false

/-- `e in M.customize`. -/
def customised (s : Heap α) (i e : ℕ) : Bool :=
  match s[i]? with
  | some o => (o.cust.get e).isSome
  | none => false

/-- `'.'.join(keys)`. -/
def joinDot : List Key → Key
  | [] => []
  | [k] => k
  | k :: ks => k ++ '.' :: joinDot ks

/-- The cache key of a derived matrix in an element, from the keys of the operands; `cu` says whether some
operand is customised in that element (used by `bmat` only).
msepy: local.py:206-208 (`T`, `-`), 283-291 (`+`, `-`), 308-310 (`c *`), 331-340 (`@`), 783-808 (`bmat`);
msehtt: local.py:233-297 (`-`, inv, T, `c *`), 308-316 (`+`), 344-354 (`@`), 640-664 (`bmat`). -/
def combine (impl : Impl) (kind : Kind) (keys : List Key) (cu : Bool) : Key :=
  match impl, kind with
  | _, .un => keys.headD []
  | .msepy, .add =>
    if keys.all (· == constant) then constant
    else keys.headD [] ++ '@' :: (keys.tail.headD [])
  | .msepy, .mul =>
    if keys.any (· == unique) then unique
    else if keys.all (· == constant) then constant
    else keys.headD [] ++ '@' :: (keys.tail.headD [])
  | .msehtt, .add =>
    if keys.any (· == unique) then unique else keys.headD [] ++ '.' :: (keys.tail.headD [])
  | .msehtt, .mul =>
    if keys.any (· == unique) then unique else keys.headD [] ++ keys.tail.headD []
  | .msepy, .blk =>
    if cu || keys.any (· == unique) then unique
    else if keys.all (· == constant) then constant
    else keys.flatten
  | .msehtt, .blk =>
    if cu || keys.any (· == unique) then unique else joinDot keys

/-- All of a list of optional values. -/
def allSome : List (Option α) → Option (List α)
  | [] => some []
  | some a :: l => (allSome l).map (a :: ·)
  | none :: _ => none

/-- `M._cache_key(e)`, computed anew at every call.  `fuel` bounds the depth of operands. -/
def keyOf (impl : Impl) (s : Heap α) : ℕ → ℕ → ℕ → Key
  | 0, _, _ => []
  | fuel + 1, i, e =>
    match s[i]? with
    | none => []
    | some o =>
      match o.op with
      | .leaf _ key => key e
      | .derived kind args _ =>
        combine impl kind (args.map fun j => keyOf impl s fuel j e)
          (args.any fun j => customised s j e)

/-- Evaluate operands from left to right; an exception stops the evaluation but caches filled so far
stay filled. -/
def getArgs (g : Heap α → ℕ → Heap α × Option α) : Heap α → List ℕ → Heap α × Option (List α)
  | s, [] => (s, some [])
  | s, i :: is =>
    match (g s i).2 with
    | none => ((g s i).1, none)
    | some a =>
      ((getArgs g (g s i).1 is).1, ((getArgs g (g s i).1 is).2).map (a :: ·))

/-- `self._cache[ck] = data`. -/
def store (s : Heap α) (i : ℕ) (ck : Key) (v : α) : Heap α :=
  s.modify i fun o => ⟨o.op, o.cache.put ck v, o.cust⟩

/-- The assertion "customized matrix bears no operation" of msepy: local.py:200, 254, 272, 304, 326. -/
def allowed (impl : Impl) (kind : Kind) (s : Heap α) (args : List ℕ) : Bool :=
  match impl, kind with
  | .msehtt, _ => true
  | .msepy, .blk => true
  | .msepy, _ => args.all fun j => untouched s j

/-- `_get_meta_data` (msehtt 142-153) / `___get_meta_data___` (msepy 98-110): compute the data anew. `g`
reads an operand. -/
def metaData (impl : Impl) (g : Heap α → ℕ → Heap α × Option α) (s : Heap α) (op : Op α) (e : ℕ) :
    Heap α × Option α :=
  match op with
  | .leaf d _ => (s, d e)
  | .derived kind args f =>
    if allowed impl kind s args then
      ((getArgs g s args).1, ((getArgs g s args).2).bind f)
    else (s, none)

/-- The cached read of uncustomised data: msehtt 160-169, msepy 112-132. -/
def readCached (s : Heap α) (i : ℕ) (o : Obj α) (ck : Key) (md : Heap α × Option α) :
    Heap α × Option α :=
  if isUnique ck then md
  else
    match o.cache.get ck with
    | some v => (s, some v)
    | none =>
      match md.2 with
      | some v => (store md.1 i ck v, some v)
      | none => md

/-- `M[e]`: msehtt 155-172, msepy 134-145.  `none` as second component: an exception. -/
def get (impl : Impl) (elems : List ℕ) : ℕ → Heap α → ℕ → ℕ → Heap α × Option α
  | 0, s, _, _ => (s, none)
  | fuel + 1, s, i, e =>
    match s[i]? with
    | none => (s, none)
    | some o =>
      if e ∈ elems then
        match o.cust.get e with
        | some v => (s, some v)
        | none =>
          readCached s i o (keyOf impl s (fuel + 1) i e)
            (metaData impl (fun t j => get impl elems fuel t j e) s o.op e)
      else (s, none)

/-- `M[e]` for the `i`-th object. -/
def read (impl : Impl) (elems : List ℕ) (s : Heap α) (i e : ℕ) : Heap α × Option α :=
  get impl elems (i + 1) s i e

/-- Operations of a user. -/
inductive Act (α : Type)
  /-- make a new matrix object. -/
  | new (op : Op α)
  /-- `M[e]` -/
  | read (i e : ℕ)
  /-- store a customised local matrix: every method of `M.customize` ends like this. -/
  | customise (i e : ℕ) (v : α)
  /-- `M.customize.clear()`: msehtt 419-427. -/
  | clear (i : ℕ)

/-- Operands of a new object have to exist, with two of them for `+` and `@` and one for unary
operations. -/
def validOp (s : Heap α) : Op α → Bool
  | .leaf _ _ => true
  | .derived kind args _ =>
    (args.all fun j => decide (j < s.length)) &&
      (match kind with
       | .un => args.length == 1
       | .add => args.length == 2
       | .mul => args.length == 2
       | .blk => true)

def step (impl : Impl) (elems : List ℕ) (s : Heap α) : Act α → Heap α
  | .new op => if validOp s op then s ++ [⟨op, [], []⟩] else s
  | .read i e => (read impl elems s i e).1
  | .customise i e v => s.modify i fun o => ⟨o.op, o.cache, o.cust.put e v⟩
  | .clear i => s.modify i fun o => ⟨o.op, o.cache, []⟩

/-- The heap after a history of operations. -/
def run (impl : Impl) (elems : List ℕ) (h : List (Act α)) : Heap α :=
  h.foldl (step impl elems) []

/-! Local matrices proper: the operations of the code as derived objects.  A matrix is a list of rows. -/

abbrev Mat := List (List ℤ)

def matNeg (a : Mat) : Mat := a.map fun r => r.map fun x => -x

def matScale (c : ℤ) (a : Mat) : Mat := a.map fun r => r.map fun x => c * x

def matAdd (a b : Mat) : Mat := (a.zip b).map fun p => (p.1.zip p.2).map fun q => q.1 + q.2

def matT (a : Mat) : Mat :=
  (List.range (a.headD []).length).map fun j => a.map fun r => r.getD j 0

def dot (r c : List ℤ) : ℤ := ((r.zip c).map fun q => q.1 * q.2).sum

def matMul (a b : Mat) : Mat := a.map fun r => (matT b).map fun c => dot r c

/-- `f` applied to exactly one operand. -/
def fn1 (f : Mat → Mat) : List Mat → Option Mat
  | [a] => some (f a)
  | _ => none

/-- `f` applied to exactly two operands. -/
def fn2 (f : Mat → Mat → Mat) : List Mat → Option Mat
  | [a, b] => some (f a b)
  | _ => none

/-- `-M`: msehtt 233-245, msepy 242-256. -/
def opNeg (i : ℕ) : Op Mat := .derived .un [i] (fn1 matNeg)

/-- `M.T`: msehtt 267-281, msepy 187-208. -/
def opT (i : ℕ) : Op Mat := .derived .un [i] (fn1 matT)

/-- `c * M`: msehtt 283-302, msepy 232-240, 294-310. -/
def opScale (c : ℤ) (i : ℕ) : Op Mat := .derived .un [i] (fn1 (matScale c))

/-- `M + N`: msehtt 304-329, msepy 258-267, 281-291. -/
def opAdd (i j : ℕ) : Op Mat := .derived .add [i, j] (fn2 matAdd)

/-- `M @ N`: msehtt 331-365, msepy 210-220, 313-340. -/
def opMul (i j : ℕ) : Op Mat := .derived .mul [i, j] (fn2 matMul)

end Phyem.OpCache
