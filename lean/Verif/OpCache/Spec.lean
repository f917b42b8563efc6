import Verif.OpCache.Model

/-!
What a local matrix object means, without caches.
-/

namespace Phyem.OpCache

open Phyem

variable {α : Type}

/-- What an object is, leaving out its cache: how it is computed and how it is customised. -/
def stat (s : Heap α) : List (Op α × Dict ℕ α) := s.map fun o => (o.op, o.cust)

/-- How the objects are computed. -/
def ops (s : Heap α) : List (Op α) := s.map fun o => o.op

/-- The meaning of `M[e]` without any cache: customised data where there is some, and otherwise the
operation applied to the meaning of the operands in the same element. -/
def value (s : List (Op α × Dict ℕ α)) : ℕ → ℕ → ℕ → Option α
  | 0, _, _ => none
  | fuel + 1, i, e =>
    match s[i]? with
    | none => none
    | some (op, cust) =>
      match cust.get e with
      | some v => some v
      | none =>
        match op with
        | .leaf d _ => d e
        | .derived _ args f => (allSome (args.map fun j => value s fuel j e)).bind f

/-- As `value`, but unary operations, sums and products ignore customisations of their operands, as
documented for msepy matrices; block matrices do not.  With `own = false` the customisation of the object
itself is ignored as well. -/
def valueM (s : List (Op α × Dict ℕ α)) : ℕ → Bool → ℕ → ℕ → Option α
  | 0, _, _, _ => none
  | fuel + 1, own, i, e =>
    match s[i]? with
    | none => none
    | some (op, cust) =>
      match (if own then cust.get e else none) with
      | some v => some v
      | none =>
        match op with
        | .leaf d _ => d e
        | .derived kind args f =>
          (allSome (args.map fun j => valueM s fuel (decide (kind = .blk)) j e)).bind f

/-- The data of an object when nothing is customised. -/
def raw (p : List (Op α)) : ℕ → ℕ → ℕ → Option α
  | 0, _, _ => none
  | fuel + 1, i, e =>
    match p[i]? with
    | none => none
    | some (.leaf d _) => d e
    | some (.derived _ args f) => (allSome (args.map fun j => raw p fuel j e)).bind f

/-- The cache key of an object when nothing is customised. -/
def rawKey (impl : Impl) (p : List (Op α)) : ℕ → ℕ → ℕ → Key
  | 0, _, _ => []
  | fuel + 1, i, e =>
    match p[i]? with
    | none => []
    | some (.leaf _ key) => key e
    | some (.derived kind args _) =>
      combine impl kind (args.map fun j => rawKey impl p fuel j e) false

/-- The cache keys are sound: two elements with the same key (not containing `unique`) have the same
uncustomised data. -/
def KeysOK (impl : Impl) (elems : List ℕ) (p : List (Op α)) : Prop :=
  ∀ i < p.length, ∀ e ∈ elems, ∀ e' ∈ elems,
    isUnique (rawKey impl p (i + 1) i e) = false ∧
      rawKey impl p (i + 1) i e = rawKey impl p (i + 1) i e' → raw p (i + 1) i e = raw p (i + 1) i e'

/-- `j` is an operand of a unary operation, a sum or a product. -/
def Operand (p : List (Op α)) (j : ℕ) : Prop :=
  ∃ kind args f, Op.derived kind args f ∈ p ∧ kind ≠ .blk ∧ j ∈ args

/-- No operand of a unary operation, sum or product is customised during the history. -/
def NeverCustomised (h : List (Act α)) (p : List (Op α)) : Prop :=
  ∀ i e v, Act.customise i e v ∈ h → ¬ Operand p i

end Phyem.OpCache
