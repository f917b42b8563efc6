import Verif.Expr.Model
import Mathlib.Data.List.Sort

/-!
Weak formulations and the rewrites of `wf.derive` that move, replace, delete or negate terms:
`src/wf/derive.py` and the constructor `src/wf/main.py`. Exceptions are `none`.
-/

namespace Phyem.WeakForm

open Phyem.Expr (Str split removeSpaces)

/-- The two sides of one equation, `term_dict[i]` and `sign_dict[i]` merged
(`src/wf/main.py:360-384`). -/
structure Eqn (T : Type) where
  left : List (Sign × T)
  right : List (Sign × T)
deriving DecidableEq

/-- A weak formulation: its equations, its unknowns and a token for its boundary conditions
(`src/wf/main.py:_term_dict`, `_sign_dict`, `_unknowns`, `_bc`). Test forms are passed on
unchanged by every rewrite and are left out. -/
structure Wf (T F : Type) where
  eqs : List (Eqn T)
  unknowns : Option (List F)
  bc : ℕ
deriving DecidableEq

/-- What the constructor asks about terms: their elementary forms (`term.elementary_forms`) and
whether the meshes of all terms together are accepted (`_parse_meshes`,
`src/wf/main.py:488-530`, which refuses a formulation without terms). -/
structure Env (T F : Type) where
  efs : T → List F
  meshes : List T → Bool

/-- All terms of all equations. -/
def allTerms {T : Type} (es : List (Eqn T)) : List T :=
  es.flatMap fun e => (e.left ++ e.right).map Prod.snd

/-- `wf.__class__(test_forms, term_sign_dict=...)`, then `new_wf.unknowns = wf.unknowns` and
`new_wf._bc = wf._bc` (`src/wf/derive.py:50-54`; the checks are `src/wf/main.py:488-530` and the
setter `653-676`). -/
def build {T F : Type} [DecidableEq F] (E : Env T F) (es : List (Eqn T)) (unknowns : Option (List F))
    (bc : ℕ) : Option (Wf T F) :=
  if E.meshes (allTerms es) = false then none
  else
    match unknowns with
    | none => some ⟨es, none, bc⟩
    | some us =>
      if us.length = es.length ∧ ∀ u ∈ us, u ∈ (allTerms es).flatMap E.efs
      then some ⟨es, some us, bc⟩ else none

/-- `assert sign in ('+', '-')` (`src/wf/derive.py:27-28`). -/
def parseSign (s : Str) : Option Sign :=
  if s = ['+'] then some .pos else if s = ['-'] then some .neg else none

/-- `[f(x) for x in l]` where `f` may raise. -/
def mapOpt {α β : Type} (f : α → Option β) : List α → Option (List β)
  | [] => some []
  | a :: l => (f a).bind fun b => (mapOpt f l).map fun bs => b :: bs

/-- One side rebuilt: untouched entries are kept, the entry at `k` is replaced by the list `new`
(`_parse_new_weak_formulation_dict`, `src/wf/derive.py:66-95`). `hit` says whether this is the
side of the replaced term. -/
def rebuildSide {T : Type} (hit : Bool) (k : ℕ) (new : List (Sign × T)) (l : List (Sign × T)) :
    List (Sign × T) :=
  l.zipIdx.flatMap fun p => if hit = true ∧ p.2 = k then new else [p.1]

/-- The new dictionaries (`src/wf/derive.py:56-97`): term `(i, j, k)` is replaced, `j = true` for
the left side. -/
def rebuild {T : Type} (es : List (Eqn T)) (i : ℕ) (j : Bool) (k : ℕ) (new : List (Sign × T)) :
    List (Eqn T) :=
  es.zipIdx.map fun p =>
    ⟨rebuildSide (decide (p.2 = i) && j) k new p.1.left,
     rebuildSide (decide (p.2 = i) && !j) k new p.1.right⟩

/-- `_parse_index` (`src/wf/main.py:628-641`): the side and the place on that side of the `k`-th
term of an equation. -/
def parseIndex {T : Type} (e : Eqn T) (k : ℕ) : Bool × ℕ :=
  if k < e.left.length then (true, k) else (false, k - e.left.length)

/-- `replace(index, terms, signs)` (`src/wf/derive.py:16-54`); `index` is `'i-k'`, here the pair of
numbers. -/
def replace {T F : Type} [DecidableEq F] (E : Env T F) (w : Wf T F) (i k : ℕ) (terms : List T)
    (signs : List Str) : Option (Wf T F) :=
  if terms.length ≠ signs.length then none
  else
    (mapOpt parseSign signs).bind fun ss =>
    w.eqs[i]?.bind fun e =>
    let j := (parseIndex e k).1
    let m := (parseIndex e k).2
    ((if j then e.left else e.right)[m]?).bind fun old =>
    let new := if old.1 = .pos then ss.zip terms else (ss.map Sign.flip).zip terms
    build E (rebuild w.eqs i j m new) w.unknowns w.bc

/-- `delete(index)` (`src/wf/derive.py:302-305`). -/
def delete {T F : Type} [DecidableEq F] (E : Env T F) (w : Wf T F) (i k : ℕ) : Option (Wf T F) :=
  replace E w i k [] []

/-- All signs of one side switched (`src/wf/derive.py:272-280`). -/
def flipSide {T : Type} (l : List (Sign × T)) : List (Sign × T) := l.map fun p => (p.1.flip, p.2)

/-- `switch_sign(rows)` (`src/wf/derive.py:252-288`). -/
def switchSign {T F : Type} [DecidableEq F] (E : Env T F) (w : Wf T F) (rows : List ℤ) :
    Option (Wf T F) :=
  if ∀ r ∈ rows, 0 ≤ r ∧ r < (w.eqs.length : ℤ) then
    build E (w.eqs.zipIdx.map fun p =>
      if (p.2 : ℤ) ∈ rows then ⟨flipSide p.1.left, flipSide p.1.right⟩ else p.1) w.unknowns w.bc
  else none

/-! ### Rearranging -/

/-- `str(m)`. -/
def str (m : ℕ) : Str := Nat.toDigits 10 m

/-- `int(s)` for a text of ASCII digits; `int('')` raises. -/
def readInt (s : Str) : Option ℕ := if s = [] then none else some (Nat.ofDigitChars 10 s 0)

/-- One side given only: the other side gets the rest (`src/wf/derive.py:151-166`). -/
def complete (n : ℕ) (lt rt : List Str) : List Str × List Str :=
  if rt = [[]] ∧ lt.length < n then (lt, ((List.range n).map str).filter fun s => decide (s ∉ lt))
  else if lt = [[]] ∧ rt.length < n then
    (((List.range n).map str).filter fun s => decide (s ∉ rt), rt)
  else (lt, rt)

/-- `['']` means nothing on this side (`src/wf/derive.py:168-176`). -/
def given (l : List Str) : List Str := if l = [[]] then [] else l

/-- The checks on one pattern `ri` for an equation with `n` terms (`src/wf/derive.py:129-188`).
`str.isnumeric` also accepts non-ASCII digits; such patterns are refused further on (by `int` or by
the lookup `wf['i-k']`), so only ASCII digits are kept here. -/
def parsePattern (n : ℕ) (s : Str) : Option (List Str × List Str) :=
  match split '=' (removeSpaces (if '=' ∈ s then s else s ++ ['='])) with
  | [l, r] =>
    let digits := l.filter (· ≠ ',') ++ r.filter (· ≠ ',')
    if digits = [] ∨ digits.all Char.isDigit = false then none
    else
      let p := complete n (split ',' l) (split ',' r)
      (mapOpt readInt (given p.1 ++ given p.2)).bind fun ns =>
        if ns.all (fun m => decide (m < n)) = false then none
        else if (ns.insertionSort (· ≤ ·)).map str ≠ (List.range n).map str then none
        else some (given p.1, given p.2)
  | _ => none

/-- `self._wf[target_index]` (`src/wf/derive.py:194-195`, `211-212`, `src/wf/main.py:600-605`): a
term is found by the text of its number. -/
def lookup {T : Type} (e : Eqn T) (k : Str) : Option (ℕ × Sign × T) :=
  ((e.left ++ e.right).zipIdx.find? fun p => decide (str p.2 = k)).map fun p => (p.2, p.1)

/-- The terms of one new side (`src/wf/derive.py:190-226`): a term that comes from the other side
gets the opposite sign. -/
def collect {T : Type} (e : Eqn T) (toLeft : Bool) (ks : List Str) : Option (List (Sign × T)) :=
  mapOpt (fun k => (lookup e k).map fun p =>
    if (parseIndex e p.1).1 = toLeft then p.2 else (p.2.1.flip, p.2.2)) ks

/-- One equation rearranged. -/
def rearrangeEqn {T : Type} (e : Eqn T) (s : Str) : Option (Eqn T) :=
  (parsePattern (e.left.length + e.right.length) s).bind fun p =>
    (collect e true p.1).bind fun l => (collect e false p.2).map fun r => ⟨l, r⟩

/-- What is done with equation `i`: `None` and `''` leave it alone (`src/wf/derive.py:124-126`,
`228-233`). -/
def rearrangeAt {T : Type} (d : Dict ℤ (Option Str)) (i : ℕ) (e : Eqn T) : Option (Eqn T) :=
  match d.get (i : ℤ) with
  | none => some e
  | some none => some e
  | some (some s) => if s = [] then some e else rearrangeEqn e s

/-- The loop over the equations. -/
def rearrangeAll {T : Type} (d : Dict ℤ (Option Str)) : ℕ → List (Eqn T) → Option (List (Eqn T))
  | _, [] => some []
  | i, e :: es => (rearrangeAt d i e).bind fun e' => (rearrangeAll d (i + 1) es).map fun r => e' :: r

/-- `rearrange(dict)` (`src/wf/derive.py:99-240`). -/
def rearrange {T F : Type} [DecidableEq F] (E : Env T F) (w : Wf T F) (d : Dict ℤ (Option Str)) :
    Option (Wf T F) :=
  if ∀ i ∈ d.keys, 0 ≤ i ∧ i < (w.eqs.length : ℤ) then
    (rearrangeAll d 0 w.eqs).bind fun es => build E es w.unknowns w.bc
  else none

/-- `rearrange(list)` (`src/wf/derive.py:103-112`). -/
def rearrangeList {T F : Type} [DecidableEq F] (E : Env T F) (w : Wf T F)
    (l : List (Option Str)) : Option (Wf T F) :=
  if l.length ≠ w.eqs.length then none
  else rearrange E w (l.zipIdx.map fun p => ((p.2 : ℤ), p.1))

/-! ### Merging -/

/-- `ph.merge`-style construction from several formulations (`src/wf/main.py:467-486`): equations
one after the other; the unknowns are not passed on. -/
def merge {T F : Type} [DecidableEq F] (E : Env T F) (ws : List (Wf T F)) : Option (Wf T F) :=
  build E (ws.flatMap Wf.eqs) none 0

end Phyem.WeakForm
