import Verif.Base.Dict

/-!
From abstract objects to an implementation (`src/fem.py`, and `msehtt/static/main.py` for root-forms).

Names and representations are numbers: two are the same iff their numbers are.
-/

namespace Phyem.Apply

open Phyem.Dict

/-- An abstract root-form: `_pure_lin_repr`, that of `_pAti_form['base_form']` if it is a form at a time instant, and whether it has a degree. -/
structure AForm where
  pure : ℕ
  base : Option ℕ
  degree : Bool
  deriving DecidableEq

/-- A form of the implementation: the abstract form, and the key of `_pAti_form['base_form']`. -/
structure PForm where
  abs : AForm
  base : Option ℕ
  deriving DecidableEq

/-- The first loop of `_parse_root_forms` (`msehtt/static/main.py:129-138`). -/
def general : List AForm → Dict ℕ PForm → Dict ℕ PForm
  | [], d => d
  | f :: fs, d => general fs (if f.base = none then put d f.pure ⟨f, none⟩ else d)

/-- The second loop (`msehtt/static/main.py:140-159`). `ats`: the forms at time instants of each form (`_ats_particular_forms`), the last first.
`none`: a `KeyError`. That a form at a time instant is not there yet is not checked again: the keys of the registry are different. -/
def instants : List AForm → Dict ℕ PForm × List (ℕ × ℕ) → Option (Dict ℕ PForm × List (ℕ × ℕ))
  | [], s => some s
  | f :: fs, (d, ats) => match f.base with
    | none => instants fs (d, ats)
    | some b => if b ∈ keys d then instants fs (put d f.pure ⟨f, some b⟩, (b, f.pure) :: ats) else none

/-- `_parse_root_forms` (`msehtt/static/main.py:126-167`) with the registered root-forms in the order of the registry. -/
def rootForms (fs : List AForm) : Option (Dict ℕ PForm × List (ℕ × ℕ)) :=
  (instants fs (general fs [], [])).bind fun s => if s.1.all fun p => p.2.abs.degree then some s else none

/-- What may be given to `apply`: a form that is a root-form or not, another object. -/
inductive Obj where
  | manifold (sym : ℕ)
  | mesh (sym : ℕ)
  | space (sym : ℕ)
  | form (root : Bool) (pure : ℕ)
  | other (id : ℕ)
  deriving DecidableEq

/-- The counterparts of an implementation, `base`, and `_parse`: counterparts of other objects. -/
structure Impl (P : Type) where
  manifolds : Dict ℕ P
  meshes : Dict ℕ P
  spaces : Dict ℕ P
  forms : Dict ℕ P
  parse : ℕ → Option P

/-- `_parse_obj` (`fem.py:115-145`). The outer `none`: a `KeyError`; the inner: `None`. -/
def parseObj {P : Type} (I : Impl P) : Obj → Option (Option P)
  | .manifold s => (get I.manifolds s).map some
  | .mesh s => (get I.meshes s).map some
  | .space s => some (get I.spaces s)
  | .form true p => some (get I.forms p)
  | .form false _ => some none
  | .other i => some (I.parse i)

/-- `if particular_obj is not None` (`fem.py:102-105`). -/
def keep {P : Type} (r : Dict ℕ P) (name : ℕ) : Option P → Dict ℕ P
  | some q => put r name q
  | none => r

/-- The loop of `apply` (`fem.py:98-105`). -/
def objects {P : Type} (I : Impl P) : Dict ℕ Obj → Dict ℕ P → Option (Dict ℕ P)
  | [], r => some r
  | (name, o) :: rest, r => (parseObj I o).bind fun p => objects I rest (keep r name p)

end Phyem.Apply
