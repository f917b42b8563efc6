import Verif.Base.Dict
import Mathlib.Algebra.Order.Field.Rat
import Mathlib.Data.List.GetD

/-!
# Which cochains and vectors share their data

Model of how the objects of `/repo/msehtt/static/form/cochain/{main,instant}.py`, `/repo/msehtt/static/form/main.py:88-113` and
`/repo/msehtt/tools/vector/static/local.py` keep references to each other. An object is a cochain at a time or a local vector; it
keeps data of its own, or a reference to an object that was made before it and is asked again for every reading. Sizes and
gathering matrices are left out here (they are in `Verif.Instant.Model`); all readings succeed. Times are already rounded.
-/

namespace Phyem.Instant.Store

open Phyem

/-- The values of all elements. -/
abbrev Data := ℕ → List ℚ

/-- What an object keeps: data of its own (`'dict'`; dictionaries the user changes afterwards are not modelled); the callable
`___coboundary_callable___` of a cochain (`instant.py:146-148`); another object, which is a local vector kept by a cochain
(`instant.py:54-57`) or the cochain behind a cochain vector (`___cochain_caller___`, `instant.py:125-127` and
`cochain/main.py:217-224`); a multiple of a vector (`local.py:243-250, 280-285`). -/
inductive Src
  | data (d : Data)
  | cob (E : ℕ → List ℚ → List ℚ) (i : ℕ)
  | same (i : ℕ)
  | scaled (c : ℚ) (i : ℕ)

/-- The object that is asked again. -/
def Src.ref : Src → Option ℕ
  | .data _ => none
  | .cob _ i => some i
  | .same i => some i
  | .scaled _ i => some i

/-- A cochain at a time, a local vector, or a cochain vector (`cochain/vector/static.py`), which is a local vector of another
class. -/
inductive Kind
  | inst | vec | cvec
deriving DecidableEq

/-- An object: what it is, what it keeps, and its customizations (only of vectors). -/
structure Obj where
  kind : Kind
  src : Src
  cus : Dict ℕ (List ℚ)

/-- The values of an object (`instant.py:72-89`, `local.py:166-183, 198-204`), where `val` are those of the other objects. -/
def Obj.eval (val : ℕ → Data) (o : Obj) : Data := fun e =>
  match Dict.get o.cus e with
  | some v => v
  | none =>
    match o.src with
    | .data d => d e
    | .cob E i => E e (val i e)
    | .same i => val i e
    | .scaled c i => (val i e).map fun x => c * x

/-- The values of all objects, where each asks the objects before it. -/
def evalAll (objs : List Obj) : List Data :=
  objs.foldl (fun vs o => vs ++ [o.eval fun i => vs.getD i fun _ => []]) []

/-- All objects in the order in which they were made, and the cochains of the forms (`_tcd`, `cochain/main.py:80-82`): form and time
give the object. -/
structure St where
  objs : List Obj
  bound : Dict (ℕ × ℚ) ℕ

/-- Nothing has been made. -/
def St.init : St := ⟨[], []⟩

/-- What one reads from an object. -/
def St.value (s : St) (k : ℕ) : Data := (evalAll s.objs).getD k fun _ => []

/-- What one reads from a form at a time. -/
def St.read (s : St) (f : ℕ) (t : ℚ) : Option Data := (Dict.get s.bound (f, t)).map s.value

/-- What kind of object number `j` is. -/
def St.kind (s : St) (j : ℕ) : Option Kind := s.objs[j]?.map Obj.kind

/-- A new object. -/
def St.make (s : St) (o : Obj) : St := ⟨s.objs ++ [o], s.bound⟩

/-- A new cochain of form `f` at time `t` (`cochain/main.py:52-86`). With automatic cleaning, which is off unless asked for, forms also
forget old times; this is in `Verif.Cochain`. -/
def St.bind (s : St) (f : ℕ) (t : ℚ) (src : Src) : St :=
  ⟨s.objs ++ [⟨.inst, src, []⟩], Dict.put s.bound (f, t) s.objs.length⟩

/-- What a user does. -/
inductive Op
  /-- `f[t].cochain = d` with a dictionary. -/
  | set (f : ℕ) (t : ℚ) (d : Data)
  /-- `f[t].cochain = v` with a local vector (not a cochain vector, `instant.py:54`). -/
  | setVec (f : ℕ) (t : ℚ) (j : ℕ)
  /-- `v.override()` of the cochain vector of `f` at `t` (`cochain/vector/static.py:17-20`), which takes the values of the vector
  (`local.py:219-224`). -/
  | override (f : ℕ) (t : ℚ) (j : ℕ)
  /-- `f' = f.d()` (`form/main.py:91-113`): a new form with a cochain for each time of `f`. -/
  | d (f f' : ℕ) (E : ℕ → List ℚ → List ℚ)
  /-- A change of the cochain object of `f` at `t`: `c += …` and `c.homogenous()` (`instant.py:236-262, 284-295`); afterwards it keeps a
  dictionary with what `g` gives for its values. -/
  | change (f : ℕ) (t : ℚ) (g : Data → Data)
  /-- `f.cochain.static_vec(t)` (`cochain/main.py:217-224`). -/
  | static (f : ℕ) (t : ℚ)
  /-- A new local vector with data of its own. -/
  | vec (d : Data)
  /-- `c * v`, and `- v` with `c = -1`. Of a cochain vector this raises, as the class is called with two arguments. -/
  | scale (c : ℚ) (j : ℕ)
  /-- `v + w` and `v - w` of vectors and of cochains (`local.py:252-278`, `instant.py:212-234, 264-282`): computed at once. If the first is
  a cochain vector it raises as before. -/
  | combine (op : List ℚ → List ℚ → List ℚ) (j k : ℕ)
  /-- `v.customize.set_value(…)` (`local.py:308-360`): element `e` of vector `j` now gives `v`. -/
  | customize (j e : ℕ) (v : List ℚ)
  /-- `v._receive_data(d)` (`local.py:113-153`): the data of vector `j` are renewed and its customizations forgotten. -/
  | renew (j : ℕ) (d : Data)

/-- `f.d()`: the times of `f` one after the other (`form/main.py:109-111`). -/
def derive (f f' : ℕ) (E : ℕ → List ℚ → List ℚ) : List ((ℕ × ℚ) × ℕ) → St → St
  | [], s => s
  | (key, i) :: l, s => derive f f' E l (if key.1 = f then s.bind f' key.2 (.cob E i) else s)

/-- The state after an operation; operations on things that do not exist, or are of the wrong class, raise and change nothing. The name of
the new form of `d` is one that no form has. -/
def step (s : St) : Op → St
  | .set f t d => s.bind f t (.data d)
  | .setVec f t j => if s.kind j = some .vec then s.bind f t (.same j) else s
  | .override f t j => if s.kind j = some .cvec then s.bind f t (.data (s.value j)) else s
  | .d f f' E => if ∃ p ∈ s.bound, p.1.1 = f' then s else derive f f' E s.bound s
  | .change f t g =>
    match Dict.get s.bound (f, t) with
    | some i => ⟨s.objs.set i ⟨.inst, .data (g (s.value i)), []⟩, s.bound⟩
    | none => s
  | .static f t =>
    match Dict.get s.bound (f, t) with
    | some i => s.make ⟨.cvec, .same i, []⟩
    | none => s
  | .vec d => s.make ⟨.vec, .data d, []⟩
  | .scale c j => if s.kind j = some .vec then s.make ⟨.vec, .scaled c j, []⟩ else s
  | .combine op j k =>
    if (s.kind j = some .vec ∨ s.kind j = some .inst) ∧ (s.kind k).isSome then
      s.make ⟨.vec, .data fun e => op (s.value j e) (s.value k e), []⟩
    else s
  | .customize j e v =>
    match s.objs[j]? with
    | some o => if o.kind = .inst then s else ⟨s.objs.set j { o with cus := Dict.put o.cus e v }, s.bound⟩
    | none => s
  | .renew j d =>
    match s.objs[j]? with
    | some o => if o.kind = .inst then s else ⟨s.objs.set j ⟨o.kind, .data d, []⟩, s.bound⟩
    | none => s

/-- A program. -/
def run (s : St) (ops : List Op) : St := ops.foldl step s

end Phyem.Instant.Store
