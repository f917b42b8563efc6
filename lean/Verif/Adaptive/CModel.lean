import Mathlib.Data.List.Basic
import Mathlib.Data.Nat.Notation

/-!
How cochains get from one generation to the next: `renew` with a method
(`msehtt/adaptive/main.py:201-226, 254-295`, `msehtt/adaptive/form/renew/main.py`), and the local interpolation
(`msehtt/adaptive/form/renew/method_3_local_interpolation.py`), which remembers what it found out about meshes by the
addresses of objects.

Simplified: one rank; the values the interpolation gives are a function of the elements the old form is reconstructed in and
of the new element; `homogenous()`, which makes cochains at shared dofs equal after that, is not modelled.
`none` is an exception.
-/

namespace Phyem.Adaptive

/-! ### Elements -/

/-- The index of an element: the cell of the base mesh, the letter and the numbers of a triangle in that, and the parts of
the triangle splitting, by type and number (`static/mesh/great/config/msehtt_trf.py:270-315`,
`static/mesh/great/main.py:941-999`). -/
structure Idx where
  cell : ℕ
  tri : Option (Char × List ℕ)
  parts : List (ℕ × ℕ)
  deriving DecidableEq

/-- `str` of a natural number. -/
def digits (n : ℕ) : List Char := Nat.toDigits 10 n

/-- `str` of a cell or of the tuple of a triangle. -/
def core (e : Idx) : List Char :=
  match e.tri with
  | none => digits e.cell
  | some (d, l) =>
    '(' :: (digits e.cell ++ (',' :: ' ' :: '\'' :: d :: '\'' :: (l.flatMap fun k => ',' :: ' ' :: digits k)) ++ [')'])

/-- The index as a text; without triangle splitting it is a number or a tuple and no text. -/
def text (e : Idx) : Option (List Char) :=
  if e.parts = [] then none
  else some (core e ++ e.parts.flatMap fun p => ':' :: digits p.1 ++ '>' :: digits p.2)

/-- `int` of digits; other texts that `int` accepts do not occur. -/
def readNat (l : List Char) : Option ℕ :=
  if l ≠ [] ∧ l.all (fun c => c.isDigit) then some (Nat.ofDigitChars 10 l 0) else none

/-- `___find_base_element_index___` (`method_3_local_interpolation.py:375-382`) of a text. -/
def baseIndex : List Char → Option ℕ
  | [] => none
  | c :: e =>
    if c = '(' then readNat ((((c :: e).takeWhile fun d => d ≠ ')').drop 1).takeWhile fun d => d ≠ ',')
    else if ':' ∈ c :: e then readNat ((c :: e).takeWhile fun d => d ≠ ':')
    else none

/-- `___find_base_element_index___` of an index. -/
def baseOf (e : Idx) : Option ℕ := (text e).bind baseIndex

/-! ### What is remembered by addresses -/

/-- `composition` of a mesh: its address and its elements. -/
structure Comp where
  addr : ℕ
  elems : List Idx
  deriving DecidableEq

/-- `___compare_two_meshes_cache___`: the two addresses, the changed elements, the address of that list, and whether all are
the same. -/
structure Compared where
  id0 : ℕ
  id1 : ℕ
  changed : List Idx
  addr : ℕ
  same : Bool

/-- A list of base elements and its address. -/
structure Bases where
  cells : List ℕ
  addr : ℕ

/-- All caches of the module. -/
structure Cache where
  cmp : Option Compared := none
  needed : Option (ℕ × Bases) := none
  bcast : Option (ℕ × Bases) := none
  ff : Option ((ℕ × ℕ) × List Idx) := none
  tf : Option ((ℕ × ℕ) × List Idx) := none

/-- `compare_two_meshes` (`method_3_local_interpolation.py:302-372`); `a` is the address of the new list, if one is made. -/
def compare (c : Cache) (m0 m1 : Comp) (a : ℕ) : Cache × Compared :=
  let new : Compared :=
    let changed := m1.elems.filter fun e => e ∉ m0.elems
    ⟨m0.addr, m1.addr, changed, a, changed.isEmpty⟩
  match c.cmp with
  | none => ({ c with cmp := some new }, new)
  | some r => if m0.addr = r.id0 ∧ m1.addr = r.id1 then (c, r) else ({ c with cmp := some new }, new)

/-- `___find_needed_base_element_indices___` (`method_3_local_interpolation.py:391-405`); `b` is the address of the new list,
if one is made. -/
def neededCells (c : Cache) (r : Compared) (b : ℕ) : Option (Cache × Bases) :=
  let new := (r.changed.mapM baseOf).map fun cells => (⟨cells, b⟩ : Bases)
  match c.needed with
  | none => new.map fun B => ({ c with needed := some (r.addr, B) }, B)
  | some (i, B) => if r.addr = i then some (c, B) else new.map fun B => ({ c with needed := some (r.addr, B) }, B)

/-- `___bcast___` (`method_3_local_interpolation.py:414-422`). -/
def broadcast (c : Cache) (B : Bases) : Cache × Bases :=
  match c.bcast with
  | none => ({ c with bcast := some (B.addr, B) }, B)
  | some (i, B') => if B.addr = i then (c, B') else ({ c with bcast := some (B.addr, B) }, B)

/-- The elements in base elements (`method_3_local_interpolation.py:438-447, 464-471`). -/
def within (B : Bases) (m : Comp) : Option (List Idx) :=
  (m.elems.mapM fun e => (baseOf e).map fun i => (e, decide (i ∈ B.cells))).map fun l =>
    (l.filter fun p => p.2).map fun p => p.1

/-- `___find_ff_reconstruction_elements___` (`method_3_local_interpolation.py:431-448`). -/
def ffElements (c : Cache) (B : Bases) (m : Comp) : Option (Cache × List Idx) :=
  let new := (within B m).map fun l => ({ c with ff := some ((B.addr, m.addr), l) }, l)
  match c.ff with
  | none => new
  | some (i, l) => if i = (B.addr, m.addr) then some (c, l) else new

/-- `___find_tf_reconstruction_elements___` (`method_3_local_interpolation.py:457-472`). -/
def tfElements (c : Cache) (B : Bases) (m : Comp) : Option (Cache × List Idx) :=
  let new := (within B m).map fun l => ({ c with tf := some ((B.addr, m.addr), l) }, l)
  match c.tf with
  | none => new
  | some (i, l) => if i = (B.addr, m.addr) then some (c, l) else new

/-- A call for a form: its meshes of the generation before and of the current one, the addresses the two lists get if they
are made, and the cochain of the generation before. -/
structure Call (V : Type) where
  m0 : Comp
  m1 : Comp
  a : ℕ
  b : ℕ
  old : Idx → V

/-- `fc[e]`: there are cochains in the elements of the generation before. -/
def Call.fetch {V : Type} (k : Call V) (e : Idx) : Option V := if e ∈ k.m0.elems then some (k.old e) else none

/-- `MseHtt_FormCochainRenew_Method3_LocalInterpolation.__call__` for one cochain
(`method_3_local_interpolation.py:37-90, 92-166`): whether all elements are the same, and the new cochain. -/
def renewCochain {V : Type} (itp : (Idx → V) → List Idx → Idx → V) (c : Cache) (k : Call V) :
    Option (Cache × Bool × List (Idx × V)) :=
  let (c, r) := compare c k.m0 k.m1 k.a
  if r.same then
    if k.m1.elems.length = k.m0.elems.length then
      (k.m1.elems.mapM fun e => (k.fetch e).map fun v => (e, v)).map fun l => (c, true, l)
    else none
  else
    (neededCells c r k.b).bind fun (c, B) =>
      let (c, B) := broadcast c B
      (ffElements c B k.m0).bind fun (c, L) =>
        (tfElements c B k.m1).bind fun (c, N) =>
          (k.m1.elems.mapM fun e =>
            if e ∈ N then some (e, itp k.old L e) else (k.fetch e).map fun v => (e, v)).map fun l => (c, false, l)

/-- One call after another. -/
def renewAll {V : Type} (itp : (Idx → V) → List Idx → Idx → V) : Cache → List (Call V) →
    Option (List (Bool × List (Idx × V)))
  | _, [] => some []
  | c, k :: ks => (renewCochain itp c k).bind fun r => (renewAll itp r.1 ks).map fun l => r.2 :: l

/-! ### What `renew` returns -/

/-- A form when everything has been renewed: whether it is one of those that are asked for, how many cochains its generation
before has (`none`: there is no generation before), whether it is not at a time instant, and whether its mesh has the same
elements as before. -/
structure Asked where
  selected : Bool
  cochains : Option ℕ
  isBase : Bool
  same : Bool

/-- `use_method`. -/
inductive Method where
  | one | two | three | other

/-- What a method returns for a form (`form/renew/main.py:52-71`): `some none` is Python's `None`. Method 1 returns nothing
(`method_1_global_interpolation.py:27-74`), method 2 calls `compare_two_meshes`, which is not defined in its module
(`method_2_base_element.py:46`). -/
def byMethod (m : Method) (f : Asked) : Option (Option Bool) :=
  match m with
  | .one => some none
  | .two => none
  | .three => some (some f.same)
  | .other => none

/-- `___renew_root_form_cochains___` (`msehtt/adaptive/main.py:254-295`). -/
def formInfo (m : Method) : List Asked → Option (List (Option Bool))
  | [] => some []
  | f :: fs =>
    if f.selected then
      f.cochains.bind fun n =>
        if n = 0 then formInfo m fs
        else if f.isBase then (byMethod m f).bind fun i => (formInfo m fs).map fun l => i :: l
        else formInfo m fs
    else formInfo m fs

/-- The second part of `renew` (`msehtt/adaptive/main.py:205-226`): `'all same'` of what it returns. `'all same' in None`
raises. -/
def renewInfo (m : Method) (fs : List Asked) : Option Bool :=
  (formInfo m fs).bind fun l => (l.mapM fun i => i).map fun l => l.all fun b => b

end Phyem.Adaptive
