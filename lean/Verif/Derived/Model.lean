import Verif.Cochain.Lemmas
import Verif.Chaining.Vec
import Mathlib.Algebra.BigOperators.Group.Finset.Basic

/-!
Sums, differences and exterior derivatives of forms, whose cochains are computed from those of the given forms when they are asked for (`msepy/form/main.py`,
`msepy/form/cochain/passive.py`, `msepy/form/cochain/time_instant.py`), the values of single dofs, and sums of functions that are given by region
(`tools/functions/region_wise_wrapper.py`).

Cochains of base forms are those of the area `Cochain`. A local cochain is a function of the element and the local index; its shape is not modelled, as forms
are added only if they are in the same space. The continuous forms that are set along are not modelled.
-/

namespace Phyem.Derived

open Phyem.Dict Phyem.Cochain Phyem.Chaining

/-- A local cochain: by element and local index. -/
abbrev Mat := ℕ → ℕ → ℚ

/-- A base form, or a form that was made by `+`, `-` or `d`; `E` is the incidence matrix with `n` columns. -/
inductive Form where
  | base (i : ℕ)
  | add (a b : Form)
  | sub (a b : Form)
  | d (n : ℕ) (E : ℕ → ℕ → ℤ) (a : Form)

/-- The cochains of the base forms. -/
abbrev World := ℕ → S Mat

/-- `_ChainReferenceCochains.newest` for two cochains (`passive.py:62-73`). -/
def joint : Option ℚ → Option ℚ → Option ℚ
  | some s, some t => if t = s then some s else none
  | _, _ => none

/-- `form.cochain.newest` (`main.py:80-88`, `passive.py:30-32`, `62-73`). -/
def newest (w : World) : Form → Option ℚ
  | .base i => (w i).newest
  | .add a b => joint (newest w a) (newest w b)
  | .sub a b => joint (newest w a) (newest w b)
  | .d _ _ a => newest w a

/-- `_parse_t` (`main.py:31-35`, `passive.py:26-28`, `53-60`). `none`: times differ. -/
def parse : Form → ℚ → Option ℚ
  | .base _, t => some (parseT t)
  | .add a b, t => joint (parse a t) (parse b t)
  | .sub a b, t => joint (parse a t) (parse b t)
  | .d _ _ a, t => parse a t

/-- The time at which a cochain is taken: `passive.py:36-40`. `none`: an error is raised. -/
def instant (w : World) (f : Form) (t : Option ℚ) : Option ℚ :=
  match t with
  | some t => parse f t
  | none => (newest w f).bind (parse f)

/-- `np.einsum('ij, kj -> ki', E, c)` (`form/main.py:218-222`). -/
def applyD (n : ℕ) (E : ℕ → ℕ → ℤ) (c : Mat) : Mat := fun e k => ∑ j ∈ Finset.range n, (E k j : ℚ) * c e j

/-- `form.cochain[t].local` (`form/main.py:216-223`, `260-263`, `293-296`; `passive.py:34-43`; `time_instant.py:45-60`). `none`: an error is raised. -/
def loc (w : World) : Form → Option ℚ → Option Mat
  | .base i, t => getItem (w i) t
  | .add a b, t => (instant w (.add a b) t).bind fun s => (loc w a (some s)).bind fun x => (loc w b (some s)).map fun y => fun e k => x e k + y e k
  | .sub a b, t => (instant w (.sub a b) t).bind fun s => (loc w a (some s)).bind fun x => (loc w b (some s)).map fun y => fun e k => x e k - y e k
  | .d n E a, t => (instant w (.d n E a) t).bind fun s => (loc w a (some s)).map fun x => applyD n E x

/-- A base form is given a cochain at a time, without automatic cleaning (`form/cochain/main.py:37-78`). -/
def setAt (w : World) (i : ℕ) (t : ℚ) (c : Mat) : World := fun j => if j = i then (setPy .off (w i) t (some c)).2 else w j

/-- `cochain.of_dof(i, average)` (`time_instant.py:62-77`) without redundant dofs; `i` is an integer (`gathering_matrix.py:286-291`, `307-315`). `none`: an
error is raised. -/
def ofDof (g : GM) (c : Mat) (i : ℤ) (average : Bool) : Option ℚ :=
  (numDofs g).bind fun n =>
    let k := if i < 0 then (n : ℤ) + i else i
    if 0 ≤ k ∧ k < n then
      let values := (whereGM g k.toNat).map fun q => c q.1 q.2
      if average then (if values = [] then none else some (values.sum / values.length)) else values.head?
    else none

/-- The loop of `__sub__` and `__add__` (`region_wise_wrapper.py:23-24`, `38-39`). `none`: a `KeyError`. -/
def byRegion {K F : Type} [DecidableEq K] (op : F → F → F) (b : Dict K F) : Dict K F → Option (Dict K F)
  | [] => some []
  | (k, x) :: a => (get b k).bind fun y => (byRegion op b a).map fun r => (k, op x y) :: r

/-- `RegionWiseFunctionWrapper.__sub__` and `__add__` (`region_wise_wrapper.py:16-44`). `none`: an error is raised. -/
def combine {K F : Type} [DecidableEq K] (op : F → F → F) (a b : Dict K F) : Option (Dict K F) :=
  if b.length = a.length then byRegion op b a else none

/-- `RegionWiseFunctionWrapper.__neg__` (`region_wise_wrapper.py:10-14`). -/
def negate {K F : Type} (neg : F → F) (a : Dict K F) : Dict K F := a.map fun p => (p.1, neg p.2)

end Phyem.Derived
