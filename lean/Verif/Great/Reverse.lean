import Verif.Great.Lemmas
import Mathlib.Algebra.Order.Ring.Rat
import Mathlib.Algebra.Order.Group.Unbundled.Abs
import Mathlib.Algebra.Order.AbsoluteValue.Basic

/-!
Which dofs of 1-forms are reversed where elements of different types meet
(`msehtt/static/mesh/great/elements/main.py:463-715`).
-/

namespace Phyem.Great

open Phyem.Dict

/-- The element types in two dimensions (`elements/types/distributor.py`). -/
inductive Kind where
  | rectangle
  | msepyQuad
  | vtu9
  | curvedQuad
  | msepyTriangle
  | vtu5
  | curvedTriangle
deriving DecidableEq, Repr

/-- The index in the list `priority` (`main.py:532-538`, `main.py:572-578`); `none` for `-1`. -/
def priority : Kind → Option ℕ
  | .rectangle => none
  | .msepyQuad => none
  | .vtu9 => some 0
  | .curvedQuad => some 1
  | .msepyTriangle => some 2
  | .vtu5 => some 3
  | .curvedTriangle => some 4

/-- `np.isclose(a, b)` with the default tolerances, in exact arithmetic (simplification). -/
def isclose (a b : ℚ) : Bool := |a - b| ≤ 1 / 100000000 + 1 / 100000 * |b|

/-- One face of the pool (`main.py:654-697`), `value` being what the dof on a face has for the test field. The result
is the list of the places to be reversed, `none` an exception. -/
def mismatchAt (kind : ℕ → Kind) (value : Position → ℚ) : List Position → Option (List Position)
  | [_] => some []
  | [p, q] =>
    if isclose (value p) (value q) then some []
    else if isclose (value p) (-value q) then
      match priority (kind p.1), priority (kind q.1) with
      | none, none => none
      | some _, none => some [p]
      | none, some _ => some [q]
      | some a, some b => if b ≤ a then some [p] else some [q]
    else none
  | _ => none

/-- `___get_form_face_dof_topology_mismatch_m2n2k1___` (`main.py:588-702`) in the master rank. The assertion that the
dofs of a face have the same number (`main.py:646-650`) is left out: it is C50 that they have. -/
def mismatch (mesh : Mesh) (kind : ℕ → Kind) (value : Position → ℚ) : Option (List Position) :=
  (pool mesh).foldlM (fun places x => (mismatchAt kind value x.2).map fun new => places ++ new) []

/-- The nodes of a face. -/
def nodesAt (mesh : Mesh) (p : Position) : Option (List ℕ) :=
  (get mesh p.1).bind fun s => (faces s)[p.2]?

/-- The axis of the reference element along which the coordinate is constant on a face: `0` for the faces whose outer
dofs come first (`face_cochain_indices`, `main.py:559-567`: local outer dof `0` or `1` of a quadrilateral, `0` of a
triangle). -/
def isX : Shape → ℕ → Bool
  | .tri .., f => f == 1
  | .hex .., f => f == 0 || f == 1
  | .quad .., f => f == 0 || f == 1
  | .ccw .., f => f == 0 || f == 1

/-- The vector from the first to the second node of a face, `coo e n` being where element `e` has node `n` (on a
periodic mesh two elements may have the same node in different places). -/
def chord (coo : ℕ → ℕ → ℚ × ℚ) (e : ℕ) : List ℕ → ℚ × ℚ
  | [a, b] => ((coo e b).1 - (coo e a).1, (coo e b).2 - (coo e a).2)
  | _ => (0, 0)

/-- The dof of degree 1 of an inner 1-form on a face for a constant field, when the face is straight: the circulation
from the first to the second node (`reduce/Lambda/Rd_m2n2k1.py`, `reduce_Lambda__m2n2k1_inner`, `main.py:513-531`). -/
def innerValue (mesh : Mesh) (coo : ℕ → ℕ → ℚ × ℚ) (u : ℚ × ℚ) (p : Position) : ℚ :=
  match nodesAt mesh p with
  | some n => u.1 * (chord coo p.1 n).1 + u.2 * (chord coo p.1 n).2
  | none => 0

/-- The dof of degree 1 of an outer 1-form on a face for a constant field, when the face is straight
(`reduce_Lambda__m2n2k1_outer`, `Rd_m2n2k1.py:249-296`, `main.py:553-567`): `u Δy - v Δx` on a face where the first
reference coordinate is constant, the negative on one where the second is. -/
def outerValue (mesh : Mesh) (coo : ℕ → ℕ → ℚ × ℚ) (u : ℚ × ℚ) (p : Position) : ℚ :=
  match get mesh p.1, nodesAt mesh p with
  | some s, some n =>
    let flux := u.1 * (chord coo p.1 n).2 - u.2 * (chord coo p.1 n).1
    if isX s p.2 then flux else -flux
  | _, _ => 0

/-- The test field on a periodic mesh: `(test_field_2, test_field_3)` (`main.py:476-487`). -/
def testField : ℚ × ℚ := (-1, 1 / 2)

end Phyem.Great
