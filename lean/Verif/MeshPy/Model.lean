import Verif.Base.Dict
import Verif.Sections.Model
import Mathlib.Algebra.Order.Round
import Mathlib.Data.Real.Archimedean

/-!
A mesh of triangles inside of a polygon, made by the library `meshpy` and taken over (`msehtt/static/mesh/great/config/meshpy_.py`).

`triangle.build` is not modelled: the points and the triangles it gives are arbitrary. Numbers are real numbers: no rounding but the one the code asks
for. Not modelled: the warning about bad triangles (`meshpy_.py:112-122`), what `MseHttVtuInterface` makes of the result.
-/

namespace Phyem.MeshPy

open Phyem.Dict
open Classical

/-- `___round_trip_connect___` (`meshpy_.py:143-148`) of `range(n)` (`meshpy_.py:58-59`). -/
def roundTrip (n : ℕ) : List (ℕ × ℕ) := (List.range n).map fun i => (i, (i + 1) % n)

/-- `"%.9f" % round(x, 9)` (`meshpy_.py:76`): a minus sign for negative numbers, even if nothing is left of them, and the nine digits after the point. Of
two numbers with nine digits that are equally far away the greater one is taken. -/
noncomputable def nine (x : ℝ) : Bool × ℤ := (decide (x < 0), round (x * 10 ^ 9))

/-- The text of a point (`meshpy_.py:76`, `meshpy_.py:124-126`). -/
noncomputable def key (P : ℝ × ℝ) : (Bool × ℤ) × (Bool × ℤ) := (nine P.1, nine P.2)

/-- The text of a point. -/
abbrev Key := (Bool × ℤ) × (Bool × ℤ)

/-- One point is numbered (`meshpy_.py:74-82`): the dictionary `renumbering` and the values of `COO`, whose keys are `0, 1, …`. -/
noncomputable def number (s : Dict Key ℕ × List (ℝ × ℝ)) (P : ℝ × ℝ) : Dict Key ℕ × List (ℝ × ℝ) :=
  if (get s.1 (key P)).isSome then s else (put s.1 (key P) s.2.length, s.2 ++ [P])

/-- All points are numbered (`meshpy_.py:69-82`). -/
noncomputable def numbering (pts : List (ℝ × ℝ)) : Dict Key ℕ × List (ℝ × ℝ) := pts.foldl number ([], [])

/-- `(b2 + c2 - a2) / (2 * b * c)` of numpy's numbers (`meshpy_.py:102-109`): with a zero in the denominator no number that can be compared, or
an infinite one. -/
noncomputable def cosine (a b c : ℝ) : Option ℝ := if 2 * b * c = 0 then none else some ((b ^ 2 + c ^ 2 - a ^ 2) / (2 * b * c))

/-- `-1 < alpha < 1`. -/
noncomputable def proper (c : Option ℝ) : Bool := c.elim false fun x => decide (-1 < x ∧ x < 1)

/-- `distance` (`tools/functions/space/_2d/distance.py:6-8`), as `Sections.distance2` up to signs under squares. -/
noncomputable def dist (p q : ℝ × ℝ) : ℝ := √((p.1 - q.1) ^ 2 + (p.2 - q.2) ^ 2)

/-- Whether a triangle is taken over (`meshpy_.py:96-111`). -/
noncomputable def taken (A B C : ℝ × ℝ) : Bool :=
  let a := dist B C
  let b := dist A C
  let c := dist A B
  proper (cosine a b c) && proper (cosine b a c) && proper (cosine c a b)

/-- One triangle (`meshpy_.py:88-134`): its numbers, or nothing if it is not taken over. `none`: an exception. -/
noncomputable def triangle (pts : List (ℝ × ℝ)) (ren : Dict Key ℕ) : List ℕ → Option (Option (ℕ × ℕ × ℕ))
  | [i, j, k] => (pts[i]?).bind fun A => (pts[j]?).bind fun B => (pts[k]?).bind fun C =>
    if taken A B C then
      (get ren (key A)).bind fun a => (get ren (key B)).bind fun b => (get ren (key C)).map fun c => some (a, b, c)
    else some none
  | _ => none

/-- `___case_0_parser___` (`meshpy_.py:66-139`) for the points and triangles of `triangle.build`: the places of the nodes `0, 1, …`, and the
nodes of the elements `0, 1, …`. -/
noncomputable def parse (pts : List (ℝ × ℝ)) (tris : List (List ℕ)) : Option (List (ℝ × ℝ) × List (ℕ × ℕ × ℕ)) :=
  (tris.mapM (triangle pts (numbering pts).1)).map fun l => ((numbering pts).2, l.filterMap id)

end Phyem.MeshPy
