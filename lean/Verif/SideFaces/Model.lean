import Verif.Base.Dict
import Mathlib.Data.Int.Basic

/-!
Faces of boundary sections (`msepy/mesh/boundary_section/faces.py`).

A region has a number and a shape, the numbers of its elements along the axes; `num ri idx` is `base.elements._numbering[ri][idx]`.
-/

namespace Phyem.SideFaces

open Phyem.Dict

/-- An element, an axis and a side. -/
abbrev Face := ℕ × ℕ × ℕ

/-- The indices of an array of this shape in the order of `ravel('F')`: the first axis is the fastest. -/
def box : List ℕ → List (List ℕ)
  | [] => [[]]
  | n :: s => (box s).flatMap fun t => (List.range n).map (· :: t)

/-- The faces on side `j` of a region (`faces.py:32-71`): the elements with index `N` along axis `m`. -/
def side (num : ℕ → List ℕ → ℕ) (ri : ℕ) (shape : List ℕ) (j : ℕ) : List Face :=
  let m := j / 2
  let n := j % 2
  (box (shape.eraseIdx m)).map fun t => (num ri (t.insertIdx m (if n = 0 then 0 else (shape[m]?).getD 0 - 1)), m, n)

/-- The loop over the sides of a region (`faces.py:28-74`); `true`: the section covers the side. `inner ri j`: `base_map[ri][j]` is not `None`.
`none`: an error is raised. -/
def sides (num : ℕ → List ℕ → ℕ) (inner : ℕ → ℕ → Bool) (ri : ℕ) (shape : List ℕ) : ℕ → List Bool → Option (List Face)
  | _, [] => some []
  | j, true :: l =>
    if inner ri j then none else
    if (shape.length = 2 ∨ shape.length = 3) ∧ j / 2 < shape.length then (sides num inner ri shape (j + 1) l).map (side num ri shape j ++ ·) else none
  | j, false :: l => sides num inner ri shape (j + 1) l

/-- `_initialize_elements` (`faces.py:19-81`) for the map of the regions of the section. -/
def faces (num : ℕ → List ℕ → ℕ) (inner : ℕ → ℕ → Bool) (shape : ℕ → List ℕ) : List (ℕ × List Bool) → Option (List Face)
  | [] => some []
  | (ri, l) :: rest => (sides num inner ri (shape ri) 0 l).bind fun a => (faces num inner shape rest).map (a ++ ·)

/-- The faces that a mesh keeps (`msepy/mesh/main.py:43`), each an object with a number, and the number of the next object. -/
structure Kept where
  dict : Dict Face ℕ
  next : ℕ

/-- `self._elements_m_n[:, i]` (`faces.py:125`): negative numbers count from the end. `none`: an `IndexError`. -/
def column (F : List Face) (i : ℤ) : Option Face :=
  if 0 ≤ i then F[i.toNat]? else if -(F.length : ℤ) ≤ i then F[(F.length + i).toNat]? else none

/-- `__getitem__` (`faces.py:123-138`) with an integer: the key and the object, or an error. -/
def item (F : List Face) (i : ℤ) (k : Kept) : Option (Face × ℕ) × Kept :=
  match column F i with
  | none => (none, k)
  | some key => match get k.dict key with
    | some o => (some (key, o), k)
    | none => if 0 ≤ i ∧ i < F.length then (some (key, k.next), ⟨put k.dict key k.next, k.next + 1⟩) else (none, k)

/-- A history of reading faces of sections of one mesh: what is given each time. -/
def reads : List (List Face × ℤ) → Kept → List (Option (Face × ℕ))
  | [], _ => []
  | (F, i) :: rest, k => (item F i k).1 :: reads rest (item F i k).2

end Phyem.SideFaces
