import Verif.Base.Dict
import Verif.Great.Model
import Verif.PoolGM.Model3
import Mathlib.Algebra.Order.Field.Rat

/-!
Model of the specific mesh `'periodic slice'` (`msehtt/static/mesh/great/config/specific_meshes/periodic_slice.py`,
chosen by `deliver.py` and called in `msehtt/static/mesh/great/main.py:464-475`): a box cut into boxes, periodic in all
directions. Floats are rationals (simplification).
-/

namespace Phyem.Slice

open Phyem.Dict Phyem.PoolGM

/-- `element_layout`: one number or a list of numbers (`periodic_slice.py:29-34`). Other types are not modelled. -/
inductive Layout where
  | one (k : ℤ)
  | many (l : List ℤ)

/-- `element_layout` as a list (`periodic_slice.py:29-32`). -/
def Layout.list : Layout → List ℤ
  | .one k => [k, k]
  | .many l => l

/-- An orthogonal hexahedron: `origin`, `delta` and the element map (`periodic_slice.py:69-87`, `111-133`). -/
structure Elem where
  origin : ℚ × ℚ × ℚ
  delta : ℚ × ℚ × ℚ
  hex : Hex
deriving DecidableEq

/-- `np.linspace(a, b, n + 1)[i]` (`periodic_slice.py:39`, `45`, `50`). -/
def linspace (a b : ℚ) (n i : ℕ) : ℚ := a + (b - a) * i / n

/-- `nodes_numbering` for one level (`periodic_slice.py:55-59`), entries that are still `-1` being `none`. The four
assignments one after the other. -/
def nodes2 (kx ky : ℕ) (i j : ℕ) : Option ℕ :=
  let part : ℕ → ℕ → Option ℕ := fun i j => some (i + kx * j)
  let a1 : ℕ → ℕ → Option ℕ := fun i j => if i < kx ∧ j < ky then part i j else none
  let a2 : ℕ → ℕ → Option ℕ := fun i j => if i = kx ∧ j < ky then part 0 j else a1 i j
  if j = ky then a2 i 0 else a2 i j

/-- `nodes_numbering` for two or more levels (`periodic_slice.py:92-100`). -/
def nodes3 (kx ky kz : ℕ) (i j k : ℕ) : Option ℕ :=
  let part : ℕ → ℕ → ℕ → Option ℕ := fun i j k => some (i + kx * j + kx * ky * k)
  let a1 : ℕ → ℕ → ℕ → Option ℕ := fun i j k => if i < kx ∧ j < ky ∧ k < kz then part i j k else none
  let a2 : ℕ → ℕ → ℕ → Option ℕ := fun i j k => if i = kx ∧ j < ky ∧ k < kz then part 0 j k else a1 i j k
  let a3 : ℕ → ℕ → ℕ → Option ℕ := fun i j k => if j = ky ∧ k < kz then a2 i 0 k else a2 i j k
  if k = kz then a3 i j 0 else a3 i j k

/-- An element for one level (`periodic_slice.py:69-83`): its index and itself. `none` where the assertion of
`periodic_slice.py:61` fails. -/
def elem2 (x0 x1 y0 y1 t : ℚ) (kx ky i j : ℕ) : Option (ℕ × Elem) := do
  let n0 ← nodes2 kx ky i j
  let n1 ← nodes2 kx ky (i + 1) j
  let n2 ← nodes2 kx ky i (j + 1)
  let n3 ← nodes2 kx ky (i + 1) (j + 1)
  let n4 ← nodes2 kx ky i j
  let n5 ← nodes2 kx ky (i + 1) j
  let n6 ← nodes2 kx ky i (j + 1)
  let n7 ← nodes2 kx ky (i + 1) (j + 1)
  pure (i + j * kx,
    ⟨(linspace x0 x1 kx i, linspace y0 y1 ky j, -t / 2),
      (linspace x0 x1 kx (i + 1) - linspace x0 x1 kx i, linspace y0 y1 ky (j + 1) - linspace y0 y1 ky j, t),
      ⟨n0, n1, n2, n3, n4, n5, n6, n7⟩⟩)

/-- An element for two or more levels (`periodic_slice.py:111-129`). -/
def elem3 (x0 x1 y0 y1 t : ℚ) (kx ky kz i j k : ℕ) : Option (ℕ × Elem) := do
  let n0 ← nodes3 kx ky kz i j k
  let n1 ← nodes3 kx ky kz (i + 1) j k
  let n2 ← nodes3 kx ky kz i (j + 1) k
  let n3 ← nodes3 kx ky kz (i + 1) (j + 1) k
  let n4 ← nodes3 kx ky kz i j (k + 1)
  let n5 ← nodes3 kx ky kz (i + 1) j (k + 1)
  let n6 ← nodes3 kx ky kz i (j + 1) (k + 1)
  let n7 ← nodes3 kx ky kz (i + 1) (j + 1) (k + 1)
  pure (i + j * kx + k * kx * ky,
    ⟨(linspace x0 x1 kx i, linspace y0 y1 ky j, linspace (-t / 2) (t / 2) kz k),
      (linspace x0 x1 kx (i + 1) - linspace x0 x1 kx i, linspace y0 y1 ky (j + 1) - linspace y0 y1 ky j,
        linspace (-t / 2) (t / 2) kz (k + 1) - linspace (-t / 2) (t / 2) kz k),
      ⟨n0, n1, n2, n3, n4, n5, n6, n7⟩⟩)

/-- The loops (`periodic_slice.py:67-87`, `108-133`): the index and the element at each pass, stored in dictionaries with
common keys, here one. -/
def store (l : List (Option (ℕ × Elem))) : Option (Dict ℕ Elem) :=
  (l.mapM id).map fun l => l.foldl (fun d x => put d x.1 x.2) []

/-- `periodic_slice(element_layout, bounds, thickness, levels)` (`periodic_slice.py:7-135`); `none`: an exception. -/
def slice (layout : Layout) (x0 x1 y0 y1 t : ℚ) (levels : ℤ) : Option (Dict ℕ Elem) :=
  if 0 < t ∧ x0 < x1 ∧ y0 < y1 ∧ 1 ≤ levels then
    match layout.list with
    | [k0, k1] =>
      if 0 < k0 ∧ 0 < k1 then
        let kx := k0.toNat
        let ky := k1.toNat
        let kz := levels.toNat
        if kz = 1 then
          store ((List.range ky).flatMap fun j => (List.range kx).map fun i => elem2 x0 x1 y0 y1 t kx ky i j)
        else
          store ((List.range kz).flatMap fun k => (List.range ky).flatMap fun j => (List.range kx).map fun i =>
            elem3 x0 x1 y0 y1 t kx ky kz i j k)
      else none
    | _ => none
  else none

/-- The call with the default number of levels (`periodic_slice.py:7`). -/
def sliceDefault (layout : Layout) (x0 x1 y0 y1 t : ℚ) : Option (Dict ℕ Elem) := slice layout x0 x1 y0 y1 t 2

/-- The element map and type as stored in the great mesh (`great/main.py:474-475`). -/
def great (m : Dict ℕ Elem) : Great.Mesh :=
  m.map fun x => (x.1, .hex x.2.hex.m0 x.2.hex.m1 x.2.hex.m2 x.2.hex.m3 x.2.hex.m4 x.2.hex.m5 x.2.hex.m6 x.2.hex.m7)

end Phyem.Slice
