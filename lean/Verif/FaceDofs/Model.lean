import Verif.Base.Dict
import Mathlib.Data.Rat.Defs
import Mathlib.Data.Int.Order.Basic

/-!
The local dofs on the faces of hexahedra (`msehtt/static/space/find/local_dofs_on_face/Lambda/m3n3k0.py`, `m3n3k1.py`, `m3n3k2.py`) and where the dofs of
nodes are (`msehtt/static/space/local_dofs/Lambda/LDofs_m2n2k0.py`, `LDofs_m3n3k0.py`).

Arrays with three axes are lists of their entries with the first axis running fastest (`order='F'`). The caches of results are not modelled: what is modelled
is the first call for a degree, a face and a kind. The numberings are kept from call to call, and slices of them are views: what is subtracted from a slice is
subtracted in the numbering. Degrees are positive.
-/

namespace Phyem.FaceDofs

open Phyem.Dict

/-- An array of integers. -/
structure Arr where
  nx : ℕ
  ny : ℕ
  nz : ℕ
  data : List ℤ
deriving DecidableEq

/-- `arange(a, a + nx * ny * nz).reshape((nx, ny, nz), order='F')`. -/
def grid (a nx ny nz : ℕ) : Arr := ⟨nx, ny, nz, (List.range (nx * ny * nz)).map fun n => ((a + n : ℕ) : ℤ)⟩

/-- `A[i, j, k]`. -/
def Arr.at (A : Arr) (i j k : ℕ) : ℤ := A.data.getD (i + A.nx * j + A.nx * A.ny * k) 0

/-- `A[i, :, :].ravel('F')`. -/
def cutX (A : Arr) (i : ℕ) : List ℤ := (List.range A.nz).flatMap fun k => (List.range A.ny).map fun j => A.at i j k

/-- `A[:, j, :].ravel('F')`. -/
def cutY (A : Arr) (j : ℕ) : List ℤ := (List.range A.nz).flatMap fun k => (List.range A.nx).map fun i => A.at i j k

/-- `A[:, :, k].ravel('F')`. -/
def cutZ (A : Arr) (k : ℕ) : List ℤ := (List.range A.ny).flatMap fun j => (List.range A.nx).map fun i => A.at i j k

/-- The slice of an array for a face (`m3n3k0.py:29-42`). `none`: an error is raised. -/
def edge (A : Arr) : ℕ → Option (List ℤ)
  | 0 => some (cutX A 0)
  | 1 => some (cutX A (A.nx - 1))
  | 2 => some (cutY A 0)
  | 3 => some (cutY A (A.ny - 1))
  | 4 => some (cutZ A 0)
  | 5 => some (cutZ A (A.nz - 1))
  | _ => none

/-- `__m3n3k0_msepy_hexahedral_` (`m3n3k0.py:22-45`; numbering `ln_m3n3k0.py:19-29`). -/
def nodesOn (px py pz f : ℕ) : Option (List ℤ) := edge (grid 0 (px + 1) (py + 1) (pz + 1)) f

/-- The numbering of edges (`ln_m3n3k1.py:19-38`). -/
def lnDx (px py pz : ℕ) : Arr := grid 0 px (py + 1) (pz + 1)
def lnDy (px py pz : ℕ) : Arr := grid (px * (py + 1) * (pz + 1)) (px + 1) py (pz + 1)
def lnDz (px py pz : ℕ) : Arr := grid (px * (py + 1) * (pz + 1) + (px + 1) * py * (pz + 1)) (px + 1) (py + 1) pz

/-- `__m3n3k1_msepy_hexahedral_` (`m3n3k1.py:23-59`), `component_wise=False`. -/
def edgesOn (px py pz f : ℕ) : Option (List ℤ) :=
  let both (A B : Arr) := (edge A f).bind fun a => (edge B f).map fun b => a ++ b
  if f = 0 ∨ f = 1 then both (lnDy px py pz) (lnDz px py pz)
  else if f = 2 ∨ f = 3 then both (lnDz px py pz) (lnDx px py pz)
  else if f = 4 ∨ f = 5 then both (lnDx px py pz) (lnDy px py pz)
  else none

/-- The numbering of faces that is kept for a degree (`ln_m3n3k2.py:16-39`). -/
structure Num where
  dydz : Arr
  dzdx : Arr
  dxdy : Arr
deriving DecidableEq

def fresh (px py pz : ℕ) : Num :=
  ⟨grid 0 (px + 1) py pz, grid ((px + 1) * py * pz) px (py + 1) pz, grid ((px + 1) * py * pz + px * (py + 1) * pz) px py (pz + 1)⟩

/-- `__m3n3k2_msepy_hexahedral_` with `component_wise=False` (`m3n3k2.py:29-44`, `61-64`), for the numbering that is kept. -/
def facesOn (s : Num) (f : ℕ) : Option (List ℤ) :=
  if f = 0 ∨ f = 1 then edge s.dydz f
  else if f = 2 ∨ f = 3 then edge s.dzdx f
  else if f = 4 ∨ f = 5 then edge s.dxdy f
  else none

/-- Place `n` of the entries is in the slice of a face. -/
def inSlice (A : Arr) (f n : ℕ) : Bool :=
  match f with
  | 0 => n % A.nx == 0
  | 1 => n % A.nx == A.nx - 1
  | 2 => n / A.nx % A.ny == 0
  | 3 => n / A.nx % A.ny == A.ny - 1
  | 4 => n / (A.nx * A.ny) == 0
  | 5 => n / (A.nx * A.ny) == A.nz - 1
  | _ => false

/-- `view -= d` for the slice of a face. -/
def shift (A : Arr) (f : ℕ) (d : ℤ) : Arr := { A with data := A.data.mapIdx fun n x => if inSlice A f n then x - d else x }

/-- `np.max` of an array with entries. -/
def top (A : Arr) : ℤ := A.data.foldl max (A.data.headD 0)

/-- `__m3n3k2_msepy_hexahedral_` with `component_wise=True` (`m3n3k2.py:29-59`): the component, its dofs, and the numbering that is kept afterwards. -/
def component (s : Num) (f : ℕ) : Option ((ℕ × List ℤ) × Num) :=
  if f = 0 ∨ f = 1 then (edge s.dydz f).map fun l => ((0, l), s)
  else if f = 2 ∨ f = 3 then
    let A := shift s.dzdx f (top s.dydz + 1)
    (edge A f).map fun l => ((1, l), { s with dzdx := A })
  else if f = 4 ∨ f = 5 then
    let A := shift s.dxdy f ((top s.dydz + 1) + (top s.dzdx + 1))
    (edge A f).map fun l => ((2, l), { s with dxdy := A })
  else none

/-- `___mm220_lDofs_quad___` (`LDofs_m2n2k0.py:54-77`): by the number of a dof, its place in the reference element and in the domain. -/
def places2 {V : Type} (px py : ℕ) (X Y : ℕ → ℚ) (map : ℚ → ℚ → V) : Dict ℤ ((ℚ × ℚ) × V) :=
  ((List.range (py + 1)).flatMap fun j => (List.range (px + 1)).map fun i => (i, j)).foldl
    (fun d q => put d ((grid 0 (px + 1) (py + 1) 1).at q.1 q.2 0) ((X q.1, Y q.2), map (X q.1) (Y q.2))) []

/-- A number or an array of numbers. -/
inductive Coo where
  | num (q : ℚ)
  | arr (l : List ℚ)
deriving DecidableEq

/-- `___mm330_lDofs_hexahedron___` (`LDofs_m3n3k0.py:54-78`): by the number of a dof, its place in the reference element. The third coordinate is taken
from `nodes[k]`, where `nodes` is a tuple of three arrays. `none`: an `IndexError`. The place in the domain is computed from this and not modelled. -/
def places3 (px py pz : ℕ) (X Y Z : List ℚ) : Option (Dict ℤ (Coo × Coo × Coo)) :=
  ((List.range (pz + 1)).flatMap fun k => (List.range (py + 1)).flatMap fun j => (List.range (px + 1)).map fun i => (i, j, k)).foldlM
    (fun d q => ([X, Y, Z][q.2.2]?).map fun c =>
      put d ((grid 0 (px + 1) (py + 1) (pz + 1)).at q.1 q.2.1 q.2.2) (.num (X.getD q.1 0), .num (Y.getD q.2.1 0), .arr c)) []

end Phyem.FaceDofs
