import Verif.Numbering.Model
import Mathlib.Data.Int.Notation

/-
Model of the global numbering of face dofs, `msepy/space/gathering_matrix/Lambda.py`: 0-forms in 1d, 1-forms
in 2d (both orientations), 2-forms in 3d, and the discontinuous top forms.
-/

namespace Phyem.Gathering

open Numbering (Comp box)

/-- A dof of an element: component and indices in the array of this component. -/
structure Ix where
  t : ℕ
  i : ℕ
  j : ℕ
  k : ℕ
deriving DecidableEq, Repr

/-- One assignment of the element loop: the slice of dofs that is numbered (`idx`, in Fortran order), the
element side it lies on (`none` for interior dofs), and the slice of the neighbour it may be copied from. -/
structure Part where
  edge : Option ℕ
  idx : List Ix
  src : List Ix
deriving DecidableEq, Repr

/-- `gn_t[n]` restricted to a layer of an axis: `gn[n, l, :, :]`, `gn[n, :, l, :]`, `gn[n, :, :, l]`. -/
def face (t : ℕ) (x : Comp) : ℕ → ℕ → List Ix
  | 0, l => (box 1 x.b x.c).map fun q => ⟨t, l, q.2.1, q.2.2⟩
  | 1, l => (box x.a 1 x.c).map fun q => ⟨t, q.1, l, q.2.2⟩
  | _, l => (box x.a x.b 1).map fun q => ⟨t, q.1, q.2.1, l⟩

/-- The interior slices `1:-1` along the axis. -/
def interior (t : ℕ) (x : Comp) : ℕ → List Ix
  | 0 => (box (x.a - 2) x.b x.c).map fun q => ⟨t, q.1 + 1, q.2.1, q.2.2⟩
  | 1 => (box x.a (x.b - 2) x.c).map fun q => ⟨t, q.1, q.2.1 + 1, q.2.2⟩
  | _ => (box x.a x.b (x.c - 2)).map fun q => ⟨t, q.1, q.2.1, q.2.2 + 1⟩

/-- Length of an array along an axis. -/
def len (x : Comp) : ℕ → ℕ
  | 0 => x.a
  | 1 => x.b
  | _ => x.c

/-- Minus side, interior, plus side of one component: the blocks `N, int, S`, `W, int, E`, `B, int, F` of
Lambda.py:63-107, 110-152, 154-198 (3d), `U, dyI, D` and `L, dxI, R` (2d, 1193-1247 and 1280-1334), and the
three statements of Lambda.py:1416-1433 (1d). -/
def compParts (t : ℕ) (x : Comp) (axis : ℕ) : List Part :=
  [⟨some (2 * axis), face t x axis 0, face t x axis (len x axis - 1)⟩,
   ⟨none, interior t x axis, []⟩,
   ⟨some (2 * axis + 1), face t x axis (len x axis - 1), face t x axis 0⟩]

/-- What to do with the dofs of a side. -/
inductive Action
  | fresh
  | copy (f : ℕ)
  | raise
deriving DecidableEq, Repr

/-- 1d and 2d: Lambda.py:1417-1423 and 1199-1239: a side on the boundary or shared with an element that comes later is
numbered, otherwise the numbers are copied. -/
def decide12 (_ : ℕ) (nb : Option ℕ) (e : ℕ) : Action :=
  match nb with
  | none => .fresh
  | some f => if f > e then .fresh else .copy f

/-- 3d: Lambda.py:63-85.  The test `isinstance(what_north, str)` never holds for the integer array of the
element map; on the boundary `what_north = -1 < n`, and the index `-1` denotes the last element. -/
def decide3 (N : ℕ) (nb : Option ℕ) (e : ℕ) : Action :=
  match nb with
  | none => .copy (N - 1)
  | some f => if f < e then .copy f else if f > e then .fresh else .raise

/-- The arrays and `current_num`. -/
structure St where
  gm : ℕ → Ix → ℤ
  cur : ℕ

/-- `gm[e][slice] = values`. -/
def assign (gm : ℕ → Ix → ℤ) (e : ℕ) (idx : List Ix) (vals : List ℤ) : ℕ → Ix → ℤ :=
  fun e' x => if e' = e ∧ x ∈ idx then vals.getD (idx.idxOf x) 0 else gm e' x

/-- `gm[e][slice] = np.arange(cur, cur + n)`, `cur += n`. -/
def number (s : St) (e : ℕ) (idx : List Ix) : St :=
  ⟨assign s.gm e idx ((List.range idx.length).map fun (k : ℕ) => ((s.cur + k : ℕ) : ℤ)), s.cur + idx.length⟩

/-- One assignment of the loop body; `none` is an exception. -/
def doPart (dec : Option ℕ → ℕ → Action) (nb : ℕ → ℕ → Option ℕ) (e : ℕ) (s : St) (p : Part) : Option St :=
  match p.edge with
  | none => some (number s e p.idx)
  | some c =>
    match dec (nb e c) e with
    | .fresh => some (number s e p.idx)
    | .copy f => some ⟨assign s.gm e p.idx (p.src.map (s.gm f)), s.cur⟩
    | .raise => none

/-- The loop body for one element. -/
def doElement (dec : Option ℕ → ℕ → Action) (nb : ℕ → ℕ → Option ℕ) (parts : List Part) (s : St) (e : ℕ) :
    Option St :=
  parts.foldlM (doPart dec nb e) s

/-- The loop over the elements. -/
def runLoop (dec : Option ℕ → ℕ → Action) (nb : ℕ → ℕ → Option ℕ) (parts : List Part) (N : ℕ) (init : ℤ) :
    Option St :=
  (List.range N).foldlM (doElement dec nb parts) ⟨fun _ _ => init, 0⟩

/-- A scheme: the components with the axis their dofs are normal to, in the order of the numbering, and the
components in the order of the rows of the gathering matrix. -/
structure Scheme where
  comps : List Comp
  axes : List ℕ
deriving DecidableEq, Repr

/-- The assignments of a scheme. -/
def Scheme.parts (s : Scheme) : List Part :=
  (s.comps.zip s.axes).zipIdx.flatMap fun q => compParts q.2 q.1.1 q.1.2

/-- `np.concatenate([gm[j][i, ...].ravel('F') for j in …])`: the row of element `e`. -/
def row (comps : List Comp) (gm : ℕ → Ix → ℤ) (e : ℕ) : List ℤ :=
  comps.zipIdx.flatMap fun q =>
    (box q.1.a q.1.b q.1.c).map fun r => gm e ⟨q.2, r.1, r.2.1, r.2.2⟩

/-- The gathering matrix of a scheme. -/
def gather (dec : Option ℕ → ℕ → Action) (s : Scheme) (nb : ℕ → ℕ → Option ℕ) (N : ℕ) (init : ℤ) :
    Option (List (List ℤ)) :=
  (runLoop dec nb s.parts N init).map fun st => (List.range N).map fun e => row s.comps st.gm e

/-- `_m1_n1_k0`, Lambda.py:1409-1434. -/
def gm10 (nb : ℕ → ℕ → Option ℕ) (N p : ℕ) : Option (List (List ℤ)) :=
  gather (decide12 N) ⟨Numbering.ln10 p, [0]⟩ nb N (-1)

/-- `_m2_n2_k1_outer`, Lambda.py:1253-1339. -/
def gm21o (nb : ℕ → ℕ → Option ℕ) (N px py : ℕ) : Option (List (List ℤ)) :=
  gather (decide12 N) ⟨Numbering.ln21o px py, [0, 1]⟩ nb N (-1)

/-- `_m2_n2_k1_inner`, Lambda.py:1165-1251. -/
def gm21i (nb : ℕ → ℕ → Option ℕ) (N px py : ℕ) : Option (List (List ℤ)) :=
  gather (decide12 N) ⟨Numbering.ln21i px py, [1, 0]⟩ nb N (-1)

/-- `_m3_n3_k2`, Lambda.py:49-209. -/
def gm32 (nb : ℕ → ℕ → Option ℕ) (N px py pz : ℕ) : Option (List (List ℤ)) :=
  gather (decide3 N) ⟨Numbering.ln32 px py pz, [0, 1, 2]⟩ nb N 0

/-- `_m3_n3_k3`, `_m2_n2_k2`, `_m1_n1_k1`, Lambda.py:39-47, 1399-1407, 1436-1444:
`np.arange(N * n).reshape((N, n), order='C')`. -/
def gmTop (N n : ℕ) : List (List ℤ) :=
  (List.range N).map fun (e : ℕ) => (List.range n).map fun (l : ℕ) => ((e * n + l : ℕ) : ℤ)

end Phyem.Gathering
