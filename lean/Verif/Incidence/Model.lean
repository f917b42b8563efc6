import Verif.Numbering.Model
import Mathlib.Algebra.BigOperators.Group.Finset.Basic

/-
Model of `msepy/space/incidence_matrix/Lambda.py`.

The loops of the code execute assignments `E[row, col] = value` on a matrix of zeros; the model
produces the list of these assignments in the order of the loops and executes them.
-/

namespace Phyem.Incidence

open Phyem.Numbering

/-- A matrix of integers (numpy array of `dtype=int`, indices beyond the shape are never used, see
`assignments_in_range`). -/
abbrev Mat := Nat → Nat → Int

/-- Execute the assignments `E[r, c] = v` one after the other on `E = np.zeros(..., dtype=int)`. -/
def run (l : List (Nat × Nat × Int)) : Mat :=
  l.foldl (fun E x => fun r c => if r = x.1 ∧ c = x.2.1 then x.2.2 else E r c) (fun _ _ => 0)

/-- `sn[t][i, j, k]` for an index tuple `(t, i, j, k)`. -/
def snum (sn : List Comp) (q : Nat × Nat × Nat × Nat) : Nat :=
  match sn[q.1]? with
  | some x => x.num q.2.1 q.2.2.1 q.2.2.2
  | none => 0

/-- The assignments in the body of a loop for given `i, j, k`: pairs of an index tuple into `sn` and a
value. -/
abbrev Stencil := Nat → Nat → Nat → List ((Nat × Nat × Nat × Nat) × Int)

/-- One loop nest `for k: for j: for i: E[d[i,j,k], sn[...]] = ...`. -/
def fill (sn : List Comp) (d : Comp) (st : Stencil) : List (Nat × Nat × Int) :=
  (box d.a d.b d.c).flatMap fun t =>
    (st t.1 t.2.1 t.2.2).map fun s => (d.num t.1 t.2.1 t.2.2, snum sn s.1, s.2)

/-- Loop nests over `dn[0]`, `dn[1]`, … one after the other. -/
def assignments (dn sn : List Comp) (sts : List Stencil) : List (Nat × Nat × Int) :=
  (dn.zip sts).flatMap fun b => fill sn b.1 b.2

/-- Loop bodies of `_m3_n3_k2` (div), incidence_matrix/Lambda.py:57-62. -/
def st32 : List Stencil := [fun i j k =>
  [((0, i, j, k), -1), ((0, i + 1, j, k), 1), ((1, i, j, k), -1), ((1, i, j + 1, k), 1),
   ((2, i, j, k), -1), ((2, i, j, k + 1), 1)]]

/-- `_m3_n3_k2`, incidence_matrix/Lambda.py:41-63. -/
def E32 (px py pz : Nat) : Mat := run (assignments (ln33 px py pz) (ln32 px py pz) st32)

/-- Loop bodies of `_m3_n3_k1` (curl), incidence_matrix/Lambda.py:77-102. -/
def st31 : List Stencil :=
  [fun i j k => [((1, i, j, k), 1), ((1, i, j, k + 1), -1), ((2, i, j, k), -1),
    ((2, i, j + 1, k), 1)],
   fun i j k => [((0, i, j, k), -1), ((0, i, j, k + 1), 1), ((2, i, j, k), 1),
    ((2, i + 1, j, k), -1)],
   fun i j k => [((0, i, j, k), 1), ((0, i, j + 1, k), -1), ((1, i, j, k), -1),
    ((1, i + 1, j, k), 1)]]

/-- `_m3_n3_k1`, incidence_matrix/Lambda.py:65-104. -/
def E31 (px py pz : Nat) : Mat := run (assignments (ln32 px py pz) (ln31 px py pz) st31)

/-- Loop bodies of `_m3_n3_k0` (grad), incidence_matrix/Lambda.py:118-137. -/
def st30 : List Stencil :=
  [fun i j k => [((0, i, j, k), -1), ((0, i + 1, j, k), 1)],
   fun i j k => [((0, i, j, k), -1), ((0, i, j + 1, k), 1)],
   fun i j k => [((0, i, j, k), -1), ((0, i, j, k + 1), 1)]]

/-- `_m3_n3_k0`, incidence_matrix/Lambda.py:106-139. -/
def E30 (px py pz : Nat) : Mat := run (assignments (ln31 px py pz) (ln30 px py pz) st30)

/-- Loop bodies of `_m2_n2_k0_inner` (grad), incidence_matrix/Lambda.py:152-161.  Two-dimensional
arrays have third index 0. -/
def st20i : List Stencil :=
  [fun i j _ => [((0, i, j, 0), -1), ((0, i + 1, j, 0), 1)],
   fun i j _ => [((0, i, j, 0), -1), ((0, i, j + 1, 0), 1)]]

/-- `_m2_n2_k0_inner`, incidence_matrix/Lambda.py:141-162. -/
def E20i (px py : Nat) : Mat := run (assignments (ln21i px py) (ln20 px py) st20i)

/-- Loop bodies of `_m2_n2_k1_inner` (rot), incidence_matrix/Lambda.py:175-181. -/
def st21i : List Stencil :=
  [fun i j _ => [((1, i, j, 0), -1), ((1, i + 1, j, 0), 1), ((0, i, j, 0), 1),
    ((0, i, j + 1, 0), -1)]]

/-- `_m2_n2_k1_inner`, incidence_matrix/Lambda.py:164-182. -/
def E21i (px py : Nat) : Mat := run (assignments (ln22 px py) (ln21i px py) st21i)

/-- Loop bodies of `_m2_n2_k0_outer` (curl), incidence_matrix/Lambda.py:195-204. -/
def st20o : List Stencil :=
  [fun i j _ => [((0, i, j, 0), -1), ((0, i, j + 1, 0), 1)],
   fun i j _ => [((0, i, j, 0), 1), ((0, i + 1, j, 0), -1)]]

/-- `_m2_n2_k0_outer`, incidence_matrix/Lambda.py:184-205. -/
def E20o (px py : Nat) : Mat := run (assignments (ln21o px py) (ln20 px py) st20o)

/-- Loop bodies of `_m2_n2_k1_outer` (div), incidence_matrix/Lambda.py:218-224. -/
def st21o : List Stencil :=
  [fun i j _ => [((0, i, j, 0), -1), ((0, i + 1, j, 0), 1), ((1, i, j, 0), -1),
    ((1, i, j + 1, 0), 1)]]

/-- `_m2_n2_k1_outer`, incidence_matrix/Lambda.py:207-225. -/
def E21o (px py : Nat) : Mat := run (assignments (ln22 px py) (ln21o px py) st21o)

/-- `_m1_n1_k0`, incidence_matrix/Lambda.py:227-239 (uses the indices directly). -/
def E10 (p : Nat) : Mat :=
  run ((List.range p).flatMap fun i => [(i, i, -1), (i, i + 1, 1)])

end Phyem.Incidence
