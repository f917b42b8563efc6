import Mathlib.Data.List.Basic

/-
Model of `msepy/space/local_numbering/Lambda.py`, `msepy/space/num_local_dofs/Lambda.py`,
`msepy/space/num_local_dof_components/Lambda.py`.
-/

namespace Phyem.Numbering

/-- One array of the local numbering: `np.arange(base, base + a*b*c).reshape((a, b, c), order='F')`.
Arrays of lower dimension are given trailing axes of length one (a simplification: a 2d array
`x[i, j]` is `x[i, j, 0]` here). -/
structure Comp where
  base : Nat
  a : Nat
  b : Nat
  c : Nat
deriving DecidableEq, Repr

/-- The entry `[i, j, k]` of the array (Fortran order). -/
def Comp.num (x : Comp) (i j k : Nat) : Nat := x.base + (i + x.a * (j + x.b * k))

/-- Number of entries. -/
def Comp.size (x : Comp) : Nat := x.a * x.b * x.c

/-- Indices inside the shape. -/
def Comp.valid (x : Comp) (i j k : Nat) : Prop := i < x.a ∧ j < x.b ∧ k < x.c

/-! Local numbering, msepy/space/local_numbering/Lambda.py -/

/-- `_m3_n3_k3`, local_numbering/Lambda.py:42-46. -/
def ln33 (px py pz : Nat) : List Comp := [⟨0, px, py, pz⟩]

/-- `_m3_n3_k2`, local_numbering/Lambda.py:49-61. -/
def ln32 (px py pz : Nat) : List Comp :=
  let Px := (px + 1) * py * pz
  let Py := px * (py + 1) * pz
  [⟨0, px + 1, py, pz⟩, ⟨Px, px, py + 1, pz⟩, ⟨Px + Py, px, py, pz + 1⟩]

/-- `_m3_n3_k1`, local_numbering/Lambda.py:64-73. -/
def ln31 (px py pz : Nat) : List Comp :=
  let Px := px * (py + 1) * (pz + 1)
  let Py := (px + 1) * py * (pz + 1)
  [⟨0, px, py + 1, pz + 1⟩, ⟨Px, px + 1, py, pz + 1⟩, ⟨Px + Py, px + 1, py + 1, pz⟩]

/-- `_m3_n3_k0`, local_numbering/Lambda.py:76-80. -/
def ln30 (px py pz : Nat) : List Comp := [⟨0, px + 1, py + 1, pz + 1⟩]

/-- `_m2_n2_k0`, local_numbering/Lambda.py:83-87. -/
def ln20 (px py : Nat) : List Comp := [⟨0, px + 1, py + 1, 1⟩]

/-- `_m2_n2_k1_outer`, local_numbering/Lambda.py:90-99. -/
def ln21o (px py : Nat) : List Comp :=
  let Px := (px + 1) * py
  [⟨0, px + 1, py, 1⟩, ⟨Px, px, py + 1, 1⟩]

/-- `_m2_n2_k1_inner`, local_numbering/Lambda.py:102-109. -/
def ln21i (px py : Nat) : List Comp :=
  let Px := px * (py + 1)
  [⟨0, px, py + 1, 1⟩, ⟨Px, px + 1, py, 1⟩]

/-- `_m2_n2_k2`, local_numbering/Lambda.py:112-116. -/
def ln22 (px py : Nat) : List Comp := [⟨0, px, py, 1⟩]

/-- `_m1_n1_k0`, local_numbering/Lambda.py:119-123. -/
def ln10 (p : Nat) : List Comp := [⟨0, p + 1, 1, 1⟩]

/-- `_m1_n1_k1`, local_numbering/Lambda.py:126-130. -/
def ln11 (p : Nat) : List Comp := [⟨0, p, 1, 1⟩]

/-! Numbers of local dofs, msepy/space/num_local_dofs/Lambda.py -/

/-- `_m3_n3_k3`, num_local_dofs/Lambda.py:24-28. -/
def nd33 (px py pz : Nat) : Nat := px * py * pz

/-- `_m3_n3_k2`, num_local_dofs/Lambda.py:30-37. -/
def nd32 (px py pz : Nat) : Nat :=
  (px + 1) * py * pz + px * (py + 1) * pz + px * py * (pz + 1)

/-- `_m3_n3_k1`, num_local_dofs/Lambda.py:39-46. -/
def nd31 (px py pz : Nat) : Nat :=
  px * (py + 1) * (pz + 1) + (px + 1) * py * (pz + 1) + (px + 1) * (py + 1) * pz

/-- `_m3_n3_k0`, num_local_dofs/Lambda.py:48-52. -/
def nd30 (px py pz : Nat) : Nat := (px + 1) * (py + 1) * (pz + 1)

/-- `_m2_n2_k0`, num_local_dofs/Lambda.py:54-58. -/
def nd20 (px py : Nat) : Nat := (px + 1) * (py + 1)

/-- `_m2_n2_k1`, num_local_dofs/Lambda.py:60-66 (both orientations). -/
def nd21 (px py : Nat) : Nat := (px + 1) * py + px * (py + 1)

/-- `_m2_n2_k2`, num_local_dofs/Lambda.py:68-72. -/
def nd22 (px py : Nat) : Nat := px * py

/-- `_m1_n1_k0`, num_local_dofs/Lambda.py:74-78. -/
def nd10 (p : Nat) : Nat := p + 1

/-- `_m1_n1_k1`, num_local_dofs/Lambda.py:80-84. -/
def nd11 (p : Nat) : Nat := p

/-! Numbers of local dofs per component, msepy/space/num_local_dof_components/Lambda.py -/

/-- `_m3_n3_k3 … _m1_n1_k1`, num_local_dof_components/Lambda.py:40-107. -/
def ndc33 (px py pz : Nat) : List Nat := [px * py * pz]
def ndc32 (px py pz : Nat) : List Nat :=
  [(px + 1) * py * pz, px * (py + 1) * pz, px * py * (pz + 1)]
def ndc31 (px py pz : Nat) : List Nat :=
  [px * (py + 1) * (pz + 1), (px + 1) * py * (pz + 1), (px + 1) * (py + 1) * pz]
def ndc30 (px py pz : Nat) : List Nat := [(px + 1) * (py + 1) * (pz + 1)]
def ndc20 (px py : Nat) : List Nat := [(px + 1) * (py + 1)]
def ndc21i (px py : Nat) : List Nat := [px * (py + 1), (px + 1) * py]
def ndc21o (px py : Nat) : List Nat := [(px + 1) * py, px * (py + 1)]
def ndc22 (px py : Nat) : List Nat := [px * py]
def ndc10 (p : Nat) : List Nat := [p + 1]
def ndc11 (p : Nat) : List Nat := [p]

/-- The triple loop `for k: for j: for i:` over a shape. -/
def box (a b c : Nat) : List (Nat × Nat × Nat) :=
  (List.range c).flatMap fun k => (List.range b).flatMap fun j =>
    (List.range a).map fun i => (i, j, k)

end Phyem.Numbering
