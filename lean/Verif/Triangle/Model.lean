import Verif.Incidence.Model
import Verif.Poly.Model

/-!
Model of the function spaces on triangles: `msehtt/static/space/local_numbering/Lambda/ln_m2n2k0.py`, `ln_m2n2k1.py`,
`incidence_matrix/Lambda/IM_m2n2k0.py`, `IM_m2n2k1.py`, `basis_function/Lambda/bf_m2n2k0.py`, `bf_m2n2k1.py` and
`reconstruct/Lambda/Rc_m2n2k*.py`. A triangle is the image of the square whose side `xi = -1` is collapsed to one corner.
-/

namespace Phyem.Triangle

open Phyem.Numbering Phyem.Incidence

/-- `_ln_m2n2k0_vtu_5_` (`ln_m2n2k0.py:43-67`): row 0 is all zeros, the other rows are `arange(1, px * (py+1) + 1)` in
Fortran order. Written as two arrays: the corner, and rows `1, 2, …`. -/
def lnT0 (px py : ℕ) : List Comp := [⟨0, 1, 1, 1⟩, ⟨1, px, py + 1, 1⟩]

/-- Where `sn[i, j]` of `_ln_m2n2k0_vtu_5_` is found in `lnT0`. -/
def at0 (i j : ℕ) : ℕ × ℕ × ℕ × ℕ := if i = 0 then (0, 0, 0, 0) else (1, i - 1, j, 0)

/-- `sn[i, j]` of `_ln_m2n2k0_vtu_5_` (`ln_m2n2k0.py:64-67`). -/
def sn0 (px py i j : ℕ) : ℕ := snum (lnT0 px py) (at0 i j)

/-- `_ln_m2n2k1_outer_vtu5_` (`ln_m2n2k1.py:48-87`): `dy`, `dx`. -/
def lnT1o (px py : ℕ) : List Comp := [⟨0, px, py, 1⟩, ⟨px * py, px, py + 1, 1⟩]

/-- `_ln_m2n2k1_inner_vtu5_` (`ln_m2n2k1.py:131-162`): `dx`, `dy`. -/
def lnT1i (px py : ℕ) : List Comp := [⟨0, px, py + 1, 1⟩, ⟨px * (py + 1), px, py, 1⟩]

/-- `num_local_dof_0f` (`IM_m2n2k0.py:171`, `370`). -/
def nT0 (px py : ℕ) : ℕ := px * (py + 1) + 1

/-- Number of edges (`IM_m2n2k0.py:172`, `IM_m2n2k1.py:164`). -/
def nT1 (px py : ℕ) : ℕ := px * py + px * (py + 1)

/-- Loop bodies of `_im220o_vtu_5_` (`IM_m2n2k0.py:183-192`). -/
def stT0o : List Stencil :=
  [fun i j _ => [(at0 (i + 1) j, -1), (at0 (i + 1) (j + 1), 1)],
   fun i j _ => [(at0 i j, 1), (at0 (i + 1) j, -1)]]

/-- Entries of `_im220o_vtu_5_` without reversal (`IM_m2n2k0.py:166-197`). -/
def ET0o (px py : ℕ) : Mat := run (assignments (lnT1o px py) (lnT0 px py) stT0o)

/-- Loop bodies of `_im220i_vtu_5_` (`IM_m2n2k0.py:383-392`). -/
def stT0i : List Stencil :=
  [fun i j _ => [(at0 i j, -1), (at0 (i + 1) j, 1)],
   fun i j _ => [(at0 (i + 1) j, -1), (at0 (i + 1) (j + 1), 1)]]

/-- Entries of `_im220i_vtu_5_` without reversal (`IM_m2n2k0.py:365-396`). -/
def ET0i (px py : ℕ) : Mat := run (assignments (lnT1i px py) (lnT0 px py) stT0i)

/-- Loop body of `_im221o_vtu5_` (`IM_m2n2k1.py:176-185`). -/
def stT1o : List Stencil :=
  [fun i j _ => (if i ≠ 0 then [((0, i - 1, j, 0), -1)] else []) ++
    [((0, i, j, 0), 1), ((1, i, j, 0), -1), ((1, i, j + 1, 0), 1)]]

/-- Entries of `_im221o_vtu5_` without reversal (`IM_m2n2k1.py:159-189`). -/
def ET1o (px py : ℕ) : Mat := run (assignments (ln22 px py) (lnT1o px py) stT1o)

/-- Loop body of `_im221i_vtu5_` (`IM_m2n2k1.py:369-378`). -/
def stT1i : List Stencil :=
  [fun i j _ => (if i ≠ 0 then [((1, i - 1, j, 0), -1)] else []) ++
    [((1, i, j, 0), 1), ((0, i, j, 0), 1), ((0, i, j + 1, 0), -1)]]

/-- Entries of `_im221i_vtu5_` without reversal (`IM_m2n2k1.py:351-382`). -/
def ET1i (px py : ℕ) : Mat := run (assignments (ln22 px py) (lnT1i px py) stT1i)

/-- Allocate an array of zeros and run the assignments; `none`: an index is out of bounds (`IndexError`). The indices are
never negative. -/
def place (rows cols : ℕ) (l : List (ℕ × ℕ × ℤ)) : Option (ℕ × ℕ × Mat) :=
  if l.all fun x => decide (x.1 < rows ∧ x.2.1 < cols) then some (rows, cols, run l) else none

/-- `_im220o_vtu_5_` with its shape (`IM_m2n2k0.py:170-194`). -/
def imT0o (px py : ℕ) : Option (ℕ × ℕ × Mat) :=
  place (px * py + px * (py + 1)) (px * (py + 1) + 1) (assignments (lnT1o px py) (lnT0 px py) stT0o)

/-- `_im220i_vtu_5_` with its shape (`IM_m2n2k0.py:369-394`). -/
def imT0i (px py : ℕ) : Option (ℕ × ℕ × Mat) :=
  place ((px + 1) * py + px * py) (px * (py + 1) + 1) (assignments (lnT1i px py) (lnT0 px py) stT0i)

/-- `_im221o_vtu5_` with its shape (`IM_m2n2k1.py:163-187`). -/
def imT1o (px py : ℕ) : Option (ℕ × ℕ × Mat) :=
  place (px * py) (px * py + px * (py + 1)) (assignments (ln22 px py) (lnT1o px py) stT1o)

/-- `_im221i_vtu5_` with its shape (`IM_m2n2k1.py:355-380`). -/
def imT1i (px py : ℕ) : Option (ℕ × ℕ × Mat) :=
  place (px * py) ((px + 1) * py + px * py) (assignments (ln22 px py) (lnT1i px py) stT1i)

variable {K : Type} [Field K]

open Poly

/-- `___bf220_utv_5_triangle___` at one point (`bf_m2n2k0.py:78-93`): the basis functions of the collapsed side are added
up. -/
def bfT0 (xs ys : List K) (x y : K) : List K :=
  let bf := kron (nodes ys y) (nodes xs x)
  let sumIndex := (List.range ys.length).map fun j => xs.length * j
  let otherIndices := (List.range ys.length).flatMap fun j =>
    (List.range (xs.length - 1)).map fun i => i + 1 + xs.length * j
  (sumIndex.map fun i => bf.getD i 0).sum :: otherIndices.map fun i => bf.getD i 0

/-- `___bf221i_inner_vtu_5___` (`bf_m2n2k1.py:175-183`). -/
def bfT1i (xs ys : List K) (x y : K) : List (List K) :=
  [kron (nodes ys y) (edges xs x), kron (edges ys y) (nodes xs x).tail]

/-- `___bf221o_outer_vtu_5___` (`bf_m2n2k1.py:87-95`). -/
def bfT1o (xs ys : List K) (x y : K) : List (List K) :=
  [kron (edges ys y) (nodes xs x).tail, kron (nodes ys y) (edges xs x)]

/-- `___rc220_msepy_quadrilateral___` for a triangle (`Rc_m2n2k0.py:41-47`). -/
def recT0 (xs ys : List K) (c : ℕ → K) (x y : K) : K := dot (bfT0 xs ys x y) 0 c

/-- `___rc221i_vtu_5___` on the square (`Rc_m2n2k1.py:90-104`). -/
def recT1i (xs ys : List K) (c : ℕ → K) (x y : K) : K × K :=
  (dot ((bfT1i xs ys x y).getD 0 []) 0 c, dot ((bfT1i xs ys x y).getD 1 []) ((xs.length - 1) * ys.length) c)

/-- `___rc221o_vtu_5___` on the square (`Rc_m2n2k1.py:228-242`). -/
def recT1o (xs ys : List K) (c : ℕ → K) (x y : K) : K × K :=
  (dot ((bfT1o xs ys x y).getD 0 []) 0 c,
    dot ((bfT1o xs ys x y).getD 1 []) ((xs.length - 1) * (ys.length - 1)) c)

end Phyem.Triangle
