import Mathlib.Algebra.Field.Basic
import Mathlib.Data.List.Range

/-!
Model of the reduction of functions to cochains, one element at a time: `msehtt/static/space/reduce/Lambda/Rd_m2n2k*.py`,
`Rd_m3n3k*.py` and `msepy/space/reduce/Lambda.py`, which use the same formulas.

`xs`, `ys`, `zs` are the nodes of the element, `p`, `q`, `r` its degrees, `qx`, `wx`, … the points and weights of the Gauss
quadrature. `Φ` is `element.ct.mapping`, `J x y i a` is `element.ct.Jacobian_matrix(x, y)[i][a]`.

Simplifications: exact arithmetic in a field; the functions are evaluated point by point instead of on arrays; an entry of
the Jacobian matrix which is the number `0` is not distinguished from an array of zeros (the code skips the product with it,
which gives the same value); the caches of the quadrature data, whose keys contain all that the data depend on, are not
modelled. An array of two axes is a list of its columns, one for each local dof.
-/

namespace Phyem.Reduce

variable {α K : Type} [Field K]

/-- `np.tile(l, n)`. -/
def tile (l : List α) (n : ℕ) : List α := (List.replicate n l).flatten

/-- `np.repeat(l, n)`; also of the columns of a matrix (`axis=1`). -/
def rep (l : List α) (n : ℕ) : List α := l.flatMap fun a => List.replicate n a

/-- `nodes[1:] - nodes[:-1]` (`Rd_m2n2k1.py:434`, `Rd_m3n3k1.py:143`). -/
def sizes (xs : List K) : List K := List.zipWith (fun b a => b - a) xs.tail xs.dropLast

/-- The columns of `cell_nodes` (`Rd_m2n2k1.py:435-436`): for every edge its quadrature points. -/
def cells (xs qs : List K) : List (List K) :=
  List.zipWith (fun s a => qs.map fun t => 1 / 2 * s * (t + 1) + a) (sizes xs) xs.dropLast

/-- A row of values, `[np.newaxis, :].repeat(n, axis=0)`, as columns. -/
def same (n : ℕ) (l : List K) : List (List K) := l.map fun a => List.replicate n a

/-- `np.einsum('ij, i, j -> j', v, quad_weights, edge_size * 0.5)` (`Rd_m2n2k1.py:74-80`): the values `v` are those of `g` at
the points of the columns. -/
def along (g : α → K) (ws : List K) (pts : List (List α)) (size : List K) : List K :=
  List.zipWith (fun col s => (List.zipWith (fun P w => g P * w) col ws).sum * (s * (1 / 2))) pts size

/-- The points with coordinates in two matrices. -/
def pts2 (X Y : List (List K)) : List (List (K × K)) := List.zipWith (fun a b => a.zip b) X Y

/-- The points with coordinates in three matrices. -/
def pts3 (X Y Z : List (List K)) : List (List (K × K × K)) :=
  List.zipWith (fun a b => a.zip b) X (List.zipWith (fun a b => a.zip b) Y Z)

/-! ### One dimension (`msepy/space/reduce/Lambda.py:35-88`) -/

/-- `_m1_n1_k0` (`Lambda.py:35-52`). -/
def red10 (Φ : K → K) (f : K → K) (xs : List K) : List K := xs.map fun x => f (Φ x)

/-- `_m1_n1_k1` (`Lambda.py:54-95`); `D` is `ct.Jacobian`. -/
def red11 (Φ : K → K) (D : K → K) (f : K → K) (xs qs ws : List K) : List K :=
  along (fun x => f (Φ x) * D x) ws (List.zipWith (fun s a => qs.map fun t => (t + 1) * s / 2 + a) (sizes xs) xs.dropLast)
    (sizes xs)

/-! ### Two dimensions -/

/-- `_msepy_data_preparation('x', degree)` (`Rd_m2n2k1.py:438-444`). -/
def colsX2 (p q : ℕ) (xs ys qx : List K) : List (List (K × K)) :=
  pts2 (tile (cells xs qx) (q + 1)) (same qx.length (rep ys p))

/-- `ES` of the direction `x` (`Rd_m2n2k1.py:443`). -/
def sizeX2 (q : ℕ) (xs : List K) : List K := tile (sizes xs) (q + 1)

/-- `_msepy_data_preparation('y', degree)` (`Rd_m2n2k1.py:446-451`). -/
def colsY2 (p q : ℕ) (xs ys qy : List K) : List (List (K × K)) :=
  pts2 (same qy.length (tile xs q)) (rep (cells ys qy) (p + 1))

/-- `ES` of the direction `y` (`Rd_m2n2k1.py:450`). -/
def sizeY2 (p : ℕ) (ys : List K) : List K := rep (sizes ys) (p + 1)

/-- `___220_msepy_quadrilateral___` (`Rd_m2n2k0.py:45-59`): `np.meshgrid(…, indexing='ij')` and `ravel('F')`. -/
def red20 (Φ : K → K → K × K) (f : K × K → K) (xs ys : List K) : List K :=
  ys.flatMap fun y => xs.map fun x => f (Φ x y)

/-- `cochain_dx` of `___221i_msepy_quadrilateral___` (`Rd_m2n2k1.py:62-80`). -/
def red21i_dx (Φ : K → K → K × K) (J : K → K → ℕ → ℕ → K) (v : K × K → K × K) (p q : ℕ) (xs ys qx wx : List K) : List K :=
  along (fun P => J P.1 P.2 0 0 * (v (Φ P.1 P.2)).1 + J P.1 P.2 1 0 * (v (Φ P.1 P.2)).2) wx (colsX2 p q xs ys qx)
    (sizeX2 q xs)

/-- `cochain_dy` of `___221i_msepy_quadrilateral___` (`Rd_m2n2k1.py:82-99`). -/
def red21i_dy (Φ : K → K → K × K) (J : K → K → ℕ → ℕ → K) (v : K × K → K × K) (p q : ℕ) (xs ys qy wy : List K) : List K :=
  along (fun P => J P.1 P.2 0 1 * (v (Φ P.1 P.2)).1 + J P.1 P.2 1 1 * (v (Φ P.1 P.2)).2) wy (colsY2 p q xs ys qy)
    (sizeY2 p ys)

/-- `___221i_msepy_quadrilateral___` (`Rd_m2n2k1.py:60-103`). -/
def red21i (Φ : K → K → K × K) (J : K → K → ℕ → ℕ → K) (v : K × K → K × K) (p q : ℕ) (xs ys qx wx qy wy : List K) :
    List K :=
  red21i_dx Φ J v p q xs ys qx wx ++ red21i_dy Φ J v p q xs ys qy wy

/-- `cochain_dx` of `___221o_msepy_quadrilateral___` (`Rd_m2n2k1.py:260-278`). -/
def red21o_dx (Φ : K → K → K × K) (J : K → K → ℕ → ℕ → K) (v : K × K → K × K) (p q : ℕ) (xs ys qx wx : List K) : List K :=
  along (fun P => J P.1 P.2 0 0 * (v (Φ P.1 P.2)).2 - J P.1 P.2 1 0 * (v (Φ P.1 P.2)).1) wx (colsX2 p q xs ys qx)
    (sizeX2 q xs)

/-- `cochain_dy` of `___221o_msepy_quadrilateral___` (`Rd_m2n2k1.py:280-298`). -/
def red21o_dy (Φ : K → K → K × K) (J : K → K → ℕ → ℕ → K) (v : K × K → K × K) (p q : ℕ) (xs ys qy wy : List K) : List K :=
  along (fun P => -J P.1 P.2 0 1 * (v (Φ P.1 P.2)).2 + J P.1 P.2 1 1 * (v (Φ P.1 P.2)).1) wy (colsY2 p q xs ys qy)
    (sizeY2 p ys)

/-- `___221o_msepy_quadrilateral___` (`Rd_m2n2k1.py:258-303`): the components are `cochain_dy`, `cochain_dx`. -/
def red21o (Φ : K → K → K × K) (J : K → K → ℕ → ℕ → K) (v : K × K → K × K) (p q : ℕ) (xs ys qx wx qy wy : List K) :
    List K :=
  red21o_dy Φ J v p q xs ys qy wy ++ red21o_dx Φ J v p q xs ys qx wx

/-- `(t + 1) * (nodes[i+1] - nodes[i]) / 2 + nodes[i]` (`Rd_m2n2k2.py:95-98`, `Rd_m3n3k2.py:160-161`). -/
def inCell (xs : List K) (i : ℕ) (t : K) : K := (t + 1) * (xs.getD (i + 1) 0 - xs.getD i 0) / 2 + xs.getD i 0

/-- `nodes[i+1] - nodes[i]`. -/
def len (xs : List K) (i : ℕ) : K := xs.getD (i + 1) 0 - xs.getD i 0

/-- `___rd222_msepy_quadrilateral___` (`Rd_m2n2k2.py:38-63`, `68-103`), `element.ct.Jacobian` being `J[0][0] * J[1][1] -
J[0][1] * J[1][0]`. The loops `for j: for i:` fill the entries `m = i + j * p[0]` one after the other. -/
def red22 (Φ : K → K → K × K) (J : K → K → ℕ → ℕ → K) (f : K × K → K) (p q : ℕ) (xs ys qx wx qy wy : List K) : List K :=
  (List.range q).flatMap fun j => (List.range p).map fun i =>
    (List.zipWith (fun a wa => (List.zipWith (fun b wb =>
      (let x := inCell xs i a
       let y := inCell ys j b
       f (Φ x y) * (J x y 0 0 * J x y 1 1 - J x y 0 1 * J x y 1 0) * wa * wb)) qy wy).sum) qx wx).sum *
      (len xs i * len ys j * (1 / 4))

/-! ### Triangles -/

/-- `___220_vtu_5___` (`Rd_m2n2k0.py:62-87`): the corner, and the rows `1, 2, …` of the grid. -/
def redT0 (Φ : K → K → K × K) (f : K × K → K) (xs ys : List K) : List K :=
  f (Φ (xs.getD 0 0) (ys.getD 0 0)) :: ys.flatMap fun y => xs.tail.map fun x => f (Φ x y)

/-- `cochain_dy.reshape((px+1, py), order='F')[1:, :].ravel('F')` (`Rd_m2n2k1.py:178-182`, `377-381`; for `degree == 1` the
code writes `cochain_dy[1:]`, which is the same). -/
def dropRow (p q : ℕ) (c : List K) : List K := (List.range q).flatMap fun j => (c.drop (j * (p + 1) + 1)).take p

/-- `___221i_vtu_5_reducing_raw___` (`Rd_m2n2k1.py:134-184`). -/
def redT1i (Φ : K → K → K × K) (J : K → K → ℕ → ℕ → K) (v : K × K → K × K) (p q : ℕ) (xs ys qx wx qy wy : List K) :
    List K × List K :=
  (red21i_dx Φ J v p q xs ys qx wx, dropRow p q (red21i_dy Φ J v p q xs ys qy wy))

/-- `___221o_vtu_5_reducing_raw___` (`Rd_m2n2k1.py:333-383`). -/
def redT1o (Φ : K → K → K × K) (J : K → K → ℕ → ℕ → K) (v : K × K → K × K) (p q : ℕ) (xs ys qx wx qy wy : List K) :
    List K × List K :=
  (dropRow p q (red21o_dy Φ J v p q xs ys qy wy), red21o_dx Φ J v p q xs ys qx wx)

/-! ### Three dimensions -/

/-- `___330_msepy_quadrilateral___` (`Rd_m3n3k0.py:30-43`). -/
def red30 (Φ : K → K → K → K × K × K) (f : K × K × K → K) (xs ys zs : List K) : List K :=
  zs.flatMap fun z => ys.flatMap fun y => xs.map fun x => f (Φ x y z)

/-- `(quad_nodes + 1) * edge_size / 2 + start` (`Rd_m3n3k1.py:147-150`, `164-166`, `178-180`), as columns. -/
def moved (qs size start : List K) : List (List K) :=
  List.zipWith (fun s a => qs.map fun t => (t + 1) * s / 2 + a) size start

/-- `edge_size_x` (`Rd_m3n3k1.py:141-144`). -/
def sizeX3 (q r : ℕ) (xs : List K) : List K := tile (sizes xs) ((q + 1) * (r + 1))

/-- `_msepy_data_preparation('x', degree)` (`Rd_m3n3k1.py:140-156`). -/
def colsX3 (p q r : ℕ) (xs ys zs qx : List K) : List (List (K × K × K)) :=
  pts3 (moved qx (sizeX3 q r xs) (tile xs.dropLast ((q + 1) * (r + 1))))
    (same qx.length (tile (rep ys p) (r + 1))) (same qx.length (rep zs (p * (q + 1))))

/-- `edge_size_y` (`Rd_m3n3k1.py:159-160`). -/
def sizeY3 (p r : ℕ) (ys : List K) : List K := tile (rep (sizes ys) (p + 1)) (r + 1)

/-- `_msepy_data_preparation('y', degree)` (`Rd_m3n3k1.py:158-169`). -/
def colsY3 (p q r : ℕ) (xs ys zs qy : List K) : List (List (K × K × K)) :=
  pts3 (same qy.length (tile xs (q * (r + 1))))
    (moved qy (sizeY3 p r ys) (tile (rep ys.dropLast (p + 1)) (r + 1))) (same qy.length (rep zs (q * (p + 1))))

/-- `edge_size_z` (`Rd_m3n3k1.py:172-173`). -/
def sizeZ3 (p q : ℕ) (zs : List K) : List K := rep (rep (sizes zs) (p + 1)) (q + 1)

/-- `_msepy_data_preparation('z', degree)` (`Rd_m3n3k1.py:171-182`). -/
def colsZ3 (p q r : ℕ) (xs ys zs qz : List K) : List (List (K × K × K)) :=
  pts3 (same qz.length (tile xs ((q + 1) * r))) (same qz.length (tile (rep ys (p + 1)) r))
    (moved qz (sizeZ3 p q zs) (rep zs.dropLast ((p + 1) * (q + 1))))

/-- `J[0][a] * u + J[1][a] * v + J[2][a] * w` (`Rd_m3n3k1.py:46`, `61`, `76`). -/
def column (Φ : K → K → K → K × K × K) (J : K → K → K → ℕ → ℕ → K) (v : K × K × K → K × K × K) (a : ℕ) (P : K × K × K) : K :=
  J P.1 P.2.1 P.2.2 0 a * (v (Φ P.1 P.2.1 P.2.2)).1 + J P.1 P.2.1 P.2.2 1 a * (v (Φ P.1 P.2.1 P.2.2)).2.1 +
    J P.1 P.2.1 P.2.2 2 a * (v (Φ P.1 P.2.1 P.2.2)).2.2

/-- `___331_raw_msepy_orthogonal___` (`Rd_m3n3k1.py:36-86`), concatenated (`:109`). -/
def red31 (Φ : K → K → K → K × K × K) (J : K → K → K → ℕ → ℕ → K) (v : K × K × K → K × K × K) (p q r : ℕ)
    (xs ys zs qx wx qy wy qz wz : List K) : List K :=
  along (column Φ J v 0) wx (colsX3 p q r xs ys zs qx) (sizeX3 q r xs) ++
  along (column Φ J v 1) wy (colsY3 p q r xs ys zs qy) (sizeY3 p r ys) ++
  along (column Φ J v 2) wz (colsZ3 p q r xs ys zs qz) (sizeZ3 p q zs)

/-- `Jx_0 * u + Jx_1 * v + Jx_2 * w` (`Rd_m3n3k2.py:42-45`). -/
def faceX (Φ : K → K → K → K × K × K) (J : K → K → K → ℕ → ℕ → K) (v : K × K × K → K × K × K) (x y z : K) : K :=
  let j := J x y z
  let u := v (Φ x y z)
  (j 1 1 * j 2 2 - j 1 2 * j 2 1) * u.1 + (j 2 1 * j 0 2 - j 2 2 * j 0 1) * u.2.1 + (j 0 1 * j 1 2 - j 0 2 * j 1 1) * u.2.2

/-- `Jy_0 * u + Jy_1 * v + Jy_2 * w` (`Rd_m3n3k2.py:60-63`). -/
def faceY (Φ : K → K → K → K × K × K) (J : K → K → K → ℕ → ℕ → K) (v : K × K × K → K × K × K) (x y z : K) : K :=
  let j := J x y z
  let u := v (Φ x y z)
  (j 1 2 * j 2 0 - j 1 0 * j 2 2) * u.1 + (j 2 2 * j 0 0 - j 2 0 * j 0 2) * u.2.1 + (j 0 2 * j 1 0 - j 0 0 * j 1 2) * u.2.2

/-- `Jz_0 * u + Jz_1 * v + Jz_2 * w` (`Rd_m3n3k2.py:77-80`). -/
def faceZ (Φ : K → K → K → K × K × K) (J : K → K → K → ℕ → ℕ → K) (v : K × K × K → K × K × K) (x y z : K) : K :=
  let j := J x y z
  let u := v (Φ x y z)
  (j 1 0 * j 2 1 - j 1 1 * j 2 0) * u.1 + (j 2 0 * j 0 1 - j 2 1 * j 0 0) * u.2.1 + (j 0 0 * j 1 1 - j 0 1 * j 1 0) * u.2.2

/-- `np.einsum('kij, ij, k -> k', …, np.tensordot(w1, w2, axes=0), area * 0.25)` for one `k` (`Rd_m3n3k2.py:47-55`). -/
def over (g : K → K → K) (q1 w1 q2 w2 : List K) (area : K) : K :=
  (List.zipWith (fun a wa => (List.zipWith (fun b wb => g a b * (wa * wb)) q2 w2).sum) q1 w1).sum * (area * (1 / 4))

/-- `___332_raw_msepy_orthogonal___` (`Rd_m3n3k2.py:32-93`, `128-209`), concatenated (`:116`). The loops `for k: for j: for i:`
fill the entries of each component one after the other. -/
def red32 (Φ : K → K → K → K × K × K) (J : K → K → K → ℕ → ℕ → K) (v : K × K × K → K × K × K) (p q r : ℕ)
    (xs ys zs qx wx qy wy qz wz : List K) : List K :=
  ((List.range r).flatMap fun k => (List.range q).flatMap fun j => (List.range (p + 1)).map fun i =>
    over (fun b c => faceX Φ J v (xs.getD i 0) (inCell ys j b) (inCell zs k c)) qy wy qz wz (len zs k * len ys j)) ++
  ((List.range r).flatMap fun k => (List.range (q + 1)).flatMap fun j => (List.range p).map fun i =>
    over (fun a c => faceY Φ J v (inCell xs i a) (ys.getD j 0) (inCell zs k c)) qx wx qz wz (len zs k * len xs i)) ++
  ((List.range (r + 1)).flatMap fun k => (List.range q).flatMap fun j => (List.range p).map fun i =>
    over (fun a b => faceZ Φ J v (inCell xs i a) (inCell ys j b) (zs.getD k 0)) qx wx qy wy (len ys j * len xs i))

/-- The determinant, `element.ct.Jacobian` in 3d. -/
def jac3 (j : ℕ → ℕ → K) : K :=
  j 0 0 * j 1 1 * j 2 2 + j 0 1 * j 1 2 * j 2 0 + j 0 2 * j 1 0 * j 2 1 - j 0 0 * j 1 2 * j 2 1 - j 0 1 * j 1 0 * j 2 2 -
    j 0 2 * j 1 1 * j 2 0

/-- `___rd333_msepy_quadrilateral___` (`Rd_m3n3k3.py:35-61`, `69-116`). -/
def red33 (Φ : K → K → K → K × K × K) (J : K → K → K → ℕ → ℕ → K) (f : K × K × K → K) (p q r : ℕ)
    (xs ys zs qx wx qy wy qz wz : List K) : List K :=
  (List.range r).flatMap fun k => (List.range q).flatMap fun j => (List.range p).map fun i =>
    (List.zipWith (fun a wa => (List.zipWith (fun b wb => (List.zipWith (fun c wc =>
      (let x := inCell xs i a
       let y := inCell ys j b
       let z := inCell zs k c
       f (Φ x y z) * jac3 (J x y z) * wa * wb * wc)) qz wz).sum) qy wy).sum) qx wx).sum *
      (len xs i * len ys j * len zs k * (1 / 8))

end Phyem.Reduce
