import Verif.Poly.Model
import Verif.Mass.Main
import Verif.Cochain.Model
import Verif.Metric.Model
import Mathlib.Analysis.SpecialFunctions.Pow.Real

/-!
Model of norms, errors, masses and inner products of forms: `msehtt/static/space/{norm,error,mass,inner_product}/`,
`msehtt/static/form/addons/static.py:83-205`, `msepy/space/{norm,error}/Lambda.py`, and of the residual between two time instants
(`msehtt/static/form/main.py:605-653`, `msepy/form/main.py:371-447`). Exact real numbers instead of floats; `none` is `nan` or an
exception, as said at each definition. The values of a form at a point of the reference element are a function (`reconstruct`, see
C70 and C96), and so are the mapping and the Jacobian of an element (C72). The choice of a function by the type of the element is not
modelled.
-/

namespace Phyem.Norms

section grid

variable {K : Type} [Field K]

/-- A function of the points of the meshgrid of `xs` and `ys`, raveled in the order 'F': the first index runs fastest
(`Rc_m2n2k1.py:48-62`, `Rc_m2n2k0.py:38-53`). -/
def ravel2 {B : Type} (f : K → K → B) (xs ys : List K) : List B := ys.flatMap fun y => xs.map fun x => f x y

/-- In space (`Rc_m3n3k1.py:36-85`). -/
def ravel3 {B : Type} (f : K → K → K → B) (xs ys zs : List K) : List B :=
  zs.flatMap fun z => ys.flatMap fun y => xs.map fun x => f x y z

/-- `reshape(..., order='F')[i, j]` of a raveled array with `n` entries in the first direction. -/
def at2 {B : Type} (l : List B) (n i j : ℕ) (d : B) : B := l.getD (i + n * j) d

/-- In space, with `n` and `m` entries in the first two directions. -/
def at3 {B : Type} (l : List B) (n m i j k : ℕ) (d : B) : B := l.getD (i + n * (j + m * k)) d

/-- `np.einsum('i, i -> ', A, w)`. -/
def einsum1 (A : ℕ → K) (w : List K) : K := ((List.range w.length).map fun i => A i * w.getD i 0).sum

/-- `np.einsum('ij, i, j -> ', A, w0, w1)`. -/
def einsum2 (A : ℕ → ℕ → K) (w0 w1 : List K) : K :=
  ((List.range w0.length).map fun i => ((List.range w1.length).map fun j => A i j * w0.getD i 0 * w1.getD j 0).sum).sum

/-- `np.einsum('ijk, i, j, k -> ', A, w0, w1, w2)`. -/
def einsum3 (A : ℕ → ℕ → ℕ → K) (w0 w1 w2 : List K) : K :=
  ((List.range w0.length).map fun i => ((List.range w1.length).map fun j => ((List.range w2.length).map fun k =>
    A i j k * w0.getD i 0 * w1.getD j 0 * w2.getD k 0).sum).sum).sum

/-- The nodes and the weights of a one-dimensional quadrature rule (`tools/quadrature.py:168-200`). -/
structure Quad (K : Type) where
  nodes : List K
  weights : List K

/-- `(u - exact_u) ** d + (v - exact_v) ** d` at one point; the components are a list. -/
def diffPow (d : ℕ) (u ex : List K) : K := (List.zipWith (fun a b => (a - b) ^ d) u ex).sum

/-- `u ** d + v ** d` at one point. -/
def valPow (d : ℕ) (u : List K) : K := (u.map fun a => a ^ d).sum

/-- The error of an element in the plane (`Er_m2n2k0.py:38-70`, `Er_m2n2k1.py:65-122`, `Er_m2n2k2.py` with `d = 2`;
`msepy/space/error/Lambda.py`, 2-dimensional cases, with any `d`): `val` reconstructs the form, `cf` is the exact solution at the time,
`jac` the Jacobian; the reconstruction gives the arrays `x, y, u, v` (`reshape(..., order='F')`), the Jacobian is evaluated on
`np.meshgrid(*nodes, indexing='ij')`. -/
def er2 (d : ℕ) (Φ : K → K → K × K) (jac : K → K → K) (val : K → K → List K) (cf : K × K → List K) (qx qy : Quad K) : K :=
  let n := qx.nodes.length
  let P := ravel2 Φ qx.nodes qy.nodes
  let U := ravel2 val qx.nodes qy.nodes
  einsum2 (fun i j => jac (qx.nodes.getD i 0) (qy.nodes.getD j 0) * diffPow d (at2 U n i j []) (cf (at2 P n i j (0, 0))))
    qx.weights qy.weights

/-- The error of an element in space (`Er_m3n3k0.py:41-70` and so on; `msepy/space/error/Lambda.py`). -/
def er3 (d : ℕ) (Φ : K → K → K → K × K × K) (jac : K → K → K → K) (val : K → K → K → List K) (cf : K × K × K → List K)
    (qx qy qz : Quad K) : K :=
  let n := qx.nodes.length
  let m := qy.nodes.length
  let P := ravel3 Φ qx.nodes qy.nodes qz.nodes
  let U := ravel3 val qx.nodes qy.nodes qz.nodes
  einsum3 (fun i j k => jac (qx.nodes.getD i 0) (qy.nodes.getD j 0) (qz.nodes.getD k 0) *
      diffPow d (at3 U n m i j k []) (cf (at3 P n m i j k (0, 0, 0))))
    qx.weights qy.weights qz.weights

/-- The error of an element on a line (`msepy/space/error/Lambda.py`, 1-dimensional cases). -/
def er1 (d : ℕ) (Φ : K → K) (jac : K → K) (val : K → List K) (cf : K → List K) (qx : Quad K) : K :=
  einsum1 (fun i => jac (qx.nodes.getD i 0) *
    diffPow d ((qx.nodes.map val).getD i []) (cf ((qx.nodes.map Φ).getD i 0))) qx.weights

/-- The norm of an element on a line, in the plane and in space by quadrature (`msepy/space/norm/Lambda.py:37-260`). -/
def no1 (d : ℕ) (jac : K → K) (val : K → List K) (qx : Quad K) : K :=
  einsum1 (fun i => jac (qx.nodes.getD i 0) * valPow d ((qx.nodes.map val).getD i [])) qx.weights

def no2 (d : ℕ) (jac : K → K → K) (val : K → K → List K) (qx qy : Quad K) : K :=
  let U := ravel2 val qx.nodes qy.nodes
  einsum2 (fun i j => jac (qx.nodes.getD i 0) (qy.nodes.getD j 0) * valPow d (at2 U qx.nodes.length i j [])) qx.weights qy.weights

def no3 (d : ℕ) (jac : K → K → K → K) (val : K → K → K → List K) (qx qy qz : Quad K) : K :=
  let U := ravel3 val qx.nodes qy.nodes qz.nodes
  einsum3 (fun i j k => jac (qx.nodes.getD i 0) (qy.nodes.getD j 0) (qz.nodes.getD k 0) *
    valPow d (at3 U qx.nodes.length qy.nodes.length i j k [])) qx.weights qy.weights qz.weights

/-- The mass of an element in the plane (`mass_m2n2k0.py:35-51`, `mass_m2n2k2.py`) and in space (`mass_m3n3k0.py`,
`mass_m3n3k3.py`): `val` has one component. -/
def mass2 (jac : K → K → K) (val : K → K → K) (qx qy : Quad K) : K :=
  let U := ravel2 val qx.nodes qy.nodes
  einsum2 (fun i j => jac (qx.nodes.getD i 0) (qy.nodes.getD j 0) * at2 U qx.nodes.length i j 0) qx.weights qy.weights

def mass3 (jac : K → K → K → K) (val : K → K → K → K) (qx qy qz : Quad K) : K :=
  let U := ravel3 val qx.nodes qy.nodes qz.nodes
  einsum3 (fun i j k => jac (qx.nodes.getD i 0) (qy.nodes.getD j 0) (qz.nodes.getD k 0) *
    at3 U qx.nodes.length qy.nodes.length i j k 0) qx.weights qy.weights qz.weights

/-- The inner product of two 1-forms on an element (`IP_LL_m2n2k1.py:63-83`). `element.ct.Jacobian(quad_nodes, quad_nodes)` is a
one-dimensional array, of the Jacobians at the points with equal coordinates, and numpy multiplies it to every row. (For elements
with a constant Jacobian it is a number: the same value.) -/
def ip2 (jac : K → K → K) (val1 val2 : K → K → List K) (q : Quad K) : K :=
  let U1 := ravel2 val1 q.nodes q.nodes
  let U2 := ravel2 val2 q.nodes q.nodes
  let n := q.nodes.length
  einsum2 (fun i j => (List.zipWith (· * ·) (at2 U1 n i j []) (at2 U2 n i j [])).sum * jac (q.nodes.getD j 0) (q.nodes.getD j 0))
    q.weights q.weights

/-- The Jacobian of an element of space as numpy sees it: a number for orthogonal hexahedra
(`orthogonal_hexahedron.py:375, 395-400`), a function of arrays otherwise. -/
inductive Jac3 (K : Type) where
  | const (c : K)
  | fn (f : K → K → K → K)

/-- The number of an element for component `r` in the component-wise norm (`norm_m3n3k1.py:33-75`, `norm_m3n3k2.py:33-59`):
`element.ct.Jacobian(*nodes)` is evaluated at the points with equal indices and multiplied along the last axis. `none`: arrays of
different lengths (simplification: arrays of length one included). -/
def comp3 (J : Jac3 K) (val : K → K → K → List K) (r : ℕ) (qx qy qz : Quad K) : Option K :=
  let n := qx.nodes.length
  let m := qy.nodes.length
  let U := ravel3 val qx.nodes qy.nodes qz.nodes
  let sq := fun i j k => (at3 U n m i j k []).getD r 0 ^ 2
  match J with
  | .const c => some (einsum3 (fun i j k => sq i j k * c) qx.weights qy.weights qz.weights)
  | .fn f =>
    if n = m ∧ m = qz.nodes.length then
      some (einsum3 (fun i j k => sq i j k * f (qx.nodes.getD k 0) (qy.nodes.getD k 0) (qz.nodes.getD k 0))
        qx.weights qy.weights qz.weights)
    else none

/-- `np.sum(c * (M @ c))` (`norm_m2n2k0.py`, `norm_m2n2k1.py:25`, `norm_m3n3k2.py:25`), `M` an `N` times `N` matrix. -/
def sq (N : ℕ) (M : ℕ → ℕ → K) (c : ℕ → K) : K :=
  ((List.range N).map fun i => c i * ((List.range N).map fun j => M i j * c j).sum).sum

/-- An element on a line, in the plane and in space, as the functions above see it: the mapping, the Jacobian matrix, the
reconstruction of the local cochain and the quadrature rules. -/
structure El1 (K : Type) where
  Φ : K → K
  J : K → ℕ → ℕ → K
  val : K → List K
  qx : Quad K

structure El2 (K : Type) where
  Φ : K → K → K × K
  J : K → K → ℕ → ℕ → K
  val : K → K → List K
  qx : Quad K
  qy : Quad K

structure El3 (K : Type) where
  Φ : K → K → K → K × K × K
  J : K → K → K → ℕ → ℕ → K
  val : K → K → K → List K
  qx : Quad K
  qy : Quad K
  qz : Quad K

/-- `element.ct.Jacobian` (`base.py:711-724`, `coordinate_transformation.py:184-194`). -/
def El1.jac (e : El1 K) (x : K) : K := (Metric.jacobian 1 1 (e.J x)).getD 0
def El2.jac (e : El2 K) (x y : K) : K := (Metric.jacobian 2 2 (e.J x y)).getD 0
def El3.jac (e : El3 K) (x y z : K) : K := (Metric.jacobian 3 3 (e.J x y z)).getD 0

/-- The numbers of the elements in the errors and the norms by quadrature. -/
def El1.er (d : ℕ) (cf : K → List K) (e : El1 K) : K := er1 d e.Φ e.jac e.val cf e.qx
def El2.er (d : ℕ) (cf : K × K → List K) (e : El2 K) : K := er2 d e.Φ e.jac e.val cf e.qx e.qy
def El3.er (d : ℕ) (cf : K × K × K → List K) (e : El3 K) : K := er3 d e.Φ e.jac e.val cf e.qx e.qy e.qz
def El1.no (d : ℕ) (e : El1 K) : K := no1 d e.jac e.val e.qx
def El2.no (d : ℕ) (e : El2 K) : K := no2 d e.jac e.val e.qx e.qy
def El3.no (d : ℕ) (e : El3 K) : K := no3 d e.jac e.val e.qx e.qy e.qz

/-- The sum over the elements of a rank, then over the ranks (`norm_m2n2k1.py:20-26`, `Er_m2n2k1.py:50-56`,
`mass_m2n2k0.py:30-31`, `IP_LL_m2n2k1.py:85-87`, `norm_m3n3k2.py:61-69`). -/
def total (ranks : List (List K)) : K := (ranks.map List.sum).sum

end grid

/-! ### Roots -/

/-- `S ** 0.5`; `none` is `nan` (`Er_m2n2k1.py:55`, `norm_m2n2k1.py:26`). -/
noncomputable def root2 (S : ℝ) : Option ℝ := if 0 ≤ S then some (Real.sqrt S) else none

/-- `S ** (1/d)` (`msepy/space/norm/Lambda.py:62`); `none` is `nan`: numpy has no root of a negative number, whatever the
degree of the root; `1/1` is `1.0`. -/
noncomputable def rootd (d : ℕ) (S : ℝ) : Option ℝ :=
  if d = 1 then some S else if 0 ≤ S then some (S ^ (1 / (d : ℝ))) else none

/-- The L2 error and the L2 norm of `msehtt` from the numbers of the elements; the same on every rank (`COMM.bcast`,
`COMM.allgather`). `typ` is `error_type` or `norm_type`: anything other than `'L2'` raises. -/
noncomputable def l2 (typ : String) (ranks : List (List ℝ)) : Option ℝ :=
  if typ = "L2" then root2 (total ranks) else none

/-- `norm` of a cochain (`norm_m2n2k0.py`, `norm_m2n2k1.py:12-28, 35-51`, `norm_m2n2k2.py`, `norm_m3n3k0.py` … `norm_m3n3k3.py`):
`ranks` are the indices of the elements of each rank, `M e` the local mass matrix (with `N e` rows) and `c e` the local cochain of
element `e`. -/
noncomputable def formNorm (typ : String) (ranks : List (List ℕ)) (N : ℕ → ℕ) (M : ℕ → ℕ → ℕ → ℝ) (c : ℕ → ℕ → ℝ) : Option ℝ :=
  l2 typ (ranks.map fun r => r.map fun e => sq (N e) (M e) (c e))

/-- The L^d norm and error of `msepy` from the numbers of the elements of each region (`msepy/space/norm/Lambda.py:26-62`):
`assert d > 0`. -/
noncomputable def ld (d : ℕ) (regions : List (List ℝ)) : Option ℝ := if d = 0 then none else rootd d (total regions)

/-- `error` of a form at a time instant (`msehtt/static/form/addons/static.py:83-114`): `self` is the L2 error of the form, `dself`
that of its exterior derivative, with `cf.exterior_derivative()`, the coboundary of the cochain and the same degree. -/
noncomputable def formError (typ : String) (self dself : Option ℝ) : Option ℝ :=
  if typ = "L2" then self
  else if typ = "d_L2" then dself
  else if typ = "H1" then do
    let a ← self
    let b ← dself
    root2 (a ^ 2 + b ^ 2)
  else none

/-- `error` of a form of `msepy` (`msepy/form/main.py:371-388`); `d` is passed on to both. -/
noncomputable def formErrorPy (typ : String) (self dself : Option ℝ) : Option ℝ :=
  if typ = "L2" then self
  else if typ = "H1" then do
    let a ← self
    let b ← dself
    root2 (a ^ 2 + b ^ 2)
  else none

/-! ### The residual between two time instants -/

/-- What a call returns: an exception, `nan` or a value. -/
inductive Ret (V : Type) where
  | error
  | nan
  | value (v : V)
deriving DecidableEq

/-- The two times: those given, the last and the last but one stored otherwise (`main.py:607-631`, `msepy/form/main.py:407-431`).
`times` are the sorted keys of the store. -/
def residualTimes (times : List ℚ) (fromT toT : Option ℚ) : Option ℚ × Option ℚ :=
  let toT := match toT with
    | some t => some t
    | none => times.getLast?
  let fromT := match fromT with
    | some t => some t
    | none => if times.length = 1 then times.getLast? else times.dropLast.getLast?
  (fromT, toT)

/-- `norm_residual` of `msehtt` (`msehtt/static/form/main.py:605-653`): `norm` is `space.norm` of a cochain. -/
def residualHtt {V : Type} [Sub V] (s : Cochain.S V) (norm : V → ℝ) (fromT toT : Option ℚ) : Ret ℝ :=
  match residualTimes (Cochain.sortedKeys s.tcd) fromT toT with
  | (none, none) => .nan
  | (none, some _) => .error
  | (some _, none) => .error
  | (some a, some b) =>
    if Cochain.parseT a = Cochain.parseT b then .nan
    else match Cochain.getItem s (some (Cochain.parseT a)), Cochain.getItem s (some (Cochain.parseT b)) with
      | some u, some v => .value (norm (v - u))
      | _, _ => .error

/-- `norm_residual` of `msepy` (`msepy/form/main.py:405-447`): the times are compared before they are rounded. -/
def residualPy {V : Type} [Sub V] (s : Cochain.S V) (norm : V → ℝ) (fromT toT : Option ℚ) : Ret ℝ :=
  match residualTimes (Cochain.sortedKeys s.tcd) fromT toT with
  | (none, none) => .nan
  | (none, some _) => .error
  | (some _, none) => .error
  | (some a, some b) =>
    if a = b then .nan
    else match Cochain.getItem s (some a), Cochain.getItem s (some b) with
      | some u, some v => .value (norm (v - u))
      | _, _ => .error

end Phyem.Norms
