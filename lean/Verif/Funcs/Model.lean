import Mathlib.Algebra.Order.Field.Basic
import Mathlib.Algebra.Order.Group.Abs
import Mathlib.Algebra.Order.Floor.Defs
import Mathlib.Data.List.Basic

/-!
# Functions of time and space in two dimensions

Model of the wrapper classes of `/repo/tools/functions/time_space/_2d`, of the numerical derivatives
in `/repo/tools/numerical`, and of the time integral of vectors.  Numbers are the elements of a
field, a wrapped python function is a function of the numbers `t, x, y` (the code broadcasts it over
arrays of points).  A raised exception is `none`.

Not modelled: the visualisation, merging with a form over a boundary, `[t]` and `@ t` (partial
application), the caches of derived functions (their values do not depend on the state), and the
inspection of the number of arguments of a python function.
-/

namespace Phyem.Funcs

section Derivative

variable {K : Type} [Field K]

/-- `tools/numerical/derivative.py:28-29`: the central difference. -/
def central (f : K → K) (x h : K) : K := (f (x + h) - f (x - h)) / (2 * h)

/-- `tools/numerical/derivative.py:6-35` -/
def derivative (f : K → K) (x : K) (method : String) (h : K) : Option K :=
  if method = "central" then some (central f x h)
  else if method = "forward" then some ((f (x + h) - f x) / h)
  else if method = "backward" then some ((f x - f (x - h)) / h)
  else none

end Derivative

/-- A python function of `(t, x, y)`. -/
abbrev F2 (K : Type) := K → K → K → K

/-- The variables a function can be differentiated in. -/
inductive Ax2 | t | x | y
  deriving DecidableEq

section Plane

variable {K : Type} [Field K]

/-- `tools/numerical/time_space/_2d/partial_derivative.py:13`: the default step. -/
def h2 : K := 1 / 10000

/-- `tools/numerical/time_space/_2d/partial_derivative.py:42-62` with
`partial_derivative_as_functions.py:31-61`: the numerical partial derivative as a function.  The
default method of `derivative` is the central one. -/
def npd2 : Ax2 → F2 K → F2 K
  | .t, f => fun t x y => central (fun u => f u x y) t h2
  | .x, f => fun t x y => central (fun u => f t u y) x h2
  | .y, f => fun t x y => central (fun u => f t x u) y h2

/-- `_2d/wrappers/scalar.py:27-29` and `vector.py:26-27` -/
def zero2 : F2 K := fun _ _ _ => 0

/-- `_2d/wrappers/helpers/scalar_add.py:14-15` -/
def add2 (a b : F2 K) : F2 K := fun t x y => a t x y + b t x y

/-- `_2d/wrappers/helpers/scalar_sub.py:14-15` -/
def sub2 (a b : F2 K) : F2 K := fun t x y => a t x y - b t x y

/-- `_2d/wrappers/helpers/scalar_neg.py:13-14` -/
def neg2 (a : F2 K) : F2 K := fun t x y => - a t x y

/-- `_2d/wrappers/helpers/scalar_mul.py:27-35` for two functions. -/
def mul2 (a b : F2 K) : F2 K := fun t x y => a t x y * b t x y

/-- `_2d/wrappers/helpers/scalar_mul.py:27-33` for a number and a function, in either order
(lines 17-22 put the number first). -/
def smul2 (c : K) (a : F2 K) : F2 K := fun t x y => c * a t x y

/-- What a user can give for a derivative or a component: nothing, a number or a function. -/
inductive DArg (F K : Type)
  | none
  | num (c : K)
  | fn (f : F)

/-- The kinds of meshes the setters distinguish, `_2d/wrappers/scalar.py:170-175`. -/
inductive MeshKind | part | multigrid | other
  deriving DecidableEq

/-- A mesh as the setters see it: its identity, its kind, and for every element the images of the
points at which derivatives are checked (`_2d/wrappers/scalar.py:167-178`). -/
structure Mesh2 (K : Type) where
  id : Nat
  kind : MeshKind
  elements : List (List (K × K))

/-- The scalar class, `_2d/wrappers/scalar.py:32-117`. -/
structure S2 (K : Type) where
  s : F2 K
  dt : Option (F2 K)
  dx : Option (F2 K)
  dy : Option (F2 K)
  ddtt : Option (F2 K)
  ddxx : Option (F2 K)
  ddxy : Option (F2 K)
  ddyx : Option (F2 K)
  ddyy : Option (F2 K)
  mesh : Option (Mesh2 K)

/-- The vector class, `_2d/wrappers/vector.py:30-160`. -/
structure V2 (K : Type) where
  v0 : F2 K
  v1 : F2 K
  dudt : Option (F2 K)
  dvdt : Option (F2 K)
  dudx : Option (F2 K)
  dudy : Option (F2 K)
  dvdx : Option (F2 K)
  dvdy : Option (F2 K)
  linked : Option (K → K → K → K × K)
  mesh : Option (Mesh2 K)

/-- The tensor class, `_2d/wrappers/tensor.py:14-47`. -/
structure T2 (K : Type) where
  t00 : F2 K
  t01 : F2 K
  t10 : F2 K
  t11 : F2 K

/-- The operands the operators distinguish. -/
inductive Obj2 (K : Type)
  | num (c : K)
  | scalar (s : S2 K)
  | vector (v : V2 K)
  | tensor (t : T2 K)

/-- `__class__.__name__` -/
def Obj2.className : Obj2 K → String
  | .num _ => "float"
  | .scalar _ => "T2dScalar"
  | .vector _ => "T2dVector"
  | .tensor _ => "T2dTensor"

/-- A scalar made from a function and a mesh only, `T2dScalar(f, mesh=m)`; the setter of the mesh
checks nothing then (`Phyem.Funcs.make_plain`). -/
def S2.plain (f : F2 K) (m : Option (Mesh2 K)) : S2 K :=
  ⟨f, none, none, none, none, none, none, none, none, m⟩

/-- `T2dVector(a, b, mesh=m)` -/
def V2.plain (a b : F2 K) (m : Option (Mesh2 K)) : V2 K :=
  ⟨a, b, none, none, none, none, none, none, none, m⟩

/-- `self.mesh is other.mesh` -/
def sameMesh (a b : Option (Mesh2 K)) : Bool := a.map (·.id) == b.map (·.id)

/-- A given derivative, or the numerical one if none is given, as in
`_2d/wrappers/scalar.py:297-300`. -/
def given2 (a : Ax2) (f : F2 K) (d : Option (F2 K)) : F2 K :=
  match d with
  | none => npd2 a f
  | some d => d

/-! ### Scalars -/

/-- `_2d/wrappers/scalar.py:119-120` -/
def S2.call (a : S2 K) (t x y : K) : List K := [a.s t x y]

/-- `_2d/wrappers/scalar.py:286-292` -/
def S2.timeDerivative (a : S2 K) : S2 K :=
  .plain (given2 .t a.s a.dt) a.mesh

/-- `px` of `_2d/wrappers/scalar.py:297-300`, `314-317` and `375-378` -/
def S2.px (a : S2 K) : F2 K := given2 .x a.s a.dx

/-- `py` of `_2d/wrappers/scalar.py:302-305`, `319-322` and `380-383` -/
def S2.py (a : S2 K) : F2 K := given2 .y a.s a.dy

/-- `_2d/wrappers/scalar.py:295-309` -/
def S2.gradient (a : S2 K) : V2 K := .plain a.px a.py a.mesh

/-- `_2d/wrappers/scalar.py:312-328` -/
def S2.curl (a : S2 K) : V2 K := .plain a.py (neg2 a.px) a.mesh

/-- `_2d/wrappers/scalar.py:364-392` -/
def S2.convectionBy (a : S2 K) (u : Obj2 K) : Option (S2 K) :=
  if u.className = "t2dVector" then
    match u with
    | .vector v => some (.plain (add2 (mul2 v.v0 a.px) (mul2 v.v1 a.py)) none)
    | _ => none
  else none

/-- `_2d/wrappers/scalar.py:394-403` -/
def S2.add (a : S2 K) : Obj2 K → Option (S2 K)
  | .scalar b => some (.plain (add2 a.s b.s) none)
  | _ => none

/-- `_2d/wrappers/scalar.py:405-414` -/
def S2.sub (a : S2 K) : Obj2 K → Option (S2 K)
  | .scalar b => some (.plain (sub2 a.s b.s) none)
  | _ => none

/-- `_2d/wrappers/scalar.py:416-421` -/
def S2.neg (a : S2 K) : S2 K := .plain (neg2 a.s) none

/-- `_2d/wrappers/scalar.py:423-439` -/
def S2.mul (a : S2 K) : Obj2 K → Option (Obj2 K)
  | .scalar b => some (.scalar (.plain (mul2 a.s b.s) none))
  | .num c => some (.scalar (.plain (smul2 c a.s) none))
  | .vector v => some (.vector (.plain (mul2 a.s v.v0) (mul2 a.s v.v1) none))
  | .tensor _ => none

/-- `_2d/wrappers/scalar.py:441-448` -/
def S2.rmul (a : S2 K) : Obj2 K → Option (Obj2 K)
  | .num c => a.mul (.num c)
  | .vector v => a.mul (.vector v)
  | _ => none

/-- `_2d/wrappers/scalar.py:450-465` -/
def S2.cross (a : S2 K) : Obj2 K → Option (V2 K)
  | .vector v => some (.plain (neg2 (mul2 a.s v.v1)) (mul2 a.s v.v0) none)
  | _ => none

/-! ### Vectors -/

/-- `_2d/wrappers/vector.py:162-167` -/
def V2.call (v : V2 K) (t x y : K) : K × K :=
  match v.linked with
  | none => (v.v0 t x y, v.v1 t x y)
  | some l => l t x y

/-- `_2d/wrappers/vector.py:305-319` -/
def V2.timeDerivative (v : V2 K) : V2 K :=
  .plain (given2 .t v.v0 v.dudt)
    (given2 .t v.v1 v.dvdt) v.mesh

/-- `_2d/wrappers/vector.py:432-435` (and again in `curl`, `divergence`, `convection_by`) -/
def V2.ux (v : V2 K) : F2 K := given2 .x v.v0 v.dudx

/-- `_2d/wrappers/vector.py:437-440` (and again in `curl`, `rot`, `convection_by`) -/
def V2.uy (v : V2 K) : F2 K := given2 .y v.v0 v.dudy

/-- `_2d/wrappers/vector.py:442-445` (and again in `curl`, `rot`, `convection_by`) -/
def V2.vx (v : V2 K) : F2 K := given2 .x v.v1 v.dvdx

/-- `_2d/wrappers/vector.py:447-450` (and again in `curl`, `divergence`, `convection_by`) -/
def V2.vy (v : V2 K) : F2 K := given2 .y v.v1 v.dvdy

/-- `_2d/wrappers/vector.py:429-456` -/
def V2.gradient (v : V2 K) : T2 K := ⟨v.ux, v.uy, v.vx, v.vy⟩

/-- `_2d/wrappers/vector.py:459-489` -/
def V2.curl (v : V2 K) : T2 K := ⟨v.uy, neg2 v.ux, v.vy, neg2 v.vx⟩

/-- `_2d/wrappers/vector.py:492-509` -/
def V2.divergence (v : V2 K) : S2 K := .plain (add2 v.ux v.vy) none

/-- `_2d/wrappers/vector.py:512-537` -/
def V2.rot (v : V2 K) : S2 K := .plain (sub2 v.vx v.uy) none

/-- `_2d/wrappers/vector.py:606-631` -/
def V2.add (v : V2 K) : Obj2 K → Option (V2 K)
  | .vector w => some (.plain (add2 v.v0 w.v0) (add2 v.v1 w.v1)
      (if sameMesh v.mesh w.mesh then v.mesh else none))
  | _ => none

/-- `_2d/wrappers/vector.py:633-658` -/
def V2.sub (v : V2 K) : Obj2 K → Option (V2 K)
  | .vector w => some (.plain (sub2 v.v0 w.v0) (sub2 v.v1 w.v1)
      (if sameMesh v.mesh w.mesh then v.mesh else none))
  | _ => none

/-- `_2d/wrappers/vector.py:540-544` -/
def V2.laplacian (v : V2 K) : Option (V2 K) := v.divergence.gradient.sub (.vector v.rot.curl)

/-- `_2d/wrappers/scalar.py:331-337` -/
def S2.laplacian (a : S2 K) : S2 K :=
  match a.ddxx, a.ddyy with
  | some xx, some yy => .plain (add2 xx yy) a.mesh
  | _, _ => a.gradient.divergence

/-- `_2d/wrappers/vector.py:562-604` -/
def V2.convectionBy (v : V2 K) (u : Obj2 K) : Option (V2 K) :=
  if u.className = "T2dVector" then
    match u with
    | .vector w => some (.plain (add2 (mul2 w.v0 v.ux) (mul2 w.v1 v.uy))
        (add2 (mul2 w.v0 v.vx) (mul2 w.v1 v.vy)) (if sameMesh v.mesh w.mesh then v.mesh else none))
    | _ => none
  else none

/-- `_2d/wrappers/vector.py:660-666` -/
def V2.neg (v : V2 K) : V2 K := .plain (neg2 v.v0) (neg2 v.v1) v.mesh

/-- `_2d/wrappers/vector.py:668-678` -/
def V2.mul (v : V2 K) : Obj2 K → Option (V2 K)
  | .num c => some (.plain (smul2 c v.v0) (smul2 c v.v1) v.mesh)
  | _ => none

/-- `_2d/wrappers/vector.py:680-685` -/
def V2.rmul (v : V2 K) : Obj2 K → Option (V2 K)
  | .num c => v.mul (.num c)
  | _ => none

/-- `_2d/wrappers/vector.py:687-712` -/
def V2.dot (v : V2 K) : Obj2 K → Option (S2 K)
  | .vector w => some (.plain (add2 (mul2 v.v0 w.v0) (mul2 v.v1 w.v1)) none)
  | _ => none

/-- `_2d/wrappers/vector.py:718-739` -/
def V2.cross (v : V2 K) : Obj2 K → Option (Obj2 K)
  | .vector w => some (.scalar (.plain (sub2 (mul2 v.v0 w.v1) (mul2 v.v1 w.v0)) none))
  | .scalar a => (a.cross (.vector v)).map fun w => .vector w.neg
  | _ => none

/-- `_2d/wrappers/vector.py:741-762` -/
def V2.tensorProduct (v : V2 K) : Obj2 K → Option (T2 K)
  | .vector w => some ⟨mul2 v.v0 w.v0, mul2 v.v0 w.v1, mul2 v.v1 w.v0, mul2 v.v1 w.v1⟩
  | _ => none

/-! ### Tensors -/

/-- `_2d/wrappers/tensor.py:49-54` -/
def T2.call (a : T2 K) (t x y : K) : (K × K) × (K × K) :=
  ((a.t00 t x y, a.t01 t x y), (a.t10 t x y, a.t11 t x y))

/-- `_2d/wrappers/tensor.py:101-107` -/
def T2.timeDerivative (a : T2 K) : T2 K :=
  ⟨npd2 .t a.t00, npd2 .t a.t01, npd2 .t a.t10, npd2 .t a.t11⟩

/-- `_2d/wrappers/tensor.py:110-125` -/
def T2.divergence (a : T2 K) : V2 K :=
  .plain (add2 (npd2 .x a.t00) (npd2 .y a.t01)) (add2 (npd2 .x a.t10) (npd2 .y a.t11)) none

/-- `_2d/wrappers/tensor.py:128-143` -/
def T2.rot (a : T2 K) : V2 K :=
  .plain (sub2 (npd2 .x a.t01) (npd2 .y a.t00)) (sub2 (npd2 .x a.t11) (npd2 .y a.t10)) none

/-- Python's `a * b`: `__mul__` of the left operand; `__rmul__` of the right one only if the left
one is a number.  An exception raised in `__mul__` is final, tensors have neither method. -/
def pyMul : Obj2 K → Obj2 K → Option (Obj2 K)
  | .scalar a, b => a.mul b
  | .vector v, b => (v.mul b).map .vector
  | .num c, .scalar a => a.rmul (.num c)
  | .num c, .vector v => (v.rmul (.num c)).map .vector
  | .num c, .num d => some (.num (c * d))
  | .num _, .tensor _ => none
  | .tensor _, _ => none

end Plane

/-! ### Constructors and the checks when a mesh is set -/

section Checks

variable {K : Type} [Field K] [LinearOrder K]

/-- `_2d/wrappers/scalar.py:67-73`: one given derivative; `zero` is the zero function. -/
def parseD {F : Type} (zero : F) : DArg F K → Option (Option F)
  | .none => some none
  | .num c => if c = 0 then some (some zero) else none
  | .fn f => some (some f)

/-- `_2d/wrappers/scalar.py:60-73`: all `n` derivatives. -/
def parseAll {F : Type} (zero : F) (n : Nat) : Option (List (DArg F K)) → Option (List (Option F))
  | none => some (List.replicate n none)
  | some l => if l.length = n then l.mapM (parseD zero) else none

/-- The comparison of `tools/numerical/time_space/_2d/partial_derivative.py:75-81` over the list of
pairs (given, numerical) at the points: the maximal absolute error or the maximal relative error is
below the tolerance.  A division by zero gives `inf` or `nan`, neither is below the tolerance.  The
maximum over no points raises an error. -/
def close (tol : K) (v : List (K × K)) : Bool :=
  !v.isEmpty && (v.all (fun p => |p.1 - p.2| < tol) ||
    v.all fun p => p.2 != 0 && decide (|(p.1 - p.2) / p.2| < tol))

/-- `tools/numerical/time_space/_2d/partial_derivative.py:72`: the default tolerance. -/
def tol : K := 1 / 100000

/-- `tools/numerical/time_space/_2d/partial_derivative.py:72-109`: `d` against the partial
derivative of `f` at time `t` and the given points. -/
def checkPartial2 (a : Ax2) (f d : F2 K) (t : K) (pts : List (K × K)) : Bool :=
  close tol (pts.map fun p => (d t p.1 p.2, npd2 a f t p.1 p.2))

/-- A check that is only done for a derivative that is given, as in
`_2d/wrappers/scalar.py:191-196`. -/
def optCheck2 (a : Ax2) (f : F2 K) (d : Option (F2 K)) (t : K) (pts : List (K × K)) : Bool :=
  match d with
  | none => true
  | some d => checkPartial2 a f d t pts

/-- `len(d_check_list) != 0 or len(dd_check_list) != 0`, `_2d/wrappers/scalar.py:142-164` -/
def S2.anyGiven (a : S2 K) : Bool :=
  a.dt.isSome || a.dx.isSome || a.dy.isSome || a.ddtt.isSome || a.ddxx.isSome || a.ddxy.isSome ||
    a.ddyx.isSome || a.ddyy.isSome

/-- `_2d/wrappers/scalar.py:138-233`.  `draw l i` is the random time drawn for element number `i` in
the loop number `l` over the elements. -/
def S2.setMesh (a : S2 K) (m : Mesh2 K) (draw : Nat → Nat → K) : Option (S2 K) :=
  if a.anyGiven then
    if m.kind = .other then none
    else if
      (m.elements.zipIdx.all fun e => optCheck2 .t a.s a.dt (draw 0 e.2) e.1 &&
        optCheck2 .x a.s a.dx (draw 0 e.2) e.1 && optCheck2 .y a.s a.dy (draw 0 e.2) e.1) &&
      (m.elements.zipIdx.all fun e => optCheck2 .t (npd2 .t a.s) a.ddtt (draw 1 e.2) e.1) &&
      (m.elements.zipIdx.all fun e => optCheck2 .x (npd2 .x a.s) a.ddxx (draw 2 e.2) e.1 &&
        optCheck2 .y (npd2 .x a.s) a.ddxy (draw 2 e.2) e.1) &&
      (m.elements.zipIdx.all fun e => optCheck2 .x (npd2 .y a.s) a.ddyx (draw 3 e.2) e.1 &&
        optCheck2 .y (npd2 .y a.s) a.ddyy (draw 3 e.2) e.1)
    then some { a with mesh := some m }
    else none
  else some { a with mesh := some m }

/-- `_2d/wrappers/scalar.py:35-117` -/
def S2.make (s : F2 K) (steady : Bool) (derivative second : Option (List (DArg (F2 K) K)))
    (mesh : Option (Mesh2 K)) (draw : Nat → Nat → K) : Option (S2 K) :=
  match parseAll zero2 3 derivative, parseAll zero2 5 second with
  | some D, some DD =>
    let a : S2 K := ⟨s, if steady then some zero2 else D.getD 0 none, D.getD 1 none, D.getD 2 none,
      DD.getD 0 none, DD.getD 1 none, DD.getD 2 none, DD.getD 3 none, DD.getD 4 none, none⟩
    match mesh with
    | none => some a
    | some m => a.setMesh m draw
  | _, _ => none

/-- `len(d_check_list) != 0`, `_2d/wrappers/vector.py:189-207` -/
def V2.anyGiven (v : V2 K) : Bool :=
  v.dudt.isSome || v.dvdt.isSome || v.dudx.isSome || v.dudy.isSome || v.dvdx.isSome || v.dvdy.isSome

/-- `_2d/wrappers/vector.py:185-249` -/
def V2.setMesh (v : V2 K) (m : Mesh2 K) (draw : Nat → K) : Option (V2 K) :=
  if v.anyGiven then
    if m.kind = .other then none
    else if
      m.elements.zipIdx.all fun e => optCheck2 .t v.v0 v.dudt (draw e.2) e.1 &&
        optCheck2 .t v.v1 v.dvdt (draw e.2) e.1 && optCheck2 .x v.v0 v.dudx (draw e.2) e.1 &&
        optCheck2 .y v.v0 v.dudy (draw e.2) e.1 && optCheck2 .x v.v1 v.dvdx (draw e.2) e.1 &&
        optCheck2 .y v.v1 v.dvdy (draw e.2) e.1
    then some { v with mesh := some m }
    else none
  else some { v with mesh := some m }

/-- `_2d/wrappers/vector.py:82-90`: a component that is the number zero.  Another number is kept by
the code and fails at the first evaluation; it is refused here. -/
def parseV {F : Type} (zero : F) : DArg F K → Option F
  | .none => none
  | .num c => if c = 0 then some zero else none
  | .fn f => some f

/-- `_2d/wrappers/vector.py:34-160`.  Numbers as time derivatives are not modelled. -/
def V2.make (v0 v1 : DArg (F2 K) K) (steady : Bool)
    (jacobian : Option (List (List (DArg (F2 K) K)))) (td : Option (List (Option (F2 K))))
    (linked : Option (K → K → K → K × K)) (mesh : Option (Mesh2 K)) (draw : Nat → K) :
    Option (V2 K) :=
  match parseV zero2 v0, parseV zero2 v1, jacobian.getD [[.none, .none], [.none, .none]] with
  | some a, some b, [r0, r1] =>
    match parseAll zero2 2 (some r0), parseAll zero2 2 (some r1),
      (if steady then [some zero2, some zero2] else td.getD [none, none] : List (Option (F2 K))) with
    | some J0, some J1, [dt0, dt1] =>
      let v : V2 K := ⟨a, b, dt0, dt1, J0.getD 0 none, J0.getD 1 none, J1.getD 0 none,
        J1.getD 1 none, linked, none⟩
      match mesh with
      | none => some v
      | some m => v.setMesh m draw
    | _, _, _ => none
  | _, _, _ => none

/-! ### The time integral -/

/-- One turn of the loop of `_2d/wrappers/vector.py:402-413`; the state is `(it0, integral)`. -/
def trapStep (f : K → K) (H : K) (s : K × K) : K × K :=
  (s.1 + H, s.2 + (f s.1 + f (s.1 + H)) / 2 * H)

/-- `_2d/wrappers/vector.py:321-334` and `389-415` for a component with the point fixed; `h` must
be positive. -/
def timeIntegrate [FloorSemiring K] (f : K → K) (t0 t1 h : K) : Option K :=
  if 0 < h then
    if |t0 - t1| < 1 / 100000000 then some 0
    else
      let n := ⌊|t1 - t0| / h⌋₊ + 1
      let H := |t1 - t0| / (n : K)
      let H := if t1 < t0 then -H else H
      some ((trapStep f H)^[n] (t0, 0)).2
  else none

/-- `_2d/wrappers/vector.py:417-426`.  A step that is not positive is refused at the first
evaluation of the returned vector; it is refused here already. -/
def V2.integral [FloorSemiring K] (v : V2 K) (t0 h : K) : Option (V2 K) :=
  if 0 < h then
    some (.plain (fun t x y => (timeIntegrate (fun u => v.v0 u x y) t0 t h).getD 0)
      (fun t x y => (timeIntegrate (fun u => v.v1 u x y) t0 t h).getD 0) v.mesh)
  else none

end Checks

end Phyem.Funcs
