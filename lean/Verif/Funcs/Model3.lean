import Verif.Funcs.Model

/-!
# Functions of time and space in three dimensions

Model of the wrapper classes of `/repo/tools/functions/time_space/_3d` with the conventions of
`Verif.Funcs.Model`.
-/

namespace Phyem.Funcs

/-- A python function of `(t, x, y, z)`. -/
abbrev F3 (K : Type) := K → K → K → K → K

/-- The variables a function can be differentiated in. -/
inductive Ax3 | t | x | y | z
  deriving DecidableEq

section Space

variable {K : Type} [Field K]

/-- `tools/numerical/time_space/_3d/partial_derivative.py:14`: the default step. -/
def h3 : K := 1 / 1000000

/-- `tools/numerical/time_space/_3d/partial_derivative.py:43-69` with
`partial_derivative_as_functions.py:32-72` -/
def npd3 : Ax3 → F3 K → F3 K
  | .t, f => fun t x y z => central (fun u => f u x y z) t h3
  | .x, f => fun t x y z => central (fun u => f t u y z) x h3
  | .y, f => fun t x y z => central (fun u => f t x u z) y h3
  | .z, f => fun t x y z => central (fun u => f t x y u) z h3

/-- `_3d/wrappers/scalar.py:22-24` and `vector.py:21-22` -/
def zero3 : F3 K := fun _ _ _ _ => 0

/-- `_3d/wrappers/helpers/scalar_add.py:14-15` -/
def add3 (a b : F3 K) : F3 K := fun t x y z => a t x y z + b t x y z

/-- `_3d/wrappers/helpers/_3scalars_add.py:15-16` -/
def sum3 (a b c : F3 K) : F3 K := fun t x y z => a t x y z + b t x y z + c t x y z

/-- `_3d/wrappers/helpers/scalar_sub.py:14-15` -/
def sub3 (a b : F3 K) : F3 K := fun t x y z => a t x y z - b t x y z

/-- `_3d/wrappers/helpers/scalar_neg.py:13-14` -/
def neg3 (a : F3 K) : F3 K := fun t x y z => - a t x y z

/-- `_3d/wrappers/helpers/scalar_mul.py:31-35` for two functions. -/
def mul3 (a b : F3 K) : F3 K := fun t x y z => a t x y z * b t x y z

/-- `_3d/wrappers/helpers/scalar_mul.py:31-33` for a number and a function. -/
def smul3 (c : K) (a : F3 K) : F3 K := fun t x y z => c * a t x y z

/-- A mesh as the setters see it. -/
structure Mesh3 (K : Type) where
  id : Nat
  kind : MeshKind
  elements : List (List (K × K × K))

/-- The scalar class, `_3d/wrappers/scalar.py:27-88`; `isZero` is `___is_zero___`. -/
structure S3 (K : Type) where
  s : F3 K
  isZero : Bool
  dt : Option (F3 K)
  dx : Option (F3 K)
  dy : Option (F3 K)
  dz : Option (F3 K)
  mesh : Option (Mesh3 K)

/-- The vector class, `_3d/wrappers/vector.py:25-158`. -/
structure V3 (K : Type) where
  v0 : F3 K
  v1 : F3 K
  v2 : F3 K
  dudt : Option (F3 K)
  dvdt : Option (F3 K)
  dwdt : Option (F3 K)
  dudx : Option (F3 K)
  dudy : Option (F3 K)
  dudz : Option (F3 K)
  dvdx : Option (F3 K)
  dvdy : Option (F3 K)
  dvdz : Option (F3 K)
  dwdx : Option (F3 K)
  dwdy : Option (F3 K)
  dwdz : Option (F3 K)
  linked : Option (K → K → K → K → K × K × K)
  mesh : Option (Mesh3 K)

/-- The tensor class, `_3d/wrappers/tensor.py:11-39`. -/
structure T3 (K : Type) where
  rows : Fin 3 → Fin 3 → F3 K

/-- The operands the operators distinguish. -/
inductive Obj3 (K : Type)
  | num (c : K)
  | scalar (s : S3 K)
  | vector (v : V3 K)
  | tensor (t : T3 K)

/-- `__class__.__name__` -/
def Obj3.className : Obj3 K → String
  | .num _ => "float"
  | .scalar _ => "T3dScalar"
  | .vector _ => "T3dVector"
  | .tensor _ => "T3dTensor"

/-- `T3dScalar(f)` -/
def S3.plain (f : F3 K) : S3 K := ⟨f, false, none, none, none, none, none⟩

/-- `T3dVector(a, b, c)` -/
def V3.plain (a b c : F3 K) : V3 K :=
  ⟨a, b, c, none, none, none, none, none, none, none, none, none, none, none, none, none, none⟩

/-- A given derivative or the numerical one, as in `_3d/wrappers/scalar.py:208-211`. -/
def given3 (a : Ax3) (f : F3 K) (d : Option (F3 K)) : F3 K :=
  match d with
  | none => npd3 a f
  | some d => d

/-! ### Scalars -/

/-- `_3d/wrappers/scalar.py:194-199` -/
def S3.timeDerivative (a : S3 K) : S3 K := .plain (given3 .t a.s a.dt)

/-- `_3d/wrappers/scalar.py:202-223`; `T3dVector(0, 0, 0)` has zero functions as components. -/
def S3.gradient (a : S3 K) : V3 K :=
  if a.isZero then .plain zero3 zero3 zero3
  else .plain (given3 .x a.s a.dx) (given3 .y a.s a.dy) (given3 .z a.s a.dz)

/-- `_3d/wrappers/scalar.py:225-259` -/
def S3.convectionBy (a : S3 K) (u : Obj3 K) : Option (S3 K) :=
  if u.className = "t3dVector" then
    match u with
    | .vector v => some (.plain (sum3 (mul3 v.v0 (given3 .x a.s a.dx))
        (mul3 v.v1 (given3 .y a.s a.dy)) (mul3 v.v2 (given3 .z a.s a.dz))))
    | _ => none
  else none

/-- `_3d/wrappers/scalar.py:261-270` -/
def S3.add (a : S3 K) : Obj3 K → Option (S3 K)
  | .scalar b => some (.plain (add3 a.s b.s))
  | _ => none

/-- `_3d/wrappers/scalar.py:272-281` -/
def S3.sub (a : S3 K) : Obj3 K → Option (S3 K)
  | .scalar b => some (.plain (sub3 a.s b.s))
  | _ => none

/-- `_3d/wrappers/scalar.py:283-290` -/
def S3.neg (a : S3 K) : S3 K := if a.isZero then a else .plain (neg3 a.s)

/-- `_3d/wrappers/scalar.py:292-299` -/
def S3.mul (a : S3 K) : Obj3 K → Option (S3 K)
  | .scalar b => some (.plain (mul3 a.s b.s))
  | _ => none

/-! ### Vectors -/

/-- `_3d/wrappers/vector.py:160-165`.  A linked object takes `(t, x, y, z)` and is called with
`(t, x, y)`, which raises an error. -/
def V3.call (v : V3 K) (t x y z : K) : Option (K × K × K) :=
  match v.linked with
  | none => some (v.v0 t x y z, v.v1 t x y z, v.v2 t x y z)
  | some _ => none

/-- `_3d/wrappers/vector.py:313-329` -/
def V3.timeDerivative (v : V3 K) : V3 K :=
  .plain (given3 .t v.v0 v.dudt) (given3 .t v.v1 v.dvdt) (given3 .t v.v2 v.dwdt)

/-- `_3d/wrappers/vector.py:332-352` -/
def V3.divergence (v : V3 K) : S3 K :=
  .plain (sum3 (given3 .x v.v0 v.dudx) (given3 .y v.v1 v.dvdy) (given3 .z v.v2 v.dwdz))

/-- `_3d/wrappers/vector.py:355-398` -/
def V3.curl (v : V3 K) : V3 K :=
  .plain (sub3 (given3 .y v.v2 v.dwdy) (given3 .z v.v1 v.dvdz))
    (sub3 (given3 .z v.v0 v.dudz) (given3 .x v.v2 v.dwdx))
    (sub3 (given3 .x v.v1 v.dvdx) (given3 .y v.v0 v.dudy))

/-- `_3d/wrappers/vector.py:400-472`.  Line 437 tests `if self._dv_dz:`, so that a given `dv_dz` is
replaced by the numerical one and a missing one stays `None`, which fails at the evaluation. -/
def V3.convectionBy (v : V3 K) (u : Obj3 K) : Option (V3 K) :=
  if u.className = "t3dVector" then
    match u, v.dvdz with
    | .vector w, some _ =>
      let row := fun dx dy dz => sum3 (mul3 w.v0 dx) (mul3 w.v1 dy) (mul3 w.v2 dz)
      some (.plain (row (given3 .x v.v0 v.dudx) (given3 .y v.v0 v.dudy) (given3 .z v.v0 v.dudz))
        (row (given3 .x v.v1 v.dvdx) (given3 .y v.v1 v.dvdy) (npd3 .z v.v1))
        (row (given3 .x v.v2 v.dwdx) (given3 .y v.v2 v.dwdy) (given3 .z v.v2 v.dwdz)))
    | _, _ => none
  else none

/-- `_3d/wrappers/vector.py:474-497` -/
def V3.add (v : V3 K) : Obj3 K → Option (V3 K)
  | .vector w => some (.plain (add3 v.v0 w.v0) (add3 v.v1 w.v1) (add3 v.v2 w.v2))
  | _ => none

/-- `_3d/wrappers/vector.py:499-522` -/
def V3.sub (v : V3 K) : Obj3 K → Option (V3 K)
  | .vector w => some (.plain (sub3 v.v0 w.v0) (sub3 v.v1 w.v1) (sub3 v.v2 w.v2))
  | _ => none

/-- `_3d/wrappers/vector.py:524-531` -/
def V3.neg (v : V3 K) : V3 K := .plain (neg3 v.v0) (neg3 v.v1) (neg3 v.v2)

/-- `_3d/wrappers/vector.py:533-544` and `546-551`: `self * other` and `other * self`. -/
def V3.mul (v : V3 K) : Obj3 K → Option (V3 K)
  | .num c => some (.plain (smul3 c v.v0) (smul3 c v.v1) (smul3 c v.v2))
  | _ => none

/-- `_3d/wrappers/vector.py:553-579` -/
def V3.dot (v : V3 K) : Obj3 K → Option (S3 K)
  | .vector w => some (.plain (sum3 (mul3 v.v0 w.v0) (mul3 v.v1 w.v1) (mul3 v.v2 w.v2)))
  | _ => none

/-- `_3d/wrappers/vector.py:581-601` -/
def V3.cross (v : V3 K) : Obj3 K → Option (V3 K)
  | .vector w =>
    (V3.plain (mul3 v.v1 w.v2) (mul3 v.v2 w.v0) (mul3 v.v0 w.v1)).sub
      (.vector (.plain (mul3 v.v2 w.v1) (mul3 v.v0 w.v2) (mul3 v.v1 w.v0)))
  | _ => none

/-- `_3d/wrappers/tensor.py:121-133` -/
def T3.timeDerivative (a : T3 K) : T3 K := ⟨fun i j => npd3 .t (a.rows i j)⟩

end Space

section Checks

variable {K : Type} [Field K] [LinearOrder K]

/-- `tools/numerical/time_space/_3d/partial_derivative.py:117-128`: in the check of the derivative
in `z` the error is relative to the given derivative, not to the numerical one. -/
def closeZ (tol : K) (v : List (K × K)) : Bool :=
  !v.isEmpty && (v.all (fun p => |p.1 - p.2| < tol) ||
    v.all fun p => p.1 != 0 && decide (|(p.1 - p.2) / p.1| < tol))

/-- `tools/numerical/time_space/_3d/partial_derivative.py:78-128` -/
def checkPartial3 (a : Ax3) (f d : F3 K) (t : K) (pts : List (K × K × K)) : Bool :=
  (if a = .z then closeZ else close) tol
    (pts.map fun p => (d t p.1 p.2.1 p.2.2, npd3 a f t p.1 p.2.1 p.2.2))

/-- A check that is only done for a derivative that is given. -/
def optCheck3 (a : Ax3) (f : F3 K) (d : Option (F3 K)) (t : K) (pts : List (K × K × K)) : Bool :=
  match d with
  | none => true
  | some d => checkPartial3 a f d t pts

/-- `_3d/wrappers/scalar.py:113-126` -/
def S3.anyGiven (a : S3 K) : Bool := a.dt.isSome || a.dx.isSome || a.dy.isSome || a.dz.isSome

/-- `_3d/wrappers/scalar.py:109-163`; a multi-grid mesh is refused here. -/
def S3.setMesh (a : S3 K) (m : Mesh3 K) (draw : Nat → K) : Option (S3 K) :=
  if a.anyGiven then
    if m.kind ≠ .part then none
    else if
      m.elements.zipIdx.all fun e => optCheck3 .t a.s a.dt (draw e.2) e.1 &&
        optCheck3 .x a.s a.dx (draw e.2) e.1 && optCheck3 .y a.s a.dy (draw e.2) e.1 &&
        optCheck3 .z a.s a.dz (draw e.2) e.1
    then some { a with mesh := some m }
    else none
  else some { a with mesh := some m }

/-- `_3d/wrappers/vector.py:187-212` -/
def V3.anyGiven (v : V3 K) : Bool :=
  v.dudt.isSome || v.dvdt.isSome || v.dwdt.isSome ||
    v.dudx.isSome || v.dudy.isSome || v.dudz.isSome ||
    v.dvdx.isSome || v.dvdy.isSome || v.dvdz.isSome ||
    v.dwdx.isSome || v.dwdy.isSome || v.dwdz.isSome

/-- `_3d/wrappers/vector.py:183-270`.  Line 241 takes the coordinates `x, y, z = X[i], Y[i], X[i]`
as the points to check at. -/
def V3.setMesh (v : V3 K) (m : Mesh3 K) (draw : Nat → K) : Option (V3 K) :=
  if v.anyGiven then
    if m.kind ≠ .part then none
    else if
      m.elements.zipIdx.all fun e =>
        let pts := e.1.map fun p => (p.1, p.2.1, p.1)
        let t := draw e.2
        optCheck3 .t v.v0 v.dudt t pts && optCheck3 .t v.v1 v.dvdt t pts &&
        optCheck3 .t v.v2 v.dwdt t pts &&
        optCheck3 .x v.v0 v.dudx t pts && optCheck3 .y v.v0 v.dudy t pts &&
        optCheck3 .z v.v0 v.dudz t pts &&
        optCheck3 .x v.v1 v.dvdx t pts && optCheck3 .y v.v1 v.dvdy t pts &&
        optCheck3 .z v.v1 v.dvdz t pts &&
        optCheck3 .x v.v2 v.dwdx t pts && optCheck3 .y v.v2 v.dwdy t pts &&
        optCheck3 .z v.v2 v.dwdz t pts
    then some { v with mesh := some m }
    else none
  else some { v with mesh := some m }

/-- `_3d/wrappers/scalar.py:30-88` -/
def S3.make (s : DArg (F3 K) K) (steady : Bool) (derivative : Option (List (DArg (F3 K) K)))
    (mesh : Option (Mesh3 K)) (draw : Nat → K) : Option (S3 K) :=
  match parseV zero3 s, parseAll zero3 4 derivative with
  | some f, some D =>
    let a : S3 K := ⟨f, match s with | .num _ => true | _ => false,
      if steady then some zero3 else D.getD 0 none, D.getD 1 none, D.getD 2 none, D.getD 3 none,
      none⟩
    match mesh with
    | none => some a
    | some m => a.setMesh m draw
  | _, _ => none

end Checks

end Phyem.Funcs
