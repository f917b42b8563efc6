import Verif.Funcs.Model3
import Mathlib.Analysis.SpecialFunctions.Trigonometric.Basic
import Mathlib.Analysis.SpecialFunctions.Exp

/-!
# Manufactured solutions in three dimensions

Model of `/repo/tools/samples/{manuSolution_MHD3,manuSolution_Hall_MHD,condition_MHD3_Hu_helicity_test}.py`. The fields are
functions of real numbers; the classes of functions and their operators are those of `Verif/Funcs/Model3.lean`.
An exception is `none`. Not modelled: the rounding of floating point numbers, `inf` for a Reynolds number.
-/

namespace Phyem.Samples

open Real Phyem.Funcs

/-! ### Fields -/

/-- `manuSolution_MHD3.py:13-28`, `manuSolution_Hall_MHD.py:15-30, 223-235`. -/
noncomputable def ux : F3 ℝ := fun t x y z => cos x * sin y * sin z * exp t
/-- See `ux`. -/
noncomputable def uy : F3 ℝ := fun t x y z => sin x * cos y * sin z * exp t
/-- See `ux`. -/
noncomputable def uz : F3 ℝ := fun t x y z => -2 * sin x * sin y * cos z * exp t
/-- `manuSolution_MHD3.py:31-32`, `manuSolution_Hall_MHD.py:33-34`. -/
noncomputable def P0 : F3 ℝ := fun t x y z => cos x * cos y * cos z * exp (-t)
/-- `manuSolution_Hall_MHD.py:238-239`. -/
noncomputable def P1 : F3 ℝ := fun t x y z => sin x * sin y * sin z * exp (-t)

/-- An electric field and the derivatives its curl is made of. -/
structure Electric where
  x : F3 ℝ
  xdy : F3 ℝ
  xdz : F3 ℝ
  y : F3 ℝ
  ydx : F3 ℝ
  ydz : F3 ℝ
  z : F3 ℝ
  zdx : F3 ℝ
  zdy : F3 ℝ

/-- `manuSolution_MHD3.py:36-80`. -/
noncomputable def Ea : Electric where
  x := fun t x y z => cos x * sin y * sin (z / 2) * exp t
  xdy := fun t x y z => cos x * cos y * sin (z / 2) * exp t
  xdz := fun t x y z => 0.5 * cos x * sin y * cos (z / 2) * exp t
  y := fun t x y z => sin (x / 2) * cos y * sin z * exp t
  ydx := fun t x y z => 0.5 * cos (x / 2) * cos y * sin z * exp t
  ydz := fun t x y z => sin (x / 2) * cos y * cos z * exp t
  z := fun t x y z => - sin x * sin y * cos z * exp t
  zdx := fun t x y z => - cos x * sin y * cos z * exp t
  zdy := fun t x y z => - sin x * cos y * cos z * exp t

/-- `manuSolution_MHD3.py:198-242`, `manuSolution_Hall_MHD.py:38-82`. -/
noncomputable def Eb : Electric where
  x := fun t x y z => cos x * sin y * sin z * exp t
  xdy := fun t x y z => cos x * cos y * sin z * exp t
  xdz := fun t x y z => cos x * sin y * cos z * exp t
  y := fun t x y z => sin x * cos y * sin z * exp t
  ydx := fun t x y z => cos x * cos y * sin z * exp t
  ydz := fun t x y z => sin x * cos y * cos z * exp t
  z := fun t x y z => - sin x * sin y * cos z * exp t
  zdx := fun t x y z => - cos x * sin y * cos z * exp t
  zdy := fun t x y z => - sin x * cos y * cos z * exp t

/-- `manuSolution_Hall_MHD.py:244-296`. -/
noncomputable def Ec : Electric where
  x := fun t x y _ => sin x * cos y * exp t
  xdy := fun t x y _ => - sin x * sin y * exp t
  xdz := fun _ _ _ z => 0 * z
  y := fun t _ y z => - sin y * cos z * exp t
  ydx := fun t _ _ _ => 0 * t
  ydz := fun t _ y z => sin y * sin z * exp t
  z := fun t x _ z => - cos x * sin z * exp t
  zdx := fun t x _ z => sin x * sin z * exp t
  zdy := fun _ _ y _ => 0 * y

/-- The velocity of the third solution with the derivatives of its curl (`manuSolution_Hall_MHD.py:389-441`). -/
noncomputable def U3 : Electric where
  x := fun t x y _ => sin x * cos y * exp t
  xdy := fun t x y _ => - sin x * sin y * exp t
  xdz := fun _ _ _ z => 0 * z
  y := fun t _ y z => - sin y * cos z * exp t
  ydx := fun t _ _ _ => 0 * t
  ydz := fun t _ y z => sin y * sin z * exp t
  z := fun t x _ z => - cos x * sin z * exp t
  zdx := fun t x _ z => sin x * sin z * exp t
  zdy := fun _ _ y _ => 0 * y

/-- `manuSolution_Hall_MHD.py:514-566`. -/
noncomputable def Ed : Electric where
  x := fun t x y _ => x * (x ^ 2 - 1) * (y ^ 3 - 1.5 * y ^ 2) * exp t
  xdy := fun t x y _ => x * (x ^ 2 - 1) * 3 * (y ^ 2 - y) * exp t
  xdz := fun _ _ _ z => 0 * z
  y := fun t _ y z => - y * (y - 1) * ((2 / 3) * z ^ 3 - z ^ 2) * exp t
  ydx := fun t _ _ _ => 0 * t
  ydz := fun t _ y z => - y * (y - 1) * 2 * (z ^ 2 - z) * exp t
  z := fun t x _ z => ((1 / 3) * x ^ 3 - 0.5 * x ^ 2) * z * (z ^ 2 - 1) * exp t
  zdx := fun t x _ z => (x ^ 2 - x) * z * (z ^ 2 - 1) * exp t
  zdy := fun _ _ y _ => 0 * y

/-- `curlE_x` (`manuSolution_MHD3.py:84-85, 246-247`, `manuSolution_Hall_MHD.py:86-87, 300-301, 445-446, 570-571`). -/
def Electric.curlX (E : Electric) : F3 ℝ := fun t x y z => E.zdy t x y z - E.ydz t x y z
/-- `curlE_y` (`manuSolution_MHD3.py:88-89, 250-251`, `manuSolution_Hall_MHD.py:90-91, 304-305, 449-450, 574-575`). -/
def Electric.curlY (E : Electric) : F3 ℝ := fun t x y z => E.xdz t x y z - E.zdx t x y z
/-- `curlE_z` (`manuSolution_MHD3.py:92-93, 254-255`, `manuSolution_Hall_MHD.py:94-95, 308-309, 453-454, 578-579`). -/
def Electric.curlZ (E : Electric) : F3 ℝ := fun t x y z => E.ydx t x y z - E.xdy t x y z

/-- `Bx` (`manuSolution_MHD3.py:96-98, 258-260`, `manuSolution_Hall_MHD.py:98-100, 312-314, 582-584`). -/
def Electric.Bx (E : Electric) : F3 ℝ := fun t x y z => - E.curlX t x y z + E.curlX 0 x y z
/-- `By` (`manuSolution_MHD3.py:101-103, 263-265`, `manuSolution_Hall_MHD.py:103-105, 317-319, 587-589`). -/
def Electric.By (E : Electric) : F3 ℝ := fun t x y z => - E.curlY t x y z + E.curlY 0 x y z
/-- `Bz` (`manuSolution_MHD3.py:106-108, 268-270`, `manuSolution_Hall_MHD.py:108-110, 322-324, 592-594`). -/
def Electric.Bz (E : Electric) : F3 ℝ := fun t x y z => - E.curlZ t x y z + E.curlZ 0 x y z

/-! ### Solutions -/

/-- A solution of the equations of magnetohydrodynamics: the velocity, the pressure, the electric and the magnetic field as
they are given to `T3dVector` and `T3dScalar`, and a vorticity if it is given (`manuSolution_Hall_MHD.py:130-141, 476-483`). -/
structure Mhd where
  u : F3 ℝ × F3 ℝ × F3 ℝ
  P : F3 ℝ
  E : F3 ℝ × F3 ℝ × F3 ℝ
  B : F3 ℝ × F3 ℝ × F3 ℝ
  omega : Option (F3 ℝ × F3 ℝ × F3 ℝ)

/-- The three components. -/
def Electric.E (e : Electric) : F3 ℝ × F3 ℝ × F3 ℝ := (e.x, e.y, e.z)
/-- The three components. -/
def Electric.B (e : Electric) : F3 ℝ × F3 ℝ × F3 ℝ := (e.Bx, e.By, e.Bz)
/-- `omega_x`, `omega_y`, `omega_z` (`manuSolution_Hall_MHD.py:445-454`). -/
def Electric.curl (e : Electric) : F3 ℝ × F3 ℝ × F3 ℝ := (e.curlX, e.curlY, e.curlZ)

/-- `ManufacturedSolutionMHD3_0` (`manuSolution_MHD3.py:111-194`). -/
noncomputable def mhd0 : Mhd := ⟨(ux, uy, uz), P0, Ea.E, Ea.B, none⟩
/-- `ManufacturedSolutionMHD3_1` (`manuSolution_MHD3.py:273-358`) and `ManufacturedSolution_Hall_MHD3_0`
(`manuSolution_Hall_MHD.py:113-218`). -/
noncomputable def hall0 : Mhd := ⟨(ux, uy, uz), P0, Eb.E, Eb.B, none⟩
/-- `ManufacturedSolution_Hall_MHD3_1` (`manuSolution_Hall_MHD.py:327-352`). -/
noncomputable def hall1 : Mhd := ⟨(ux, uy, uz), P1, Ec.E, Ec.B, none⟩
/-- `ManufacturedSolution_Hall_MHD3_2` (`manuSolution_Hall_MHD.py:358-382`). -/
noncomputable def hall2 : Mhd := ⟨(ux, uy, uz), P1, Eb.E, Eb.B, none⟩
/-- `ManufacturedSolution_Hall_MHD3_3` (`manuSolution_Hall_MHD.py:457-488`). -/
noncomputable def hall3 : Mhd := ⟨U3.E, P1, Ec.E, Ec.B, some U3.curl⟩

/-- `manuSolution_Hall_MHD.py:493-509`. -/
noncomputable def T4u : F3 ℝ := fun t x y z => ((2 / 3) * x ^ 3 - x ^ 2) * (y - y ^ 2) * z * (z - 1) * exp t
/-- See `T4u`. -/
noncomputable def T4v : F3 ℝ := fun t x y z =>
  (-x ^ 2 + x) * (0.5 * y ^ 2 - (1 / 3) * y ^ 3) * (z ^ 2 - z) * exp t
/-- See `T4u`. -/
noncomputable def T4w : F3 ℝ := fun t x y z =>
  (-x ^ 2 + x) * (y - y ^ 2) * ((1 / 3) * z ^ 3 - 0.5 * z ^ 2) * exp t
/-- See `T4u`. -/
noncomputable def T4P : F3 ℝ := fun t x y z =>
  - x ^ 2 * (x - 1) * y ^ 2 * (y - 1) * z ^ 2 * (z - 1) * exp t

/-- `ManufacturedSolution_Hall_MHD3_4_TemporalAccuracy` (`manuSolution_Hall_MHD.py:597-621`). -/
noncomputable def hall4 : Mhd := ⟨(T4u, T4v, T4w), T4P, Ed.E, Ed.B, none⟩

/-- `T3dVector(*v)` -/
def vec (v : F3 ℝ × F3 ℝ × F3 ℝ) : V3 ℝ := .plain v.1 v.2.1 v.2.2

/-- `omega` (`manuSolution_MHD3.py:151-154, 314-317`, `manuSolution_Hall_MHD.py:167-170, 485-488`). -/
noncomputable def Mhd.vorticity (s : Mhd) : V3 ℝ :=
  match s.omega with
  | none => (vec s.u).curl
  | some w => vec w

/-- `j` (`manuSolution_MHD3.py:170-173, 333-336`, `manuSolution_Hall_MHD.py:192-195`). -/
noncomputable def Mhd.j (s : Mhd) : V3 ℝ := (vec s.B).curl

/-- `1 / c` -/
noncomputable def inv (c : ℝ) : Option ℝ := if c = 0 then none else some (1 / c)

/-- `m` (`manuSolution_MHD3.py:175-182, 338-345`); with the Hall effect `manuSolution_Hall_MHD.py:197-210`. -/
noncomputable def Mhd.m (s : Mhd) (Rm : ℝ) (eta : Option ℝ) : Option (V3 ℝ) :=
  (inv Rm).bind fun k => (s.j.mul (.num k)).bind fun a => (a.sub (.vector (vec s.E))).bind fun a =>
    ((vec s.u).cross (.vector (vec s.B))).bind fun b => (a.sub (.vector b)).bind fun a =>
      match eta with
      | none => some a
      | some eta => (s.j.cross (.vector (vec s.B))).bind fun b => (b.mul (.num eta)).bind fun b => a.add (.vector b)

/-- `f` (`manuSolution_MHD3.py:184-190, 347-353`, `manuSolution_Hall_MHD.py:212-218`). -/
noncomputable def Mhd.f (s : Mhd) (c Rf : ℝ) : Option (V3 ℝ) :=
  (s.vorticity.cross (.vector (vec s.u))).bind fun a => ((vec s.u).timeDerivative.add (.vector a)).bind fun r =>
    (inv Rf).bind fun k => (s.vorticity.curl.mul (.num k)).bind fun b => (r.add (.vector b)).bind fun r =>
      (s.j.cross (.vector (vec s.B))).bind fun d => (d.mul (.num c)).bind fun d => (r.sub (.vector d)).bind fun r =>
        r.add (.vector (S3.plain s.P).gradient)

/-! ### Initial conditions -/

/-- `ManufacturedSolution_Hall_MHD3_Conservation0` (`manuSolution_Hall_MHD.py:657-678`),
`MHD3_Helicity_Conservation_test1` (`condition_MHD3_Hu_helicity_test.py:26-41`): the velocity. -/
noncomputable def consU : F3 ℝ × F3 ℝ × F3 ℝ :=
  (fun _ x y z => - sin (π * (x - 1 / 2)) * cos (π * (y - 1 / 2)) * z * (z - 1),
    fun _ x y z => cos (π * (x - 1 / 2)) * sin (π * (y - 1 / 2)) * z * (z - 1), fun _ _ _ _ => 0)

/-- `manuSolution_Hall_MHD.py:686-701`: the magnetic field. -/
noncomputable def consB : F3 ℝ × F3 ℝ × F3 ℝ :=
  (fun _ x y z => cos (π * x) * sin (π * y) * z * (z - 1), fun _ x y z => - sin (π * x) * cos (π * y) * z * (z - 1),
    zero3)

/-- `condition_MHD3_Hu_helicity_test.py:49-60`: the magnetic field. -/
noncomputable def huB : F3 ℝ × F3 ℝ × F3 ℝ :=
  (fun _ x y _ => - sin (π * x) * cos (π * y), fun _ x y _ => cos (π * x) * sin (π * y), zero3)

/-- `ManufacturedSolution_Hall_MHD3_NullPoints` (`manuSolution_Hall_MHD.py:776-797, 819-829`): the magnetic field and the
pressure; the velocity is zero. -/
noncomputable def nullB : F3 ℝ × F3 ℝ × F3 ℝ := (zero3, zero3, fun _ x _ _ => - 2.5 * sin (π * x))
/-- See `nullB`. -/
noncomputable def nullP : F3 ℝ := fun _ x _ _ => (5 / 4) ^ 2 * cos (2 * π * x)

/-- A velocity and a magnetic field to begin with. -/
structure Initial where
  u : F3 ℝ × F3 ℝ × F3 ℝ
  B : F3 ℝ × F3 ℝ × F3 ℝ

/-- `ManufacturedSolution_Hall_MHD3_Conservation0`. -/
noncomputable def conservation : Initial := ⟨consU, consB⟩
/-- `MHD3_Helicity_Conservation_test1`. -/
noncomputable def helicity : Initial := ⟨consU, huB⟩
/-- `ManufacturedSolution_Hall_MHD3_NullPoints`. -/
noncomputable def nullPoints : Initial := ⟨(zero3, zero3, zero3), nullB⟩

/-- `j_initial_condition` (`manuSolution_Hall_MHD.py:703-707, 799-803`, `condition_MHD3_Hu_helicity_test.py:62-66`). -/
noncomputable def Initial.j (s : Initial) : V3 ℝ := (vec s.B).curl

/-- `E_initial_condition` (`manuSolution_Hall_MHD.py:709-721, 805-817`). -/
noncomputable def Initial.E (s : Initial) (Rm eta : ℝ) : Option (V3 ℝ) :=
  (inv Rm).bind fun k => (s.j.mul (.num k)).bind fun a =>
    ((vec s.u).cross (.vector (vec s.B))).bind fun b => (a.sub (.vector b)).bind fun a =>
      (s.j.cross (.vector (vec s.B))).bind fun b => (b.mul (.num eta)).bind fun b => a.add (.vector b)

/-- `_f_init_` (`manuSolution_Hall_MHD.py:849-858`); the vorticity is `T3dVector(0, 0, 0)`,
`manuSolution_Hall_MHD.py:782-786`. -/
noncomputable def nullF (c Rf : ℝ) : Option (V3 ℝ) :=
  let u := vec nullPoints.u
  let w : V3 ℝ := .plain zero3 zero3 zero3
  (w.cross (.vector u)).bind fun a => (u.timeDerivative.add (.vector a)).bind fun r =>
    (inv Rf).bind fun k => (w.curl.mul (.num k)).bind fun b => (r.add (.vector b)).bind fun r =>
      (nullPoints.j.cross (.vector (vec nullPoints.B))).bind fun d => (d.mul (.num c)).bind fun d =>
        (r.sub (.vector d)).bind fun r => r.add (.vector (S3.plain nullP).gradient)

end Phyem.Samples
