import Verif.Funcs.Model3
import Mathlib.Analysis.SpecialFunctions.Trigonometric.Arctan
import Mathlib.Analysis.SpecialFunctions.Trigonometric.DerivHyp
import Mathlib.Analysis.SpecialFunctions.Complex.Arg
import Mathlib.Analysis.SpecialFunctions.Pow.Real

/-!
# Manufactured solutions in two dimensions

Model of `/repo/tools/samples/{manuSolution_MHD2,manuSolution_NS2,manuSolution_NS3,manuSolution_Eigen2,manuSolution_L_singularity,
iniCond_Orszag_Tang_vortex,iniCond_loop_advection,iniCond_shear_layer_rollup,conditions_normal_dipole_collision}.py`. The
fields are functions of real numbers; the classes of functions and their operators are those of `Verif/Funcs/Model.lean`. An
exception is `none`. A number that may be `inf` is an `Option`, with `none` for `inf`. Not modelled: the rounding of floating
point numbers.
-/

namespace Phyem.Samples

open Real Phyem.Funcs

/-- `1 / c` for a number or `inf`. -/
noncomputable def inv' : Option ℝ → Option ℝ
  | none => some 0
  | some c => if c = 0 then none else some (1 / c)

/-- `c * a` for a scalar, which is a scalar. -/
noncomputable def scale (c : ℝ) (a : S2 ℝ) : Option (S2 ℝ) :=
  match pyMul (.num c) (.scalar a) with
  | some (.scalar b) => some b
  | _ => none

/-- `c * a` for a vector, which is a vector. -/
noncomputable def scaleV (c : ℝ) (a : V2 ℝ) : Option (V2 ℝ) :=
  match pyMul (.num c) (.vector a) with
  | some (.vector b) => some b
  | _ => none

/-- `v.cross_product(w)` for two vectors, which is a scalar. -/
noncomputable def crossV (v w : V2 ℝ) : Option (S2 ℝ) :=
  match v.cross (.vector w) with
  | some (.scalar b) => some b
  | _ => none

/-! ### Magnetohydrodynamics -/

/-- `_phi` (`manuSolution_MHD2.py:13-15`) -/
noncomputable def mPhi : F2 ℝ := fun t x y => (2 * sin y - 2 * cos x) * exp (-t)
/-- `_P_function` (`manuSolution_MHD2.py:18-19`) -/
noncomputable def mP : F2 ℝ := fun t x y => sin x * sin y * exp (-t)
/-- `_E_function` (`manuSolution_MHD2.py:22-24`) -/
noncomputable def mE : F2 ℝ := fun t x y => sin x * sin y * exp t
/-- `_Bx` (`manuSolution_MHD2.py:35-37, 45-46`) -/
noncomputable def mBx : F2 ℝ := fun t x y => sin x * cos y - sin x * cos y * (exp t - 1)
/-- `_By` (`manuSolution_MHD2.py:40-42, 49-50`) -/
noncomputable def mBy : F2 ℝ := fun t x y => - cos x * sin y - - cos x * sin y * (exp t - 1)

/-- `u` (`manuSolution_MHD2.py:90-93`) -/
noncomputable def mU : V2 ℝ := (S2.plain mPhi none).curl
/-- `B` (`manuSolution_MHD2.py:71, 109-111`) -/
noncomputable def mB : V2 ℝ := V2.plain mBx mBy none

/-- `m` (`manuSolution_MHD2.py:122-129`); `j` is `B.rot`, `manuSolution_MHD2.py:117-120`. -/
noncomputable def mhd2M (Rm : Option ℝ) : Option (S2 ℝ) :=
  (inv' Rm).bind fun k => (scale k mB.rot).bind fun a => (a.sub (.scalar (.plain mE none))).bind fun a =>
    (crossV mU mB).bind fun b => a.sub (.scalar b)

/-- `f` (`manuSolution_MHD2.py:131-137`); `omega` is `u.rot`, `manuSolution_MHD2.py:99-102`. -/
noncomputable def mhd2F (c : ℝ) (Rf : Option ℝ) : Option (V2 ℝ) :=
  (mU.rot.cross (.vector mU)).bind fun a => (mU.timeDerivative.add (.vector a)).bind fun r =>
    (inv' Rf).bind fun k => (scaleV k mU.rot.curl).bind fun b => (r.add (.vector b)).bind fun r =>
      (mB.rot.cross (.vector mB)).bind fun d => (scaleV c d).bind fun d => (r.sub (.vector d)).bind fun r =>
        r.add (.vector (S2.plain mP none).gradient)

/-! ### The Navier-Stokes equations -/

/-- `-2 * pi ** 2 * t / Re` and `-4 * pi ** 2 * t / Re`; for `inf` it is zero. -/
noncomputable def decay (k t : ℝ) : Option ℝ → ℝ
  | none => 0
  | some Re => k * π ^ 2 * t / Re

/-- `_u` (`manuSolution_NS2.py:32-34`) -/
noncomputable def tU (Re : Option ℝ) : F2 ℝ := fun t x y => - sin (π * x) * cos (π * y) * exp (decay (-2) t Re)
/-- `_v` (`manuSolution_NS2.py:36-38`) -/
noncomputable def tV (Re : Option ℝ) : F2 ℝ := fun t x y => cos (π * x) * sin (π * y) * exp (decay (-2) t Re)
/-- `_p` (`manuSolution_NS2.py:40-42`) -/
noncomputable def tP (Re : Option ℝ) : F2 ℝ := fun t x y =>
  0.25 * (cos (2 * π * x) + cos (2 * π * y)) * exp (decay (-4) t Re)

/-- `u` (`manuSolution_NS2.py:23, 44-47`) -/
noncomputable def tgvU (Re : Option ℝ) : V2 ℝ := V2.plain (tU Re) (tV Re) none

/-- `P` (`manuSolution_NS2.py:58-61`) -/
noncomputable def tgvP (Re : Option ℝ) : Option (S2 ℝ) :=
  ((tgvU Re).dot (.vector (tgvU Re))).bind fun a => (scale 0.5 a).bind fun a => (S2.plain (tP Re) none).add (.scalar a)

/-- `f` (`manuSolution_NS2.py:67-71`) -/
noncomputable def tgvF (Re : Option ℝ) : Option (V2 ℝ) :=
  let u := tgvU Re
  (u.rot.cross (.vector u)).bind fun a => (u.timeDerivative.add (.vector a)).bind fun r =>
    (inv' Re).bind fun k => (scaleV k u.rot.curl).bind fun b => (r.add (.vector b)).bind fun r =>
      (tgvP Re).bind fun P => r.add (.vector P.gradient)

/-- The velocity of `ManufacturedSolutionNS3Conservation1` (`manuSolution_NS3.py:32-45`). -/
noncomputable def ns3U : F3 ℝ × F3 ℝ × F3 ℝ :=
  (fun _ _ _ z => cos (2 * π * z), fun _ _ _ z => sin (2 * π * z), fun _ x _ _ => sin (2 * π * x))

/-! ### The linear port-Hamiltonian system -/

/-- The parameters of `Eigen2` (`manuSolution_Eigen2.py:17-20`). -/
structure Eigen where
  omx : ℝ
  omy : ℝ
  phix : ℝ
  phiy : ℝ
  phit : ℝ

/-- `om_t` (`manuSolution_Eigen2.py:36`) -/
noncomputable def Eigen.omt (e : Eigen) : ℝ := √(e.omx ^ 2 + e.omy ^ 2)

/-- `p` (`manuSolution_Eigen2.py:22-42`) -/
noncomputable def Eigen.p (e : Eigen) : F2 ℝ := fun t x y =>
  - (cos (e.omx * x + e.phix) * sin (e.omy * y + e.phiy)) *
    (e.omt * (2 * cos (e.omt * t + e.phit) - 3 * sin (e.omt * t + e.phit)))

/-- `u` (`manuSolution_Eigen2.py:44-52`) -/
noncomputable def Eigen.u (e : Eigen) : F2 ℝ := fun t x y =>
  e.omx * sin (e.omx * x + e.phix) * sin (e.omy * y + e.phiy) *
    (2 * sin (e.omt * t + e.phit) + 3 * cos (e.omt * t + e.phit))

/-- `v` (`manuSolution_Eigen2.py:54-62`) -/
noncomputable def Eigen.v (e : Eigen) : F2 ℝ := fun t x y =>
  - e.omy * cos (e.omx * x + e.phix) * cos (e.omy * y + e.phiy) *
    (2 * sin (e.omt * t + e.phit) + 3 * cos (e.omt * t + e.phit))

/-! ### The vortex of Orszag and Tang -/

/-- `_phi` (`iniCond_Orszag_Tang_vortex.py:38-40`) -/
noncomputable def oPhi : F2 ℝ := fun t x y => 2 * sin y - 2 * cos x + 0 * t
/-- `_A` (`iniCond_Orszag_Tang_vortex.py:43-45`) -/
noncomputable def oA : F2 ℝ := fun t x y => cos (2 * y) - 2 * cos x + 0 * t

/-- `u` (`iniCond_Orszag_Tang_vortex.py:51, 56-59`) -/
noncomputable def ot2U : V2 ℝ := (S2.plain oPhi none).curl
/-- `B` (`iniCond_Orszag_Tang_vortex.py:52, 65-68`) -/
noncomputable def ot2B : V2 ℝ := (S2.plain oA none).curl

/-- `E` (`iniCond_Orszag_Tang_vortex.py:75-83`) -/
noncomputable def ot2E (Rm : Option ℝ) : Option (S2 ℝ) :=
  (inv' Rm).bind fun k => (scale k ot2B.rot).bind fun a => (crossV ot2U ot2B).bind fun b => a.sub (.scalar b)

/-- A steady vector `(0, 0, a)` with the derivatives `ax` and `ay` of `a`, as in
`iniCond_Orszag_Tang_vortex.py:135-152` with `tools/functions/time_space/_3d/wrappers/vector.py:76-138`. -/
noncomputable def upright (a ax ay : F3 ℝ) : V3 ℝ :=
  let z : Option (F3 ℝ) := some zero3
  ⟨zero3, zero3, a, z, z, z, z, z, z, z, z, z, some ax, some ay, z, none, none⟩

/-- `u` (`iniCond_Orszag_Tang_vortex.py:96-110, 135-143, 158-161`) -/
noncomputable def ot3U : V3 ℝ :=
  (upright (fun _ x y _ => 2 * sin y - 2 * cos x) (fun _ x _ _ => 2 * sin x) (fun _ _ y _ => 2 * cos y)).curl
/-- `B` (`iniCond_Orszag_Tang_vortex.py:114-128, 144-152, 167-170`) -/
noncomputable def ot3B : V3 ℝ :=
  (upright (fun _ x y _ => cos (2 * y) - 2 * cos x) (fun _ x _ _ => 2 * sin x) (fun _ _ y _ => - 2 * sin (2 * y))).curl

/-! ### Initial conditions -/

/-- The velocity of `InitialCondition_LoopAdvection` (`iniCond_loop_advection.py:15-23, 44-55`). A zero `Lx` is a division by
zero. -/
noncomputable def loopU (Lx Ly : ℝ) : Option (F2 ℝ × F2 ℝ) :=
  if Lx = 0 then none
  else
    let theta := arctan (Ly / Lx)
    let V0 := √(Lx ^ 2 + Ly ^ 2)
    some (fun t _ _ => V0 * cos theta + 0 + 0 + 0 * t, fun t _ _ => V0 * sin theta + 0 + 0 + 0 * t)

/-- The potential `_A` of `InitialCondition_LoopAdvection` at a point (`iniCond_loop_advection.py:25-42`). -/
noncomputable def loopA (A0 R : ℝ) : F2 ℝ := fun t x y =>
  (if √(x ^ 2 + y ^ 2) ≤ R then A0 * (R - √(x ^ 2 + y ^ 2)) else 0 + 0) + 0 * t

/-- The velocity of `InitialConditionShearLayerRollUp` at a point (`iniCond_shear_layer_rollup.py:50-64`). -/
noncomputable def shearU (delta : ℝ) : F2 ℝ := fun _ _ y =>
  if y ≤ π then tanh ((y - π / 2) / delta) else tanh ((3 * π / 2 - y) / delta)
/-- See `shearU`. -/
noncomputable def shearV (epsilon : ℝ) : F2 ℝ := fun _ x _ => epsilon * sin x

/-- The parameters of `ConditionsNormalDipoleCollision2` (`conditions_normal_dipole_collision.py:15-29`). -/
structure Dipole where
  x1 : ℝ
  y1 : ℝ
  x2 : ℝ
  y2 : ℝ
  r0 : ℝ
  we1 : ℝ
  we2 : ℝ

/-- `_u_unscaled` (`conditions_normal_dipole_collision.py:44-57`) -/
noncomputable def Dipole.u0 (d : Dipole) (x y : ℝ) : ℝ :=
  -0.5 * |d.we1| * (y - d.y1) * exp (- ((x - d.x1) ^ 2 + (y - d.y1) ^ 2) / d.r0 ^ 2) +
    0.5 * |d.we1| * (y - d.y2) * exp (- ((x - d.x2) ^ 2 + (y - d.y2) ^ 2) / d.r0 ^ 2)

/-- `_v_unscaled` (`conditions_normal_dipole_collision.py:59-71`) -/
noncomputable def Dipole.v0 (d : Dipole) (x y : ℝ) : ℝ :=
  0.5 * |d.we1| * (x - d.x1) * exp (- ((x - d.x1) ^ 2 + (y - d.y1) ^ 2) / d.r0 ^ 2) +
    -0.5 * |d.we1| * (x - d.x2) * exp (- ((x - d.x2) ^ 2 + (y - d.y2) ^ 2) / d.r0 ^ 2)

/-- `K_unscaled` (`conditions_normal_dipole_collision.py:31-38`) with the nodes and weights of a quadrature, given as triples
of a point and its weight. -/
noncomputable def Dipole.energy (quad : List (ℝ × ℝ × ℝ)) (u v : ℝ → ℝ → ℝ) : ℝ :=
  0.5 * (quad.map fun q => (u q.1 q.2.1 ^ 2 + v q.1 q.2.1 ^ 2) * q.2.2).sum

/-- The velocity `(u, v)` (`conditions_normal_dipole_collision.py:28, 34-41, 73-77`). An energy that is not positive gives no
numbers: the quotient is infinite or its root is not a number. -/
noncomputable def Dipole.velocity (d : Dipole) (K : ℝ) (quad : List (ℝ × ℝ × ℝ)) : Option (F2 ℝ × F2 ℝ) :=
  if d.we1 + d.we2 ≠ 0 then none
  else if d.r0 = 0 ∨ Dipole.energy quad d.u0 d.v0 ≤ 0 ∨ K < 0 then none
  else
    let s := √(K / Dipole.energy quad d.u0 d.v0)
    some (fun t x y => s * d.u0 x y + 0 * t, fun t x y => s * d.v0 x y + 0 * t)

/-- `phi` of `ManufacturedSolutionLSingularity` (`manuSolution_L_singularity.py:18-22`) with `cart2pol`
(`tools/functions/space/_2d/Cartesian_polar_coordinates_switcher.py:22-26`); `arctan2(y, x)` is the argument of `x + i y`. -/
noncomputable def lPhi : F2 ℝ := fun t x y =>
  √(x ^ 2 + y ^ 2) ^ (2 / 3 : ℝ) * sin ((2 / 3) * (Complex.arg ⟨x, y⟩ + π / 2)) + 0 * t

/-- `pol2cart` (`tools/functions/space/_2d/Cartesian_polar_coordinates_switcher.py:28-32`) -/
noncomputable def pol2cart (rho phi : ℝ) : ℝ × ℝ := (rho * cos phi, rho * sin phi)
/-- `cart2pol`, see `lPhi`. -/
noncomputable def cart2pol (x y : ℝ) : ℝ × ℝ := (√(x ^ 2 + y ^ 2), Complex.arg ⟨x, y⟩)

end Phyem.Samples
