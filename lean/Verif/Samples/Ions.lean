import Verif.Samples.Model2
import Verif.Funcs.ModelReal

/-!
# Ions in a fluid: the manufactured solution

Model of `/repo/tools/samples/manuSolution_PNPNS2.py` without a mesh. The classes of functions are those of
`Verif/Funcs/Model.lean`; an exception is `none`. Properties that are computed once and kept are recomputed here.
-/

namespace Phyem.Samples

open Real Phyem.Funcs

/-- `_u`, `_ut`, `_ux`, `_uy` (`manuSolution_PNPNS2.py:48-66`) -/
noncomputable def iU : F2 ℝ := fun t x y => sin x * cos y * exp t
@[inherit_doc iU] noncomputable def iUt : F2 ℝ := fun t x y => sin x * cos y * exp t
@[inherit_doc iU] noncomputable def iUx : F2 ℝ := fun t x y => cos x * cos y * exp t
@[inherit_doc iU] noncomputable def iUy : F2 ℝ := fun t x y => - sin x * sin y * exp t
/-- `_v`, `_vt`, `_vx`, `_vy` (`manuSolution_PNPNS2.py:68-86`) -/
noncomputable def iV : F2 ℝ := fun t x y => - cos x * sin y * exp t
@[inherit_doc iV] noncomputable def iVt : F2 ℝ := fun t x y => - cos x * sin y * exp t
@[inherit_doc iV] noncomputable def iVx : F2 ℝ := fun t x y => sin x * sin y * exp t
@[inherit_doc iV] noncomputable def iVy : F2 ℝ := fun t x y => - cos x * cos y * exp t
/-- `_sp`, `_sp_t`, `_sp_x`, `_sp_y` (`manuSolution_PNPNS2.py:88-106`) -/
noncomputable def iS : F2 ℝ := fun t x y => sin x * sin y * exp t
@[inherit_doc iS] noncomputable def iSt : F2 ℝ := fun t x y => sin x * sin y * exp t
@[inherit_doc iS] noncomputable def iSx : F2 ℝ := fun t x y => cos x * sin y * exp t
@[inherit_doc iS] noncomputable def iSy : F2 ℝ := fun t x y => sin x * cos y * exp t
/-- `_p`, `_pt`, `_px`, `_py` (`manuSolution_PNPNS2.py:108-124`) with the shift `s` -/
noncomputable def iP (s : ℝ) : F2 ℝ := fun t x y => (cos x * sin y + s) * exp t
@[inherit_doc iP] noncomputable def iPt (s : ℝ) : F2 ℝ := fun t x y => (cos x * sin y + s) * exp t
@[inherit_doc iP] noncomputable def iPx : F2 ℝ := fun t x y => - sin x * sin y * exp t
@[inherit_doc iP] noncomputable def iPy : F2 ℝ := fun t x y => cos x * cos y * exp t
/-- `_psi` and its derivatives (`manuSolution_PNPNS2.py:126-169`) -/
noncomputable def iPsi : F2 ℝ := fun t x y => sin x * sin y * exp t
@[inherit_doc iPsi] noncomputable def iPsit : F2 ℝ := fun t x y => sin x * sin y * exp t
@[inherit_doc iPsi] noncomputable def iPsitt : F2 ℝ := fun t x y => sin x * sin y * exp t
@[inherit_doc iPsi] noncomputable def iPsix : F2 ℝ := fun t x y => cos x * sin y * exp t
@[inherit_doc iPsi] noncomputable def iPsixx : F2 ℝ := fun t x y => - sin x * sin y * exp t
@[inherit_doc iPsi] noncomputable def iPsixy : F2 ℝ := fun t x y => cos x * cos y * exp t
@[inherit_doc iPsi] noncomputable def iPsiy : F2 ℝ := fun t x y => sin x * cos y * exp t
@[inherit_doc iPsi] noncomputable def iPsiyx : F2 ℝ := fun t x y => cos x * cos y * exp t
@[inherit_doc iPsi] noncomputable def iPsiyy : F2 ℝ := fun t x y => - sin x * sin y * exp t

/-- `p` (`manuSolution_PNPNS2.py:171-180`) -/
noncomputable def ionP (s : ℝ) : S2 ℝ := ⟨iP s, some (iPt s), some iPx, some iPy, none, none, none, none, none, none⟩
/-- `psi` (`manuSolution_PNPNS2.py:189-199`) -/
noncomputable def ionPsi : S2 ℝ :=
  ⟨iPsi, some iPsit, some iPsix, some iPsiy, some iPsitt, some iPsixx, some iPsixy, some iPsiyx, some iPsiyy, none⟩
/-- `static_pressure` (`manuSolution_PNPNS2.py:283-291`) -/
noncomputable def ionS : S2 ℝ := ⟨iS, some iSt, some iSx, some iSy, none, none, none, none, none, none⟩
/-- `u` (`manuSolution_PNPNS2.py:257-270`) -/
noncomputable def ionU : V2 ℝ := ⟨iU, iV, some iUt, some iVt, some iUx, some iUy, some iVx, some iVy, none, none⟩

/-- `a * v` for a scalar and a vector, which is a vector. -/
noncomputable def scalarV (a : S2 ℝ) (v : V2 ℝ) : Option (V2 ℝ) :=
  match pyMul (.scalar a) (.vector v) with
  | some (.vector b) => some b
  | _ => none

/-- `n` (`manuSolution_PNPNS2.py:182-187`); `e` is the parameter `epsilon`. -/
noncomputable def ionN (e s : ℝ) : Option (S2 ℝ) := (scale e ionPsi.laplacian).bind fun a => (ionP s).add (.scalar a)
/-- `mu` (`manuSolution_PNPNS2.py:201-206`) -/
noncomputable def ionMu (s : ℝ) : Option (S2 ℝ) := (ionP s).log.add (.scalar ionPsi)
/-- `nu` (`manuSolution_PNPNS2.py:208-213`) -/
noncomputable def ionNu (e s : ℝ) : Option (S2 ℝ) := (ionN e s).bind fun n => n.log.sub (.scalar ionPsi)
/-- `delta` (`manuSolution_PNPNS2.py:215-220`) -/
noncomputable def ionDelta (s : ℝ) : S2 ℝ := (ionP s).log
/-- `theta` (`manuSolution_PNPNS2.py:222-227`) -/
noncomputable def ionTheta (e s : ℝ) : Option (S2 ℝ) := (ionN e s).map S2.log
/-- `tau` (`manuSolution_PNPNS2.py:229-234`) -/
noncomputable def ionTau (s : ℝ) : Option (V2 ℝ) := (ionMu s).map S2.gradient
/-- `chi` (`manuSolution_PNPNS2.py:236-241`) -/
noncomputable def ionChi (e s : ℝ) : Option (V2 ℝ) := (ionNu e s).map S2.gradient
/-- `pTau` (`manuSolution_PNPNS2.py:243-248`) -/
noncomputable def ionPTau (s : ℝ) : Option (V2 ℝ) := (ionTau s).bind (scalarV (ionP s))
/-- `nChi` (`manuSolution_PNPNS2.py:250-255`) -/
noncomputable def ionNChi (e s : ℝ) : Option (V2 ℝ) :=
  (ionN e s).bind fun n => (ionChi e s).bind (scalarV n)
/-- `omega` (`manuSolution_PNPNS2.py:272-274`) -/
noncomputable def ionOmega : S2 ℝ := ionU.rot
/-- `total_pressure` (`manuSolution_PNPNS2.py:293-295`) -/
noncomputable def ionTotal : Option (S2 ℝ) :=
  (ionU.dot (.vector ionU)).bind fun d => (scale (1 / 2) d).bind fun k => ionS.add (.scalar k)
/-- `phi` (`manuSolution_PNPNS2.py:276-281`) -/
noncomputable def ionPhi (e s : ℝ) : Option (S2 ℝ) :=
  ionTotal.bind fun a => (a.sub (.scalar (ionP s))).bind fun b => (ionN e s).bind fun n => b.sub (.scalar n)
/-- `div_u` (`manuSolution_PNPNS2.py:297-300`) -/
noncomputable def ionDiv : S2 ℝ := ionU.divergence
/-- `source_f` (`manuSolution_PNPNS2.py:302-306`) -/
noncomputable def ionF (e s : ℝ) : Option (V2 ℝ) :=
  (ionU.convectionBy (.vector ionU)).bind fun c => (ionU.timeDerivative.add (.vector c)).bind fun a =>
    ionU.laplacian.bind fun l => (a.sub (.vector l)).bind fun a => (a.add (.vector ionS.gradient)).bind fun a =>
      (ionN e s).bind fun n => ((ionP s).sub (.scalar n)).bind fun q => (scalarV q ionPsi.gradient).bind fun w =>
        a.add (.vector w)
/-- `source_p` (`manuSolution_PNPNS2.py:308-312`) -/
noncomputable def ionSourceP (s : ℝ) : Option (S2 ℝ) :=
  (ionU.dot (.vector (ionP s).gradient)).bind fun d => ((ionP s).timeDerivative.add (.scalar d)).bind fun a =>
    (scalarV (ionP s) ionPsi.gradient).bind fun w => ((ionP s).gradient.add (.vector w)).bind fun g =>
      a.sub (.scalar g.divergence)
/-- `source_n` (`manuSolution_PNPNS2.py:314-318`) -/
noncomputable def ionSourceN (e s : ℝ) : Option (S2 ℝ) :=
  (ionN e s).bind fun n => (ionU.dot (.vector n.gradient)).bind fun d => (n.timeDerivative.add (.scalar d)).bind fun a =>
    (scalarV n ionPsi.gradient).bind fun w => (n.gradient.sub (.vector w)).bind fun g => a.sub (.scalar g.divergence)

end Phyem.Samples
