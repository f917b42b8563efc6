import Verif.Trf.Model

/-!
The argument `trf` of the configurations: `_parse_trf` of `msehtt/static/mesh/great/config/msepy_trf.py`, the call of
`MseHtt_Static_PreDefined_Trf_Config` in `msehtt_trf.py` and `TRF` of `trf.py` in the same directory.
-/

namespace Phyem.Trf

/-- `rft` in a dictionary: a number or a list of numbers; msepy_trf.py:95-102. -/
inductive Thresholds
  | one (q : ℚ)
  | many (l : List ℚ)

/-- The argument `trf`: an integer or a dictionary; msepy_trf.py:70-105.  The type checks of the entries are not
modelled. -/
inductive Arg
  | int (n : ℤ)
  | dict (rff : Pt → Option ℚ) (number : Bool) (rft : Thresholds) (rcm : Option Method)

/-- What `_parse_trf` returns; msepy_trf.py:112. -/
structure Parsed where
  rff : Pt → Option ℚ
  number : Bool
  rft : List ℚ
  rcm : Method

/-- `all(np.diff(np.array(rft)) > 0)`; msepy_trf.py:101. -/
def increasing : List ℚ → Bool
  | a :: b :: l => a < b && increasing (b :: l)
  | _ => true

/-- `_parse_trf`; msepy_trf.py:11-13, 49-112.  `___default_trf_1___` is `np.ones_like`, whose value at one point is an
array without dimension.  The last check (108-110) follows from the others. -/
def parseTrf : Arg → Option Parsed
  | .int n =>
    if n = 0 then some ⟨fun _ => some 1, false, [10], .center⟩
    else if 0 < n then some ⟨fun _ => some 1, false, List.replicate n.toNat 0, .center⟩
    else none
  | .dict rff number rft rcm =>
    let rcm := rcm.getD .center
    match rft with
    | .one q => some ⟨rff, number, [q], rcm⟩
    | .many l => if increasing l then some ⟨rff, number, l, rcm⟩ else none

/-- `MseHtt_Static_PreDefined_Trf_Config.__call__` after the base mesh has been made; msehtt_trf.py:41-43. -/
def config (B : Base) (map : ℕ → Pt → Pt) (a : Arg) (s : State) : Option (List Elem) × State :=
  match parseTrf a with
  | none => (none, s)
  | some p => refining B ⟨map, p.rff, p.number⟩ p.rcm p.rft s

/-- `isinstance(trf, dict) and 'rcm' in trf`; trf.py:27. -/
def Arg.hasMethod : Arg → Bool
  | .dict _ _ _ (some _) => true
  | _ => false

/-- `TRF`; trf.py:11-32. -/
def trf (B : Base) (map : ℕ → Pt → Pt) (a : Arg) (s : State) : Option (List Elem) × State :=
  match parseTrf a with
  | none => (none, s)
  | some p => refining B ⟨map, p.rff, p.number⟩ (if a.hasMethod then p.rcm else .middle) p.rft s

end Phyem.Trf
