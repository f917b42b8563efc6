import Mathlib.Algebra.Ring.Defs
import Mathlib.Algebra.BigOperators.Group.List.Basic
import Mathlib.Data.Rat.Defs

/-!
Model of multilinear terms and of the linear systems of the Newton and Picard methods:
`msehtt/tools/nonlinear_system/operator/local_multilinear.py`, `msehtt/tools/nonlinear_system/static/main.py`,
`static/solve/Newton_Raphson.py`, `static/solve/Picard.py`. `none` is an exception.
-/

namespace Phyem.Nonlinear

/-- A numpy array. The entries are those at the indices within the shape. -/
structure Arr (K : Type) where
  shape : List ℕ
  val : List ℕ → K

/-- All indices of an array. -/
def indices : List ℕ → List (List ℕ)
  | [] => [[]]
  | n :: s => (List.range n).flatMap fun i => (indices s).map (i :: ·)

/-- What `==` compares: forms are equal if they are the same form, copies at a time if they have the same form and time
(`static/form/addons/static.py:206-211`). -/
inductive Key where
  | generic (f : ℕ)
  | copy (f : ℕ) (t : ℚ)
deriving DecidableEq, Repr

/-- A form or a copy of a form at a time. `addr`: what `is` compares. -/
structure Operand where
  addr : ℕ
  key : Key
deriving DecidableEq, Repr

/-- The strings `mda_indices`, `given_indices`, `result_indices`; a letter is its place in the alphabet. -/
structure Operands where
  mda : List ℕ
  given : List ℕ
  result : List ℕ

/-- `_make_operands` (`local_multilinear.py:150-179`); the cache of the strings is not modelled. -/
def makeOperands {α : Type} (provided : List (Option α)) : Option Operands :=
  if 14 ≤ provided.length then none
  else some ⟨List.range provided.length,
    (provided.zipIdx.filter fun x => x.1.isSome).map Prod.snd,
    (provided.zipIdx.filter fun x => x.1.isNone).map Prod.snd⟩

variable {K : Type} [CommRing K]

/-- A 1d array: its length and its entries. -/
abbrev Arr1 (K : Type) := ℕ × (ℕ → K)

/-- `np.einsum(operands, data, *cochains)` for strings of this kind, where the letters of the first array are `0, 1, …`: sum the
product over all indices of the letters not in the result. `none`: lengths differ (simplification: numpy would repeat a cochain of
length one). -/
def einsum (o : Operands) (data : Arr K) (vs : List (Arr1 K)) : Option (Arr K) :=
  if data.shape.length = o.mda.length ∧ (o.given.zip vs).all (fun x => data.shape[x.1]? == some x.2.1) then
    some ⟨o.result.map fun l => data.shape.getD l 0, fun r =>
      (((indices data.shape).filter fun idx => o.result.map (fun l => idx.getD l 0) = r).map fun idx =>
        data.val idx * ((o.given.zip vs).map fun x => x.2.2 (idx.getD x.1 0)).prod).sum⟩
  else none

/-- The data of an operator: arrays by element, or a number times another operator (`_RmulFactorHelper`). -/
inductive Op (K : Type) where
  | array (data : ℕ → Arr K)
  | scaled (c : K) (op : Op K)

/-- `__call__` (`local_multilinear.py:80-148`) with the local cochains of the element, and `_RmulFactorHelper.__call__`
(`local_multilinear.py:366-369`). -/
def Op.call : Op K → ℕ → List (Option (Arr1 K)) → Option (Arr K)
  | .array data, e, provided =>
    if provided.all Option.isNone then some (data e)
    else (makeOperands provided).bind fun o => einsum o (data e) (provided.filterMap id)
  | .scaled c op, e, provided => (op.call e provided).map fun a => ⟨a.shape, fun r => c * a.val r⟩

/-- `MseHttStatic_Local_Multi_Linear_NonlinearOperator`. -/
structure Term (K : Type) where
  op : Op K
  corr : List Operand

/-- The check of the constructor (`local_multilinear.py:46-61`): no object twice. The meshes are those of the system
(simplification). -/
def Term.make (op : Op K) (corr : List Operand) : Option (Term K) :=
  if (corr.map Operand.addr).Nodup ∧ corr ≠ [] then some ⟨op, corr⟩ else none

/-- `__rmul__` (`local_multilinear.py:190-202`). -/
def Term.scale (c : K) (t : Term K) : Option (Term K) := Term.make (.scaled c t.op) t.corr

/-- The local cochains by element; `none`: nothing is provided. -/
abbrev Provider (K : Type) := Option (ℕ → Arr1 K)

/-- `eliminate` (`local_multilinear.py:204-240`): the arrays that remain, and their forms. The elements are given by the mesh. -/
def Term.eliminate (elements : List ℕ) (t : Term K) (providers : List (Provider K)) : Option ((ℕ → Arr K) × List Operand) :=
  if providers.all Option.isNone ∨ providers.length ≠ t.corr.length then none
  else
    let corr := ((t.corr.zip providers).filter fun x => x.2.isNone).map Prod.fst
    let data := fun e => t.op.call e (providers.map fun p => p.map fun c => c e)
    if corr ≠ [] ∧ elements.all fun e => (data e).isSome then
      some (fun e => (data e).getD ⟨[], fun _ => 0⟩, corr)
    else none

/-- The last of the pairs whose form is this object (`local_multilinear.py:299-304`). -/
def lastPair (cp : Operand) (known : List (Operand × Provider K)) : Provider K :=
  known.foldl (fun c p => if cp.addr = p.1.addr then p.2 else c) none

/-- `_derivative_contribution` (`local_multilinear.py:282-322`) with `matrix` (`local_multilinear.py:242-257`, `349-355`): the matrix
by element, or `some none` if the unknown is not there. -/
def Term.derivative (elements : List ℕ) (t : Term K) (test unknown : Operand) (known : List (Operand × Provider K)) :
    Option (Option (ℕ → ℕ → ℕ → K)) :=
  if ¬ test.key ∈ t.corr.map Operand.key then none
  else if ¬ unknown.key ∈ t.corr.map Operand.key then some none
  else
    let provided := t.corr.map fun cp => lastPair cp known
    if (provided.filter Option.isNone).length + known.length = t.corr.length then
      (t.eliminate elements provided).bind fun r =>
        if elements.all fun e => (r.1 e).shape.length = 2 then
          if r.2.map Operand.key = [test.key, unknown.key] then some (some fun e i j => (r.1 e).val [i, j])
          else if r.2.map Operand.key = [unknown.key, test.key] then some (some fun e i j => (r.1 e).val [j, i])
          else none
        else none
    else none

/-- `provided_cochains[self.correspondence.index(f)] = cochain` for each pair (`local_multilinear.py:327-333`). -/
def place (corr : List Operand) (pairs : List (Operand × (ℕ → Arr1 K))) : List (Provider K) :=
  pairs.foldl (fun l p =>
    match corr.findIdx? fun cp => cp.key == p.1.key with
    | some i => l.set i (some p.2)
    | none => l) (corr.map fun _ => none)

/-- What `MseHttStaticLocalVector` makes of an array of an element with `n` local dofs (`vector/static/local.py:121-133`): one column
counts as a vector. -/
def toVector (n : ℕ) (a : Arr K) : Option (ℕ → K) :=
  match a.shape with
  | [k] => if k = n then some fun i => a.val [i] else none
  | [k, 1] => if k = n then some fun i => a.val [i, 0] else none
  | _ => none

/-- `_evaluate` (`local_multilinear.py:325-337`) and the vector that is made of it (`static/main.py:564-568`), `n e` being the number of
dofs of the row in element `e`. -/
def Term.evaluate (elements : List ℕ) (n : ℕ → ℕ) (t : Term K) (pairs : List (Operand × (ℕ → Arr1 K))) :
    Option (ℕ → ℕ → K) :=
  (t.eliminate elements (place t.corr pairs)).bind fun r =>
    if elements.all fun e => (toVector (n e) (r.1 e)).isSome then some fun e => (toVector (n e) (r.1 e)).getD fun _ => 0
    else none

/-- `MseHttStaticNonLinearSystem` (`static/main.py:28-85`) without boundary conditions: blocks, right side, terms with their signs
(`true`: `'+'`), test forms, unknowns, and the numbers of dofs of test form `i` and of unknown `j` in an element. -/
structure Sys (K : Type) where
  elements : List ℕ
  rows : ℕ
  A : ℕ → ℕ → ℕ → ℕ → ℕ → K
  b : ℕ → ℕ → ℕ → K
  terms : ℕ → List (Term K × Bool)
  tests : ℕ → Operand
  unknowns : List Operand
  n : ℕ → ℕ → ℕ
  m : ℕ → ℕ → ℕ

/-- The unknowns with the local cochains of an iterate; entry `c` of unknown `j` in element `e` is `x j e c`. -/
def Sys.pairs (s : Sys K) (x : ℕ → ℕ → ℕ → K) : List (Operand × (ℕ → Arr1 K)) :=
  s.unknowns.zipIdx.map fun u => (u.1, fun e => (s.m u.2 e, x u.2 e))

/-- `_evaluate_nonlinear_terms` (`static/main.py:476-523`) for a row: the sum of the terms with their signs
(simplification: each term is made a vector before they are added, not after). -/
def Sys.nonlinear (s : Sys K) (x : ℕ → ℕ → ℕ → K) (i : ℕ) : Option (ℕ → ℕ → K) :=
  (s.terms i).foldlM (fun f t => (t.1.evaluate s.elements (s.n i) (s.pairs x)).map fun v e r =>
    if t.2 then f e r + v e r else f e r + -v e r) fun _ _ => 0

/-- `evaluate_f(provided_cochains, neg=True)` (`static/main.py:525-597`) for a row. -/
def Sys.negF (s : Sys K) (x : ℕ → ℕ → ℕ → K) (i : ℕ) : Option (ℕ → ℕ → K) :=
  (s.nonlinear x i).map fun f e r =>
    -(((List.range s.unknowns.length).map fun j =>
        ((List.range (s.m j e)).map fun c => s.A i j e r c * x j e c).sum).sum + f e r + -s.b i e r)

/-- The known pairs of a term (`Newton_Raphson.py:214-231`). -/
def Sys.known (s : Sys K) (x : ℕ → ℕ → ℕ → K) (t : Term K) (test unknown : Operand) : List (Operand × Provider K) :=
  (t.corr.filter fun cp => !(cp.key == unknown.key || cp.key == test.key)).map fun cp =>
    (cp, ((s.pairs x).find? fun p => p.1.key == cp.key).map Prod.snd)

/-- Block `LHS[i][j]` (`Newton_Raphson.py:175-252`). -/
def Sys.lhs (s : Sys K) (x : ℕ → ℕ → ℕ → K) (i j : ℕ) : Option (ℕ → ℕ → ℕ → K) :=
  (s.unknowns[j]?).bind fun u =>
    (s.terms i).foldlM (fun M t =>
      if ¬ (s.tests i).key ∈ t.1.corr.map Operand.key then none
      else if u.key ∈ t.1.corr.map Operand.key then
        (t.1.derivative s.elements (s.tests i) u (s.known x t.1 (s.tests i) u)).bind fun c =>
          c.map fun D e r c => if t.2 then M e r c + D e r c else M e r c + -D e r c
      else some M) (s.A i j)

/-- The right side of a row in the Picard method (`Picard.py:126-136`). -/
def Sys.picardRhs (s : Sys K) (x : ℕ → ℕ → ℕ → K) (i : ℕ) : Option (ℕ → ℕ → K) :=
  (s.nonlinear x i).map fun f e r => s.b i e r - f e r

end Phyem.Nonlinear
