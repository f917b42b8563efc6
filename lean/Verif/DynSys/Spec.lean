import Verif.DynSys.Model

/-!
What an evaluated system should be, element by element: sums over the terms of
`sign * factor * product of the components`.
-/

namespace Phyem.DynSys

open Phyem OpCache

variable {T τ C K : Type} [Field K]

/-- The local matrix of a root array for given arguments. -/
def compMat (w : World T τ C K) (t : T) (a : Arr T τ K) (e : ℕ) : Option (LM K) :=
  match a.comp, a.tr with
  | .mass k, false => (w.mass k).data e
  | .mass k, true => ((w.mass k).data e).map LM.T
  | .d k, false => (w.inc k).data e
  | .d k, true => ((w.inc k).data e).map LM.T
  | .dT k, false => ((w.inc k).data e).map LM.T
  | .dT k, true => (w.inc k).data e
  | .mat g, false => (g t).bind fun d => d.data e
  | _, _ => none

/-- The product of local matrices, from the right. -/
def chain : List (Option (LM K)) → Option (LM K)
  | [] => none
  | [A] => A
  | A :: l => A.bind fun A => (chain l).bind fun B => A.mul B

/-- The sum of local matrices, from the right. -/
def total : List (Option (LM K)) → Option (LM K)
  | [] => none
  | [A] => A
  | A :: l => A.bind fun A => (total l).bind fun B => A.add B

/-- The gathering matrices of the rows and columns of a root array. -/
def compGm (w : World T τ C K) (t : T) (a : Arr T τ K) : Option (ℕ × ℕ) :=
  match a.comp, a.tr with
  | .mass k, false => some ((w.mass k).row, (w.mass k).col)
  | .mass k, true => some ((w.mass k).col, (w.mass k).row)
  | .d k, false => some ((w.inc k).row, (w.inc k).col)
  | .d k, true => some ((w.inc k).col, (w.inc k).row)
  | .dT k, false => some ((w.inc k).col, (w.inc k).row)
  | .dT k, true => some ((w.inc k).row, (w.inc k).col)
  | .mat g, false => (g t).map fun d => (d.row, d.col)
  | _, _ => none

/-- The gathering matrices of a product: of the rows of the first and of the columns of the last factor. -/
def chainGm : List (Option (ℕ × ℕ)) → Option (ℕ × ℕ)
  | [] => none
  | [a] => a
  | a :: l => a.bind fun p => (chainGm l).map fun q => (p.1, q.2)

/-- The gathering matrices of a block: those of its first term. -/
def blockGm (w : World T τ C K) (t : T) : List (Term T τ K) → Option (ℕ × ℕ)
  | [] => none
  | m :: _ => chainGm (m.comps.map (compGm w t))

/-- `sign * factor`. -/
def coef (t : T) (m : Term T τ K) : Option K := (m.factor t).map fun f => if m.minus then -f else f

/-- A term of a block of `A` in an element. -/
def matTerm (w : World T τ C K) (t : T) (m : Term T τ K) (e : ℕ) : Option (LM K) :=
  (coef t m).bind fun c => (chain (m.comps.map fun a => compMat w t a e)).map (LM.scale c)

/-- A block of `A` in an element; a block without terms is zero. -/
def blockSpec (w : World T τ C K) (t : T) (row col : ℕ) (l : List (Term T τ K)) (e : ℕ) : Option (LM K) :=
  if l = [] then some ⟨w.size row e, w.size col e, fun _ _ => 0⟩
  else total (l.map fun m => matTerm w t m e)

/-- The vector of a natural boundary condition: the boundary integral over the place of the section the
condition is on, with the condition configured last for this place and form. -/
def naturalVec (w : World T τ C K) (configs : List (Config C)) (t : T) (sec f0 f1 : ℕ)
    (time : T → Option τ) (e : ℕ) : Option (LV K) :=
  (time t).bind fun s => (w.meshOf sec).bind fun place =>
    (findNatural configs place (w.form f0).base).bind fun c =>
      (w.boundary c.cond s f1 place).bind fun d => d e

/-- The local vector of a root array. -/
def compVec (w : World T τ C K) (configs : List (Config C)) (bc : Option (List (ℕ × List BC))) (t : T)
    (a : Arr T τ K) (e : ℕ) : Option (LV K) :=
  match a.comp with
  | .form f => (w.form f).data t e
  | .natural f0 f1 time =>
    bc.bind fun l => (naturalSection l f0).bind fun sec => naturalVec w configs t sec f0 f1 time e
  | .vec g => (g t).bind fun d => d.data e
  | _ => none

/-- A product of matrices and a vector, from the right. -/
def vecChain (w : World T τ C K) (configs : List (Config C)) (bc : Option (List (ℕ × List BC))) (t : T)
    (e : ℕ) : List (Arr T τ K) → Option (LV K)
  | [] => none
  | [a] => compVec w configs bc t a e
  | a :: l => (compMat w t a e).bind fun A => (vecChain w configs bc t e l).bind fun u => A.mulVec u

/-- The gathering matrix of a product with a vector. -/
def vecGm (w : World T τ C K) (t : T) : List (Arr T τ K) → Option ℕ
  | [] => none
  | [a] =>
    match a.comp with
    | .form f => some (w.form f).gm
    | .natural _ f1 _ => some (w.form f1).gm
    | .vec g => (g t).map VecData.gm
    | _ => none
  | a :: _ => (compGm w t a).map Prod.fst

/-- A term of `b` in an element. -/
def vecTerm (w : World T τ C K) (configs : List (Config C)) (bc : Option (List (ℕ × List BC))) (t : T)
    (m : Term T τ K) (e : ℕ) : Option (LV K) :=
  (coef t m).bind fun c => (vecChain w configs bc t e m.comps).map (LV.scale c)

/-- The sum of local vectors, from the right. -/
def vtotal : List (Option (LV K)) → Option (LV K)
  | [] => none
  | [v] => v
  | v :: l => v.bind fun v => (vtotal l).bind fun u => v.add u

/-- An entry of `b` in an element. -/
def vecSpec (w : World T τ C K) (configs : List (Config C)) (bc : Option (List (ℕ × List BC))) (t : T)
    (gm : ℕ) (l : List (Term T τ K)) (e : ℕ) : Option (LV K) :=
  if l = [] then some ⟨w.size gm e, fun _ => 0⟩
  else vtotal (l.map fun m => vecTerm w configs bc t m e)

/-! ### Boundary conditions -/

/-- The prescribed rows of unknown `i`, over all conditions in order: for each essential condition on
unknown `i` those of the condition configured last for its section and form, at the time of the unknown. -/
def prescribed (w : World T τ C K) (configs : List (Config C)) (x : List (Unknown τ)) (i : ℕ) :
    List (ℕ × BC) → List (Edit K)
  | [] => []
  | (sec, .essential i') :: l =>
    (if i' = i then
      (((x[i]?).bind fun u => (findEssential w configs sec (w.form u.form).base).bind fun c =>
        w.edits c.place c.cond u.form u.time).getD [])
     else []) ++ prescribed w configs x i l
  | _ :: l => prescribed w configs x i l

/-- The last prescription for a row of an element. -/
def lastEdit (l : List (Edit K)) (e r : ℕ) : Option (Edit K) :=
  l.reverse.find? fun d => d.elem == e && d.row == r

/-- A block after boundary conditions: prescribed rows are those of the identity (for the diagonal block,
at the representative location) or zero, all others are as they were. -/
def withRows (diag : Bool) (l : List (Edit K)) (e : ℕ) (A : LM K) : LM K :=
  ⟨A.rows, A.cols, fun r c =>
    match lastEdit l e r with
    | some d => if diag ∧ d.rep ∧ c = r then 1 else 0
    | none => A.ent r c⟩

/-- An entry of `b` after boundary conditions: the prescribed values at the representative locations and
zero at the others. -/
def withVals (l : List (Edit K)) (e : ℕ) (v : LV K) : LV K :=
  ⟨v.len, fun r =>
    match lastEdit l e r with
    | some d => if d.rep then d.val else 0
    | none => v.ent r⟩

/-! ### Which systems are safe -/

/-- An array that is one of the matrices kept between evaluations. -/
def Kept (a : Arr T τ K) : Prop :=
  (∃ k, a.comp = .mass k) ∨ (∃ k, a.comp = .d k) ∨ ∃ k, a.comp = .dT k

/-- A block that is nothing but one kept matrix: one term, sign plus, factor one, one component. -/
def Bare (t : T) (l : List (Term T τ K)) : Prop :=
  ∃ m, l = [m] ∧ m.minus = false ∧ m.factor t = some 1 ∧ ∃ a, m.comps = [a] ∧ Kept a

/-- No block in the row of an essential condition is bare. -/
def Safe (sys : Sys T τ K) : Prop :=
  ∀ bc, sys.bc = some bc → ∀ p ∈ flat bc, ∀ i, p.2 = .essential i → ∀ row, sys.A[i]? = some row →
    ∀ l ∈ row, ∀ t, ¬ Bare t l

/-- All systems of a history are safe. -/
def SafeHistory (h : List (UserOp T τ C K)) : Prop := ∀ sys, .apply sys ∈ h → Safe sys

/-! ### Evaluations -/

/-- An essential condition that can be imposed: there is a condition configured for it. -/
def Found (w : World T τ C K) (cf : List (Config C)) (x : List (Unknown τ)) (p : ℕ × BC) : Prop :=
  ∀ i, p.2 = .essential i → ∃ u c l, x[i]? = some u ∧
    findEssential w cf p.1 (w.form u.form).base = some c ∧ w.edits c.place c.cond u.form u.time = some l

/-- `S`, read on the heap `h`, is the system `src` evaluated with arguments `t` and configurations `cf`: the
unknowns are those of `src` at their times; every block of `A` and every entry of `b` is in every element
the sum of its terms, zero without terms, with the prescribed rows.  Rows and columns are numbered by
the gathering matrix of the row (`ρ`) and of the unknown. -/
structure IsEvaluation (w : World T τ C K) (cf : List (Config C)) (src : Sys T τ K) (t : T)
    (h : List (Op (LM K) × Dict ℕ (LM K))) (S : SLS τ K) : Prop where
  x : List.Forall₂ (fun f (u : Unknown τ) => u.form = f ∧ (w.form f).time t = some u.time) src.x S.x
  shape : S.A.length = src.A.length ∧ S.b.length = src.A.length ∧ src.b.length = src.A.length
  found : ∀ p ∈ (src.bc.map flat).getD [], Found w cf S.x p
  row : ∀ (i : ℕ) row, src.A[i]? = some row → ∃ ρ,
    (∀ (j : ℕ) l, row[j]? = some l → ∃ f ms m, src.x[j]? = some f ∧ S.A[i]? = some ms ∧ ms[j]? = some m ∧
      m.row = ρ ∧ m.col = (w.form f).gm ∧ (l ≠ [] → blockGm w t l = some (ρ, (w.form f).gm)) ∧
      ∀ e, readM h m.id e = (blockSpec w t ρ (w.form f).gm l e).map
        (withRows (j == i) (prescribed w cf S.x i ((src.bc.map flat).getD [])) e)) ∧
    (∀ l, src.b[i]? = some l → ∃ v, S.b[i]? = some v ∧ v.gm = ρ ∧
      (l ≠ [] → (l.head?.bind fun m => vecGm w t m.comps) = some ρ) ∧
      ∀ e ∈ w.elems, v.read h e = (vecSpec w cf src.bc t ρ l e).map
        (withVals (prescribed w cf S.x i ((src.bc.map flat).getD [])) e))

end Phyem.DynSys
