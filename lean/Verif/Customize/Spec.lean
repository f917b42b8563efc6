import Verif.Customize.Model
import Verif.Assembly.Spec

/-!
Specification of customised systems: what the assembled system is.
-/

namespace Phyem.Customize

open Chaining Assembly

/-- The elements of one process: the rows of the gathering matrices with the element's number. -/
abbrev Rows := List (ℕ × List ℕ × List ℕ)

/-- `es` are the elements with stored (compressed) matrices that have the entries of `M`. -/
def Stores (rows : Rows) (M : Loc Mat) (dep wid : ℕ) (es : List El) : Prop :=
  es.length = rows.length ∧ ∀ (k : ℕ) (x : ℕ × List ℕ × List ℕ) (e : El), rows[k]? = some x → es[k]? = some e →
    e.row = x.2.1 ∧ e.col = x.2.2 ∧ e.OK dep wid ∧
      ∀ r c, r < x.2.1.length → c < x.2.2.length → e.mat.entry r c = M.get x.1 r c

/-- The local vectors handed to the assembling. -/
def vecs (rows : Rows) (b : Loc (ℕ → ℚ)) : List (List ℕ × List ℚ) :=
  rows.map fun x => (x.2.1, (List.range x.2.1.length).map (b.get x.1))

/-- The rows of a msepy system. -/
def gmRows (row col : GM) : Rows := (List.range row.length).map fun e => (e, rowOf row e, rowOf col e)

/-- The rows of one rank of a msehtt system whose gathering matrices of rows and columns are the same. -/
def rankRows (d : Dict ℕ (List ℕ)) : Rows := d.map fun p => (p.1, p.2, p.2)

/-- The dof meant by an integer: negative ones count from the end. -/
def dofOf (n : ℕ) (i : ℤ) : ℕ := if i < 0 then (i + n).toNat else i.toNat

/-- The value set last for dof `d`, if any, by a sequence of calls on a system with `n` dofs. -/
def lastSet (n : ℕ) (cs : List (ℤ × ℚ)) (d : ℕ) : Option ℚ :=
  (cs.reverse.find? fun c => decide (dofOf n c.1 = d)).map Prod.snd

/-- `ess` are the elements of all ranks with stored matrices that have the entries of `A`. -/
def StoresH (g : DGM) (A : List (Loc Mat)) (dep wid : ℕ) (ess : List (List El)) : Prop :=
  A.length = g.length ∧ ess.length = g.length ∧ ∀ (k : ℕ) (d : Dict ℕ (List ℕ)) (M : Loc Mat) (es : List El),
    g[k]? = some d → A[k]? = some M → ess[k]? = some es → Stores (rankRows d) M dep wid es

/-- The assembled matrix: the sum over the ranks of the matrices assembled there. -/
def entryH (Ts : List (List (ℕ × ℕ × ℚ))) (i j : ℕ) : ℚ := (Ts.map fun T => entryAt T i j).sum

/-- The assembled vector: the sum over the ranks. -/
def ventryH (vs : List (List ℚ)) (i : ℕ) : ℚ := (vs.map fun v => v.getD i 0).sum

/-- All values, if none of them is missing. -/
def allSome {α : Type} : List (Option α) → Option (List α)
  | [] => some []
  | some a :: l => (allSome l).map (a :: ·)
  | none :: _ => none

end Phyem.Customize
