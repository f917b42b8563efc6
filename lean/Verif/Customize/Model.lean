import Verif.Assembly.Model

/-
Model of customising local matrices, local vectors and linear systems:
`msepy/tools/matrix/static/local.py`, `msepy/tools/vector/static/local.py`,
`msepy/tools/linear_system/static/local/customize.py` and the same files of `msehtt`.
Local matrices are functions of row and column (their storage is the subject of `Verif.Assembly`).
-/

namespace Phyem.Customize

open Chaining

/-- A local matrix of one element. -/
abbrev Mat := ℕ → ℕ → ℚ

/-- `data[l, :] = 0`. -/
def zeroRow (D : Mat) (l : ℕ) : Mat := fun r c => if r = l then 0 else D r c

/-- `data[l, :] = 0; data[l, l] = 1`. -/
def unitRow (D : Mat) (l : ℕ) : Mat := fun r c => if r = l then (if c = l then 1 else 0) else D r c

/-- A local vector of one element with entry `l` replaced: `data[l] = value`. -/
def setEntry (d : ℕ → ℚ) (l : ℕ) (v : ℚ) : ℕ → ℚ := fun r => if r = l then v else d r

/-- The elements of a process: the data of the elements and `customize._customizations`. -/
structure Loc (α : Type) where
  base : ℕ → α
  cust : Dict ℕ α

/-- `M[e]`: the customised data if there is any, msepy/tools/matrix/static/local.py:134-144 and
msehtt/tools/matrix/static/local.py:155-172 (caching is the subject of `Verif.OpCache`). -/
def Loc.get {α : Type} (M : Loc α) (e : ℕ) : α := (Dict.get M.cust e).getD (M.base e)

/-- `self._customizations[e] = data`. -/
def Loc.set {α : Type} (M : Loc α) (e : ℕ) (d : α) : Loc α := ⟨M.base, Dict.put M.cust e d⟩

/-- Apply `f` to row `q.2` of element `q.1` of each place `q`, one after the other. -/
def Loc.edit {α : Type} (f : α → ℕ → α) (M : Loc α) (qs : List (ℕ × ℕ)) : Loc α :=
  qs.foldl (fun M q => M.set q.1 (f (M.get q.1) q.2)) M

/-- The first place is edited by `f`, the other ones by `f'`; `none` is the `IndexError` of `elements[0]`. -/
def firstRest {α : Type} (f f' : α → ℕ → α) (M : Loc α) : List (ℕ × ℕ) → Option (Loc α)
  | [] => none
  | q :: qs => some (Loc.edit f' (M.set q.1 (f (M.get q.1) q.2)) qs)

/-! ### msepy -/

/-- The number a dof is looked up with: negative integers count from the end; the assertion of
msepy/tools/gathering_matrix.py:313.  The answer of the look-up is `whereGM` (see C28 for its cache). -/
def normDof (g : GM) (i : ℤ) : Option ℕ :=
  (numDofs g).bind fun n =>
    if 0 ≤ (if i < 0 then i + n else i) ∧ (if i < 0 then i + n else i) < n then
      some (if i < 0 then i + n else i).toNat
    else none

/-- `identify_row`, msepy/tools/matrix/static/local.py:501-529, of a matrix with gathering matrices `row`, `col`. -/
def identifyRow (row col : GM) (M : Loc Mat) (i : ℤ) : Option (Loc Mat) :=
  if row = col then (normDof row i).bind fun n => firstRest unitRow zeroRow M (whereGM row n) else none

/-- `set_value`, msepy/tools/vector/static/local.py:273-295, of a vector with gathering matrix `g` whose local data
are made anew on each access (as those of a concatenated vector; see C36 for the other ones). -/
def setValue (g : GM) (b : Loc (ℕ → ℚ)) (i : ℤ) (v : ℚ) : Option (Loc (ℕ → ℚ)) :=
  (normDof g i).bind fun n => firstRest (fun d l => setEntry d l v) (fun d l => setEntry d l 0) b (whereGM g n)

/-- A linear system: `A._mA` and `b._vb`. -/
structure Sys where
  A : Loc Mat
  b : Loc (ℕ → ℚ)

/-- `set_dof`, msepy/tools/linear_system/static/local/customize.py:15-24; `g` is the gathering matrix of the rows
(and columns) of the system. -/
def setDof (row col : GM) (s : Sys) (i : ℤ) (v : ℚ) : Option Sys :=
  (identifyRow row col s.A i).bind fun A => (setValue row s.b i v).map fun b => ⟨A, b⟩

/-- A sequence of calls. -/
def setDofs (row col : GM) : Sys → List (ℤ × ℚ) → Option Sys
  | s, [] => some s
  | s, c :: cs => (setDof row col s c.1 c.2).bind fun s' => setDofs row col s' cs

/-! ### msehtt -/

/-- The flag `representative_local_dof`: the first place in element `e` is edited by `f`, all others by `f'`;
msehtt/tools/matrix/static/local.py:497-510 and msehtt/tools/vector/static/local.py:337-349. -/
def flagEdit {α : Type} (f f' : α → ℕ → α) (e : ℕ) : Bool → Loc α → List (ℕ × ℕ) → Loc α
  | _, M, [] => M
  | flag, M, q :: qs =>
    if q.1 = e ∧ flag = true then flagEdit f f' e false (M.set q.1 (f (M.get q.1) q.2)) qs
    else flagEdit f f' e flag (M.set q.1 (f' (M.get q.1) q.2)) qs

/-- `identify_row` and `set_value` on rank `k` of the gathering matrix `g`, for a dof `n` in range,
msehtt/tools/matrix/static/local.py:482-516 and msehtt/tools/vector/static/local.py:325-355: `f` is the edit at the
representative place, `f'` at the others.  `num_global_locations` is the sum over the ranks
(msehtt/tools/gathering_matrix.py:473-481); `none`: no representative location. -/
def rankEdit {α : Type} (f f' : α → ℕ → α) (g : DGM) (n k : ℕ) (d : Dict ℕ (List ℕ)) (M : Loc α) : Option (Loc α) :=
  if (g.map fun d => (rankPlaces d n).length).sum = 1 then
    match rankPlaces d n with
    | [q] => some (M.set q.1 (f (M.get q.1) q.2))
    | _ => some M
  else
    (representative g n).map fun p =>
      if k = p.1 then flagEdit f f' p.2 true M (rankPlaces d n) else Loc.edit f' M (rankPlaces d n)

/-- All ranks. -/
def ranksEdit {α : Type} (f f' : α → ℕ → α) (g : DGM) (n : ℕ) : ℕ → List (Dict ℕ (List ℕ)) → List (Loc α) →
    Option (List (Loc α))
  | k, d :: ds, M :: Ms =>
    match rankEdit f f' g n k d M, ranksEdit f f' g n (k + 1) ds Ms with
    | some M', some Ms' => some (M' :: Ms')
    | _, _ => none
  | _, _, _ => some []

/-- `i < 0`: `i += gm.num_global_dofs`, then the assertion; msehtt/tools/matrix/static/local.py:476-482. -/
def normDofH (g : DGM) (i : ℤ) : Option ℕ :=
  if 0 ≤ (if i < 0 then i + g.num else i) ∧ (if i < 0 then i + g.num else i) < g.num then
    some (if i < 0 then i + g.num else i).toNat
  else none

/-- `identify_row` called on all ranks. -/
def identifyRowH (g : DGM) (A : List (Loc Mat)) (i : ℤ) : Option (List (Loc Mat)) :=
  (normDofH g i).bind fun n => ranksEdit unitRow zeroRow g n 0 g A

/-- `zero_row` called on all ranks, msehtt/tools/matrix/static/local.py:429-457. -/
def zeroRowH (g : DGM) (A : List (Loc Mat)) (i : ℤ) : Option (List (Loc Mat)) :=
  (normDofH g i).map fun n => List.zipWith (fun d M => Loc.edit zeroRow M (rankPlaces d n)) g A

/-- `set_value` called on all ranks. -/
def setValueH (g : DGM) (b : List (Loc (ℕ → ℚ))) (i : ℤ) (v : ℚ) : Option (List (Loc (ℕ → ℚ))) :=
  (normDofH g i).bind fun n => ranksEdit (fun d l => setEntry d l v) (fun d l => setEntry d l 0) g n 0 g b

/-- A distributed system. -/
structure SysH where
  A : List (Loc Mat)
  b : List (Loc (ℕ → ℚ))

/-- `set_dof`, msehtt/tools/linear_system/static/local/customize.py:17-22, on all ranks. -/
def setDofH (g : DGM) (s : SysH) (i : ℤ) (v : ℚ) : Option SysH :=
  (identifyRowH g s.A i).bind fun A => (setValueH g s.b i v).map fun b => ⟨A, b⟩

/-- A sequence of calls. -/
def setDofsH (g : DGM) : SysH → List (ℤ × ℚ) → Option SysH
  | s, [] => some s
  | s, c :: cs => (setDofH g s c.1 c.2).bind fun s' => setDofsH g s' cs

end Phyem.Customize
