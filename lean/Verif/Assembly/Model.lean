import Verif.Chaining.Model
import Mathlib.Algebra.Order.Ring.Rat
import Mathlib.Algebra.Order.Group.Unbundled.Abs

/-
Model of assembling: `msepy/tools/matrix/static/local.py`, `msehtt/tools/matrix/static/local.py`,
`msepy/tools/vector/static/local.py` and `msehtt/tools/vector/static/local.py`.  Numbers are rational.
-/

namespace Phyem.Assembly

/-- A scipy `csr_matrix` (`csr = true`) or `csc_matrix`. -/
structure Sp where
  csr : Bool
  indptr : List ℕ
  indices : List ℕ
  data : List ℚ

/-- `xs[l:r]`. -/
def slice {α : Type} (xs : List α) (l r : ℕ) : List α := (xs.take r).drop l

/-- `g[idx]`; `none` is an `IndexError`. -/
def gather (g : List ℕ) : List ℕ → Option (List ℕ)
  | [] => some []
  | k :: ks =>
    match g[k]?, gather g ks with
    | some a, some b => some (a :: b)
    | _, _ => none

/-- `[g[j] for _ in range(num)]`: `g[j]` is not evaluated for `num = 0`. -/
def same (g : List ℕ) (j num : ℕ) : Option (List ℕ) :=
  if num = 0 then some [] else (g[j]?).map (List.replicate num)

/-- The loops over `nums = diff(indptr)`, msepy/tools/matrix/static/local.py:877-887 and
msehtt/tools/matrix/static/local.py:741-751: the numbers along the compressed indices and along the slots. -/
def places (minor major indices : List ℕ) : ℕ → List ℕ → Option (List ℕ × List ℕ)
  | j, a :: b :: ps =>
    match gather minor (slice indices a b), same major j (b - a), places minor major indices (j + 1) (b :: ps) with
    | some x, some y, some r => some (x ++ r.1, y ++ r.2)
    | _, _, _ => none
  | _, _ => some ([], [])

/-- `row`, `col` of one element. -/
def rowcol (gr gc : List ℕ) (M : Sp) : Option (List ℕ × List ℕ) :=
  if M.csr then (places gc gr M.indices 0 M.indptr).map fun p => (p.2, p.1)
  else places gr gc M.indices 0 M.indptr

/-- `data[np.abs(data) < threshold] = 0.`, msehtt/tools/matrix/static/local.py:733-736. -/
def cutoff (t : Option ℚ) (d : List ℚ) : List ℚ :=
  match t with
  | none => d
  | some t => d.map fun x => if |x| < t then 0 else x

/-- An element: its rows of the two gathering matrices and its local matrix. -/
structure El where
  row : List ℕ
  col : List ℕ
  mat : Sp

/-- `ROW`, `COL`, `DAT` after the loop over the elements. -/
def collect (t : Option ℚ) : List El → Option (List ℕ × List ℕ × List ℚ)
  | [] => some ([], [], [])
  | e :: es =>
    match rowcol e.row e.col e.mat, collect t es with
    | some p, some r => some (p.1 ++ r.1, p.2 ++ r.2.1, cutoff t e.mat.data ++ r.2.2)
    | _, _ => none

/-- `SPA_MATRIX((DAT, (ROW, COL)), shape=(dep, wid))`: scipy checks lengths and ranges. -/
def toSparse (dep wid : ℕ) (r : List ℕ × List ℕ × List ℚ) : Option (List (ℕ × ℕ × ℚ)) :=
  if r.1.length = r.2.1.length ∧ r.2.1.length = r.2.2.length ∧ (∀ n ∈ r.1, n < dep) ∧ (∀ n ∈ r.2.1, n < wid) then
    some (r.1.zip (r.2.1.zip r.2.2))
  else none

/-- `MsePyStaticLocalMatrixAssemble.__call__`, msepy/tools/matrix/static/local.py:829-918 (with `t = none`), and
`MseHttStaticLocalMatrixAssemble.__call__`, msehtt/tools/matrix/static/local.py:672-779, without `cache` and
`customizations`: the triplets of the sparse matrix of the elements of one rank.  scipy sums triplets at the
same place (`Chaining.entryAt`). -/
def assemble (t : Option ℚ) (dep wid : ℕ) (es : List El) : Option (List (ℕ × ℕ × ℚ)) :=
  (collect t es).bind (toSparse dep wid)

/-- numpy fits `Vi` to the length of the index array: equal length, or one number broadcast. -/
def fit (n : ℕ) (vs : List ℚ) : Option (List ℚ) :=
  if vs.length = n then some vs
  else
    match vs with
    | [x] => some (List.replicate n x)
    | _ => none

/-- `v[ns] += vs`: numpy computes `v[ns] + vs` and then writes the results in order. -/
def addAt (v : ℕ → ℚ) (ns : List ℕ) (vs : List ℚ) : ℕ → ℚ :=
  Chaining.writeVec v ns (List.zipWith (fun n x => v n + x) ns vs)

/-- The loop over the elements. -/
def vloop (num : ℕ) : (ℕ → ℚ) → List (List ℕ × List ℚ) → Option (ℕ → ℚ)
  | v, [] => some v
  | v, e :: es =>
    if ∀ n ∈ e.1, n < num then (fit e.1.length e.2).bind fun vs => vloop num (addAt v e.1 vs) es else none

/-- `MsePyStaticLocalVectorAssemble.__call__`, msepy/tools/vector/static/local.py:19-28, and
`MseHttStaticLocalVectorAssemble.__call__` with `mode='sum'`, msehtt/tools/vector/static/local.py:34-40, on the
elements of one rank. -/
def vassemble (num : ℕ) (es : List (List ℕ × List ℚ)) : Option (List ℚ) :=
  (vloop num (fun _ => 0) es).map fun v => (List.range num).map v

/-- `gather`, msehtt/tools/vector/static/global_distributed.py:69-75: `sum` of the vectors of all ranks. -/
def vgather (num : ℕ) (vs : List (List ℚ)) : List ℚ :=
  (List.range num).map fun i => (vs.map fun v => v.getD i 0).sum

end Phyem.Assembly
