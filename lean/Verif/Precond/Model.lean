import Mathlib.Algebra.Order.Field.Rat
import Mathlib.Algebra.BigOperators.Group.List.Basic
import Mathlib.Data.List.Sort
import Mathlib.Data.List.Dedup

/-!
Model of distributed global matrices, `msehtt/tools/matrix/static/global_.py`, and vectors,
`msehtt/tools/vector/static/global_distributed.py`.

A distributed matrix is one sparse matrix per rank, the true matrix being the sum.  A sparse matrix is the
list of its rows, a row the list of its stored entries (column and value).  Entries are rational numbers
(no rounding).  `COMM.gather` and `Allreduce` are sums over the list of ranks.
-/

namespace Phyem.Precond

/-- The stored entries of a row. -/
abbrev Row := List (ℕ × ℚ)

/-- The matrix of one rank. -/
abbrev RankMat := List Row

/-- The vector of one rank. -/
abbrev RankVec := List ℚ

/-- Value of a row at a column (scipy sums duplicates). -/
def rowAt (r : Row) (j : ℕ) : ℚ := ((r.filter fun p => p.1 == j).map fun p => p.2).sum

/-- Row `i` of a rank matrix. -/
def rowOf (m : RankMat) (i : ℕ) : Row := m.getD i []

/-- Entry of a rank matrix. -/
def entry (m : RankMat) (i j : ℕ) : ℚ := rowAt (rowOf m i) j

/-- `np.reciprocal` after `DIAG[DIAG < 1] = 1`: global_.py:197-198. -/
def recip (d : ℚ) : ℚ := if d < 1 then 1 else 1 / d

/-- `diagonal()`: global_.py:192-200, for `n` rows.  The result is the diagonal of a matrix, the same on all
ranks. -/
def diagonal (n : ℕ) (ms : List RankMat) : List ℚ :=
  (List.range n).map fun i => recip ((ms.map fun m => entry m i i).sum)

/-- `diag @ M` on one rank: global_.py:203-207. -/
def scaleMat (d : List ℚ) (m : RankMat) : RankMat :=
  m.zipIdx.map fun p => p.1.map fun q => (q.1, d.getD p.2 0 * q.2)

/-- `diag @ b` on one rank: global_distributed.py:82-88. -/
def scaleVec (d : List ℚ) (v : RankVec) : RankVec :=
  v.zipIdx.map fun p => d.getD p.2 0 * p.1

/-- `assemble(preconditioner='Jacobian')`, linear_system/static/local/main.py:276-287, after `A` and `b`
are assembled. -/
def jacobi (n : ℕ) (ms : List RankMat) (bs : List RankVec) : List RankMat × List RankVec :=
  let d := diagonal n ms
  (ms.map (scaleMat d), bs.map (scaleVec d))

/-- The test for one row: global_.py:215. -/
def unitRow (i : ℕ) (r : Row) : Bool :=
  match r with
  | [(c, v)] => (c == i) && decide (v = 1)
  | _ => false

/-- Rows of a rank passing the test: global_.py:212-218. -/
def localEssential (n : ℕ) (m : RankMat) : List ℕ :=
  (List.range n).filter fun i => unitRow i (rowOf m i)

/-- `___find_essential_rows___`: global_.py:210-241. -/
def findEssential (n : ℕ) (ms : List RankMat) : List ℕ :=
  let ler := (ms.map (localEssential n)).flatten
  let rows := if ler.dedup.length = ler.length then ler
    else ler.dedup.filter fun i => ler.count i == 1
  rows.insertionSort (· ≤ ·)

/-- `___find_essential_dof_coefficients___`: global_.py:243-271. -/
def essentialCoefficients (n : ℕ) (ms : List RankMat) (bs : List RankVec) : List ℕ × List ℚ :=
  (findEssential n ms,
    (findEssential n ms).map fun i => (bs.map fun b => b.getD i 0).sum)

/-- `value_at(i, j)`: global_.py:102-107. -/
def valueAt (ms : List RankMat) (i j : ℕ) : ℚ := (ms.map fun m => entry m i j).sum

end Phyem.Precond
