import Verif.Assembly.Model
import Mathlib.Algebra.BigOperators.Group.Finset.Basic
import Mathlib.Algebra.BigOperators.Ring.Finset
import Mathlib.Algebra.Field.Rat

/-!
Specification of assembling.
-/

namespace Phyem.Assembly

open Finset

/-- Entry `(r, c)` of a compressed matrix: the sum of the stored numbers of that row and column.  The slot of a
`csr` matrix is the row, the slot of a `csc` matrix the column. -/
def Sp.entry (M : Sp) (r c : ℕ) : ℚ :=
  let j := if M.csr then r else c
  let k := if M.csr then c else r
  ∑ p ∈ range M.data.length,
    if M.indptr.getD j 0 ≤ p ∧ p < M.indptr.getD (j + 1) 0 ∧ M.indices.getD p 0 = k then M.data.getD p 0 else 0

/-- A well formed compressed matrix with `m` rows and `n` columns. -/
structure Sp.OK (M : Sp) (m n : ℕ) : Prop where
  slots : M.indptr.length = (if M.csr then m else n) + 1
  start : M.indptr.head? = some 0
  mono : M.indptr.Pairwise (· ≤ ·)
  stop : M.indptr.getLast? = some M.indices.length
  data : M.data.length = M.indices.length
  range : ∀ k ∈ M.indices, k < if M.csr then n else m

/-- Contribution of one element with rows `gr`, `gc` of the gathering matrices to entry `(i, j)`: the sum of the
local entries at places numbered `(i, j)`. -/
def share (gr gc : List ℕ) (M : ℕ → ℕ → ℚ) (i j : ℕ) : ℚ :=
  ∑ r ∈ range gr.length, ∑ c ∈ range gc.length, if gr[r]? = some i ∧ gc[c]? = some j then M r c else 0

/-- Contribution of one element to entry `i` of a vector. -/
def vshare (g : List ℕ) (v : ℕ → ℚ) (i : ℕ) : ℚ :=
  ∑ r ∈ range g.length, if g[r]? = some i then v r else 0

/-- An element fits: its matrix is well formed and of the right shape, its numbers are in range. -/
structure El.OK (e : El) (dep wid : ℕ) : Prop where
  mat : e.mat.OK e.row.length e.col.length
  row : ∀ n ∈ e.row, n < dep
  col : ∀ n ∈ e.col, n < wid

end Phyem.Assembly
