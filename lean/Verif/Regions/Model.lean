import Verif.Base.Dict
import Mathlib.LinearAlgebra.Matrix.Rank
import Mathlib.Data.Real.Basic

/-!
Regions made of four points or of bounds (`msehtt/static/manifold/predefined/quad.py`, `rectangle.py`), what is known of dofs by their number
(`msehtt/static/form/dofs/main.py`), and singular modes of matrices (`msepy/tools/matrix/static/assembled.py`,
`msehtt/tools/matrix/static/global_.py`, `msehtt/tools/matrix/static/local.py`).

Numbers are exact, and the rank that numpy computes is the rank.
-/

namespace Phyem.Regions

open Phyem.Dict

abbrev Pt := ℝ × ℝ

/-- The coefficients `___invA___ @ x` (`quad.py:58-62`, `chaotic.py:12-19`) for the coordinates of the four points. -/
def coef (x0 x1 x2 x3 : ℝ) : ℝ × ℝ × ℝ × ℝ := (x0, -x0 + x1, -x0 + x3, x0 - x1 + x2 - x3)

/-- `a1 + a2 * r + a3 * s + a4 * r * s` (`quad.py:78-79`). -/
def bilin (a : ℝ × ℝ × ℝ × ℝ) (r s : ℝ) : ℝ := a.1 + a.2.1 * r + a.2.2.1 * s + a.2.2.2 * r * s

/-- `quad(A, B, C, D)[0][0].mapping(r, s)` (`quad.py:38-40`, `53-64`, `76-80`). -/
def quad (A B C D : Pt) (r s : ℝ) : Pt := (bilin (coef A.1 B.1 C.1 D.1) r s, bilin (coef A.2 B.2 C.2 D.2) r s)

/-- The map of a rectangle: `_xl_`, `_yl_`, `_X_`, `_Y_` (`rectangle.py:34-40`). -/
structure Rect where
  xl : ℝ
  yl : ℝ
  X : ℝ
  Y : ℝ

open Classical in
/-- `rectangle(bounds, periodic)` (`rectangle.py:8-29`). `none`: an error is raised. -/
noncomputable def rectangle (lx ux ly uy : ℝ) (periodic : Bool) : Option Rect :=
  if periodic then none else if lx < ux ∧ ly < uy then some ⟨lx, ly, ux - lx, uy - ly⟩ else none

/-- `mapping` (`rectangle.py:52-56`). -/
def Rect.map (R : Rect) (r s : ℝ) : Pt := (r * R.X + R.xl, s * R.Y + R.yl)

/-- `Jacobian_matrix` (`rectangle.py:59-64`). -/
def Rect.jac (R : Rect) (_ _ : ℝ) : (ℝ × ℝ) × (ℝ × ℝ) := ((R.X, 0), (0, R.Y))

/-- The loops of `___global_dof_info___` (`dofs/main.py:43-47`) for one element. `none`: a `KeyError`. -/
def infoRow {V : Type} (look : ℕ → ℕ → Option V) (e : ℕ) : ℕ → List ℕ → Dict ℕ V → Option (Dict ℕ V)
  | _, [], d => some d
  | i, n :: row, d => (look e i).bind fun v => infoRow look e (i + 1) row (put d n v)

/-- `___global_dof_info___` (`dofs/main.py:37-49`): `look e i` is `local_dof_info[e][i]`; the gathering matrix of a rank by element. -/
def info {V : Type} (look : ℕ → ℕ → Option V) : Dict ℕ (List ℕ) → Dict ℕ V → Option (Dict ℕ V)
  | [], d => some d
  | (e, row) :: gm, d => (infoRow look e 0 row d).bind (info look gm)

/-- `num_singularities` (`assembled.py:74-77`, `global_.py:188-191`, `local.py:227-235`): `shape[0] - rank`. -/
noncomputable def singular {m n : ℕ} (M : Matrix (Fin m) (Fin n) ℝ) : ℤ := (m : ℤ) - M.rank

end Phyem.Regions
