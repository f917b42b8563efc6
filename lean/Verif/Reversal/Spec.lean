import Verif.Reversal.Model
import Verif.Incidence.Spec
import Verif.Mass.Model

/-!
Specification vocabulary of C87.
-/

namespace Phyem.Reversal

open Phyem.Numbering Phyem.Incidence Phyem.Triangle

/-- The numbering of the edges of an element. -/
def edgesOf : Shape → Ori → ℕ → ℕ → List Comp
  | .quad, .inner, p, q => ln21i p q
  | .quad, .outer, p, q => ln21o p q
  | .tri, .inner, p, q => lnT1i p q
  | .tri, .outer, p, q => lnT1o p q

/-- The edge along `eta` from node `(i, j)` to `(i, j + 1)`. A triangle has none for `i = 0`. -/
def etaEdge : Shape → Ori → ℕ → ℕ → ℕ → ℕ → ℕ
  | .quad, .inner, p, q, i, j => snum (ln21i p q) (1, i, j, 0)
  | .quad, .outer, p, q, i, j => snum (ln21o p q) (0, i, j, 0)
  | .tri, .inner, p, q, i, j => snum (lnT1i p q) (1, i - 1, j, 0)
  | .tri, .outer, p, q, i, j => snum (lnT1o p q) (0, i - 1, j, 0)

/-- The edge along `xi` from node `(i, j)` to `(i + 1, j)`. -/
def xiEdge : Shape → Ori → ℕ → ℕ → ℕ → ℕ → ℕ
  | .quad, .inner, p, q, i, j => snum (ln21i p q) (0, i, j, 0)
  | .quad, .outer, p, q, i, j => snum (ln21o p q) (1, i, j, 0)
  | .tri, .inner, p, q, i, j => snum (lnT1i p q) (0, i, j, 0)
  | .tri, .outer, p, q, i, j => snum (lnT1o p q) (1, i, j, 0)

/-- Dof `d` is on face `f`: the faces of a quadrilateral are `xi = -1`, `xi = 1`, `eta = -1`, `eta = 1`; those of a triangle
`eta = -1`, `xi = 1`, `eta = 1`. -/
def OnFace : Shape → Ori → ℕ → ℕ → ℕ → ℕ → Prop
  | .quad, o, p, q, 0, d => ∃ j < q, d = etaEdge .quad o p q 0 j
  | .quad, o, p, q, 1, d => ∃ j < q, d = etaEdge .quad o p q p j
  | .quad, o, p, q, 2, d => ∃ i < p, d = xiEdge .quad o p q i 0
  | .quad, o, p, q, 3, d => ∃ i < p, d = xiEdge .quad o p q i q
  | .tri, o, p, q, 0, d => ∃ i < p, d = xiEdge .tri o p q i 0
  | .tri, o, p, q, 1, d => ∃ j < q, d = etaEdge .tri o p q p j
  | .tri, o, p, q, 2, d => ∃ i < p, d = xiEdge .tri o p q i q
  | _, _, _, _, _, _ => False

/-- Number of faces. -/
def nFaces : Shape → ℕ
  | .quad => 4
  | .tri => 3

open Classical in
/-- The sign of a dof: minus on the reversed faces. -/
noncomputable def sgn (s : Shape) (o : Ori) (p q : ℕ) (faces : List ℕ) (d : ℕ) : ℤ :=
  if ∃ f ∈ faces, OnFace s o p q f d then -1 else 1

/-- Number of dofs of the first component. -/
def len0 : Shape → Ori → ℕ → ℕ → ℕ
  | .quad, .inner, p, q => p * (q + 1)
  | .quad, .outer, p, q => (p + 1) * q
  | .tri, .inner, p, q => p * (q + 1)
  | .tri, .outer, p, q => p * q

/-- Number of dofs of the second component. -/
def len1 : Shape → Ori → ℕ → ℕ → ℕ
  | .quad, .inner, p, q => (p + 1) * q
  | .quad, .outer, p, q => p * (q + 1)
  | .tri, .inner, p, q => p * q
  | .tri, .outer, p, q => p * (q + 1)

/-- The element's incidence matrix from 0- to 1-forms before reversal. -/
def E0 : Shape → Ori → ℕ → ℕ → Mat
  | .quad, .inner, p, q => E20i p q
  | .quad, .outer, p, q => E20o p q
  | .tri, .inner, p, q => ET0i p q
  | .tri, .outer, p, q => ET0o p q

/-- The element's incidence matrix from 1- to 2-forms before reversal. -/
def E1 : Shape → Ori → ℕ → ℕ → Mat
  | .quad, .inner, p, q => E21i p q
  | .quad, .outer, p, q => E21o p q
  | .tri, .inner, p, q => ET1i p q
  | .tri, .outer, p, q => ET1o p q

/-- Number of nodes. -/
def n0 : Shape → ℕ → ℕ → ℕ
  | .quad, p, q => nd20 p q
  | .tri, p, q => nT0 p q

/-- Number of edges. -/
def n1 : Shape → ℕ → ℕ → ℕ
  | .quad, p, q => nd21 p q
  | .tri, p, q => nT1 p q

variable {K : Type} [Field K]

/-- The basis functions of 1-forms before reversal. -/
def basis : Shape → Ori → List K → List K → K → K → List (List K)
  | .quad, .inner, xs, ys, x, y => Mass.bf21i xs ys x y
  | .quad, .outer, xs, ys, x, y => Mass.bf21o xs ys x y
  | .tri, .inner, xs, ys, x, y => bfT1i xs ys x y
  | .tri, .outer, xs, ys, x, y => bfT1o xs ys x y

/-- The field with cochain `c` in the basis `b`, whose first component has `m` members. -/
def field (b : List K × List K) (m : ℕ) (c : ℕ → K) : K × K := (Poly.dot b.1 0 c, Poly.dot b.2 m c)

end Phyem.Reversal
