import Verif.Boundary.Model
import Verif.Reduce.Spec
import Verif.Recon.Props
import Verif.Incidence.Model

/-!
Specification for C122 and C123: elements, boundary integrals over their sides, and their quadrature.
-/

namespace Phyem.Boundary

open Phyem.Poly Phyem.Geometry Phyem.Recon Phyem.Reduce

/-- The nodes of a reference interval: `p + 1` increasing numbers from -1 to 1. -/
structure RefNodes (p : ℕ) (xs : List ℝ) : Prop where
  len : xs.length = p + 1
  incr : xs.Pairwise (· < ·)
  first : node xs 0 = -1
  last : node xs p = 1

/-- The nodes are those of the reference element; the mapping is twice continuously differentiable around the reference square, `J`
is its Jacobian matrix, `iJ` the inverse of that, and the Jacobian is positive. -/
structure Good (e : El) : Prop where
  hx : RefNodes e.p e.xs
  hy : RefNodes e.q e.ys
  elem : Elem2 e.Φ fun x y => Geometry.at2 (e.J x y)
  inv : ∀ x ∈ I, ∀ y ∈ I, Inv2 (e.iJ x y) (Geometry.at2 (e.J x y))
  pos : ∀ x ∈ I, ∀ y ∈ I, 0 < cross2 (tan2 e.Φ x y (1, 0)) (tan2 e.Φ x y (0, 1))

/-- `n f t` is the outward unit normal vector at the point `t` of side `f` of the element with mapping `Φ`. -/
def Normals (Φ : ℝ → ℝ → ℝ × ℝ) (n : ℕ → ℝ → ℝ × ℝ) : Prop :=
  ∀ f < 4, ∀ t ∈ I, OutwardUnitNormal2 (fun P => Φ P.1 P.2) (facePoint2 f t) (along2 f) (out2 f) (n f t)

/-- The speed of the point `t` of side `f`: with it `∫ … speed dt` is the integral with respect to the length of the side. -/
noncomputable def speed (Φ : ℝ → ℝ → ℝ × ℝ) (f : ℕ) (t : ℝ) : ℝ :=
  let T := deriv (fun s => Φ (facePoint2 f s).1 (facePoint2 f s).2) t
  √(T.1 ^ 2 + T.2 ^ 2)

/-- The integral over side `f` of `h`, a function of the point (of the reference square) and of the normal vector. -/
noncomputable def sideInt (Φ : ℝ → ℝ → ℝ × ℝ) (n : ℕ → ℝ → ℝ × ℝ) (h : ℝ × ℝ → ℝ × ℝ → ℝ) (f : ℕ) : ℝ :=
  ∫ t in (-1 : ℝ)..1, h (facePoint2 f t) (n f t) * speed Φ f t

/-- Its quadrature with nodes `ts` and weights `ws`. -/
noncomputable def sideRule (ts ws : List ℝ) (Φ : ℝ → ℝ → ℝ × ℝ) (n : ℕ → ℝ → ℝ × ℝ) (h : ℝ × ℝ → ℝ × ℝ → ℝ) (f : ℕ) : ℝ :=
  (List.zipWith (fun t w => h (facePoint2 f t) (n f t) * speed Φ f t * w) ts ws).sum

/-- The faces of element `e` in a section. -/
def facesOf (sec : List (ℕ × ℕ)) (e : ℕ) : List ℕ := (sec.filter fun ef => ef.1 = e).map Prod.snd

/-- The outer and the inner 1-form and the 0-form with dofs `c`, at a point of the reference square. -/
noncomputable def El.v1o (e : El) (c : ℕ → ℝ) (P : ℝ × ℝ) : ℝ × ℝ := push21o (e.iJ P.1 P.2) (rec21o e.xs e.ys c P.1 P.2)
noncomputable def El.v1i (e : El) (c : ℕ → ℝ) (P : ℝ × ℝ) : ℝ × ℝ := push21i (e.iJ P.1 P.2) (rec21i e.xs e.ys c P.1 P.2)
noncomputable def El.v0 (e : El) (c : ℕ → ℝ) (P : ℝ × ℝ) : ℝ := rec20 e.xs e.ys c P.1 P.2

/-- The rule used for an element is made of points of the reference interval. -/
def Inside (Q : Rule) : Prop := ∀ n, ∀ t ∈ (Q n).1, t ∈ I

/-- What the boundary integrals return: a vector, as long as there are dofs, for exactly the elements with faces in the section; with
the dofs `c` of any form it gives the sum of the quadratures over these faces of `h e c`. -/
def IsBI (els : ℕ → El) (Q : Rule) (n : ℕ → ℕ → ℝ → ℝ × ℝ) (num : El → ℕ) (h : El → (ℕ → ℝ) → ℝ × ℝ → ℝ × ℝ → ℝ)
    (sec : List (ℕ × ℕ)) (data : ℕ → Option (List ℝ)) : Prop :=
  ∀ k, (facesOf sec k = [] → data k = none) ∧ (facesOf sec k ≠ [] → ∃ a, data k = some a ∧ a.length = num (els k) ∧
    ∀ c : ℕ → ℝ, ∑ d ∈ Finset.range (num (els k)), a.getD d 0 * c d =
      ((facesOf sec k).map (sideRule (Q (max (els k).p (els k).q + 1)).1 (Q (max (els k).p (els k).q + 1)).2 (els k).Φ (n k)
        (h (els k) c))).sum)

/-! ### The flux -/

/-- The sum of the dofs of face `f`. -/
def onFace (e : El) (c : List ℝ) (f : ℕ) : ℝ := (((Reversal.faceDofs .quad .outer e.p e.q f).getD []).map fun d => c.getD d 0).sum

/-- The sign of a face: the coordinate across it grows towards the outside for faces 1 and 3. -/
def out (f : ℕ) : ℝ := if f = 0 ∨ f = 2 then -1 else 1

/-- What a section asks of the elements and cochains. -/
structure Fits (els : ℕ → El) (c : ℕ → List ℝ) (n : ℕ) (sec : List (ℕ × ℕ)) : Prop where
  face : ∀ ef ∈ sec, ef.2 < 4
  good : ∀ ef ∈ sec, Good (els ef.1)
  len : ∀ ef ∈ sec, (c ef.1).length = (els ef.1).num1
  degx : ∀ ef ∈ sec, (els ef.1).p ≤ n + 1
  degy : ∀ ef ∈ sec, (els ef.1).q ≤ n + 1

/-- The sum of the dofs of the divergence: the incidence matrix applied to the dofs. -/
noncomputable def divSum (e : El) (c : List ℝ) : ℝ :=
  ∑ m ∈ Finset.range (Numbering.nd22 e.p e.q), Incidence.app (Numbering.nd21 e.p e.q) (Incidence.E21o e.p e.q) (fun i => c.getD i 0) m

end Phyem.Boundary
