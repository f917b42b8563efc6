import Verif.Dds.Ops
import Mathlib.Algebra.BigOperators.Group.Finset.Basic

/-!
# What data at points are

Stated about single numbers: the coordinate or the component with a number, in a region, at a point.
-/

namespace Phyem.Dds

variable {K : Type}

/-- The entries of a dictionary are for the regions `R`, once each, and have the shapes `S`. -/
structure Full (R : List ℕ) (S : ℕ → List ℕ) (d : Dict K) : Prop where
  nodup : (d.map Prod.fst).Nodup
  keys : ∀ r, r ∈ d.map Prod.fst ↔ r ∈ R
  shape : ∀ p ∈ d, p.2.shape = S p.1 ∧ p.2.data.length = (S p.1).prod

/-- All coordinates and all components are given for the same regions and have the same shapes there. -/
structure Good (R : List ℕ) (S : ℕ → List ℕ) (f : Fld K) : Prop where
  coo : f.coo ≠ []
  val : f.val ≠ []
  full : ∀ d ∈ f.coo ++ f.val, Full R S d

/-- The number in a dictionary, in region `r` at point `p`. -/
def entry [Zero K] (d : Dict K) (r p : ℕ) : K := ((d.lookup r).map fun a => a.data.getD p 0).getD 0

/-- Component `c` in region `r` at point `p`. -/
def Fld.value [Zero K] (f : Fld K) (c r p : ℕ) : K := entry (f.val.getD c []) r p

/-- Coordinate `i` in region `r` at point `p`. -/
def Fld.point [Zero K] (f : Fld K) (i r p : ℕ) : K := entry (f.coo.getD i []) r p

/-- The points of the two fields are nearly the same. -/
def SamePoints [Field K] [LinearOrder K] (R R' : List ℕ) (S S' : ℕ → List ℕ) (f g : Fld K) : Prop :=
  f.coo.length = g.coo.length ∧ (∀ r, r ∈ R ↔ r ∈ R') ∧ (∀ r ∈ R, S r = S' r) ∧
    ∀ i < f.coo.length, ∀ r ∈ R, ∀ p < (S r).prod,
      |f.point i r p - g.point i r p| ≤ 1 / 100000000 + 1 / 100000 * |g.point i r p|

/-- The result has the points of `f`, `n` components, and component `c` is `v c r p` in region `r` at point `p`. -/
def Is [Zero K] (R : List ℕ) (S : ℕ → List ℕ) (f out : Fld K) (n : ℕ) (v : ℕ → ℕ → ℕ → K) : Prop :=
  Good R S out ∧ out.coo = f.coo ∧ out.val.length = n ∧
    ∀ c < n, ∀ r ∈ R, ∀ p < (S r).prod, out.value c r p = v c r p

end Phyem.Dds
