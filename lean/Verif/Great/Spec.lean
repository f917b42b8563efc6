import Verif.Great.Model

/-!
What the faces of a mesh are, independently of how the code finds them.
-/

namespace Phyem.Great

open Phyem.Dict

/-- The corners of the reference element, coordinate by coordinate (`false`: `-1`, `true`: `+1`), with the node that
sits there. A triangle is a square whose side `ξ = -1` is one node. -/
def corners : Shape → List (List Bool × ℕ)
  | .tri m0 m1 m2 => [([false, false], m0), ([true, false], m1), ([false, true], m0), ([true, true], m2)]
  | .quad m0 m1 m2 m3 => [([false, false], m0), ([true, false], m1), ([false, true], m2), ([true, true], m3)]
  | .ccw m0 m1 m2 m3 => [([false, false], m0), ([true, false], m1), ([false, true], m3), ([true, true], m2)]
  | .hex m0 m1 m2 m3 m4 m5 m6 m7 =>
    [([false, false, false], m0), ([true, false, false], m1), ([false, true, false], m2), ([true, true, false], m3),
     ([false, false, true], m4), ([true, false, true], m5), ([false, true, true], m6), ([true, true, true], m7)]

/-- The sides of the reference element that are faces, in order: an axis and the value of that coordinate. -/
def sides : Shape → List (ℕ × Bool)
  | .tri .. => [(1, false), (0, true), (1, true)]
  | .quad .. => [(0, false), (0, true), (1, false), (1, true)]
  | .ccw .. => [(0, false), (0, true), (1, false), (1, true)]
  | .hex .. => [(0, false), (0, true), (1, false), (1, true), (2, false), (2, true)]

/-- The nodes on a side. -/
def nodesOn (s : Shape) (side : ℕ × Bool) : List ℕ :=
  ((corners s).filter fun c => c.1[side.1]? = some side.2).map Prod.snd

/-- `nodes` are the nodes of face `p.2` of element `p.1`. -/
def FaceAt (mesh : Mesh) (p : Position) (nodes : List ℕ) : Prop :=
  ∃ s, get mesh p.1 = some s ∧ ∃ side, (sides s)[p.2]? = some side ∧ nodes = nodesOn s side

/-- Two different positions with the same nodes. -/
def Meet (mesh : Mesh) (p q : Position) : Prop :=
  p ≠ q ∧ ∃ n n', FaceAt mesh p n ∧ FaceAt mesh q n' ∧ n.Perm n'

end Phyem.Great
