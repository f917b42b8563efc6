import Verif.Slice.Model
import Mathlib.Data.Fin.VecNotation

/-!
What a box cut into boxes and periodic in all directions is, independently of how the code makes it. The axes are `0`,
`1`, `2`.
-/

namespace Phyem.Slice

open Phyem.Dict Phyem.PoolGM

/-- When a mesh of `kx` by `ky` by `kz` elements is asked for rightly. -/
def Accepted (layout : Layout) (x0 x1 y0 y1 t : ℚ) (levels : ℤ) (kx ky kz : ℕ) : Prop :=
  layout.list = [(kx : ℤ), (ky : ℤ)] ∧ levels = kz ∧ 0 < kx ∧ 0 < ky ∧ 0 < kz ∧ x0 < x1 ∧ y0 < y1 ∧ 0 < t

/-- The coordinates of a point. -/
def coord (p : ℚ × ℚ × ℚ) : Fin 3 → ℚ := ![p.1, p.2.1, p.2.2]

/-- The corner of an element that is at the high end of the axes with `D = true` and at the low end of the others. -/
def pos (x : Elem) (D : Fin 3 → Bool) (a : Fin 3) : ℚ := coord x.origin a + if D a then coord x.delta a else 0

/-- The node that the element map has for this corner: axis `0` runs first, axis `2` last. -/
def node (x : Elem) (D : Fin 3 → Bool) : ℕ :=
  match D 0, D 1, D 2 with
  | false, false, false => x.hex.m0
  | true, false, false => x.hex.m1
  | false, true, false => x.hex.m2
  | true, true, false => x.hex.m3
  | false, false, true => x.hex.m4
  | true, false, true => x.hex.m5
  | false, true, true => x.hex.m6
  | true, true, true => x.hex.m7

/-- The same place in a domain that repeats itself after the lengths `L`. -/
def Congruent (L p q : Fin 3 → ℚ) : Prop := ∀ a, ∃ z : ℤ, p a - q a = z * L a

/-- The point lies in the element, its low faces included and its high faces not. -/
def Inside (p : Fin 3 → ℚ) (x : Elem) : Prop := ∀ a, coord x.origin a ≤ p a ∧ p a < coord x.origin a + coord x.delta a

/-- Face `s` across axis `a` of an element and face `s'` across axis `a'` of another are the same face: the axes are
the same and the corners, one after the other, are the same places. -/
def SameFace (L : Fin 3 → ℚ) (x : Elem) (a : Fin 3) (s : Bool) (x' : Elem) (a' : Fin 3) (s' : Bool) : Prop :=
  a = a' ∧ ∀ D : Fin 3 → Bool, Congruent L (pos x (Function.update D a s)) (pos x' (Function.update D a s'))

/-- The nodes of a face, the first of the two other axes running first. -/
def faceNodes (x : Elem) (a : Fin 3) (s : Bool) : List ℕ :=
  match a with
  | 0 => [node x ![s, false, false], node x ![s, true, false], node x ![s, false, true], node x ![s, true, true]]
  | 1 => [node x ![false, s, false], node x ![true, s, false], node x ![false, s, true], node x ![true, s, true]]
  | 2 => [node x ![false, false, s], node x ![true, false, s], node x ![false, true, s], node x ![true, true, s]]

/-- The number of a face in an element (`face_setting`, `orthogonal_hexahedron.py:99-108`). -/
def faceId (a : Fin 3) (s : Bool) : ℕ := 2 * a.val + if s then 1 else 0

/-- The nodes of the edge along axis `a` at corner `D` of the other axes, from its low to its high end. -/
def edgeNodes (x : Elem) (a : Fin 3) (D : Fin 3 → Bool) : List ℕ :=
  [node x (Function.update D a false), node x (Function.update D a true)]

/-- Two edges are the same: the axes are the same and the ends, one after the other, are the same places. -/
def SameEdge (L : Fin 3 → ℚ) (x : Elem) (a : Fin 3) (D : Fin 3 → Bool) (x' : Elem) (a' : Fin 3) (D' : Fin 3 → Bool) : Prop :=
  a = a' ∧ ∀ s, Congruent L (pos x (Function.update D a s)) (pos x' (Function.update D' a s))

end Phyem.Slice
