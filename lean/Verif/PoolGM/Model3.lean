import Verif.PoolGM.Model

/-!
Model of the global numbering on meshes of hexahedra in `msehtt/static/space/gathering_matrix/Lambda/`
(`GM_m3n3k0.py`, `GM_m3n3k1.py`, `GM_m3n3k2.py`, `GM_m3n3k3.py`). Edges and faces are looked up in one direction only.
-/

namespace Phyem.PoolGM

/-- The element map of a hexahedron, the nodes `map_[0]`, …, `map_[7]`. -/
structure Hex where
  m0 : ℕ
  m1 : ℕ
  m2 : ℕ
  m3 : ℕ
  m4 : ℕ
  m5 : ℕ
  m6 : ℕ
  m7 : ℕ
deriving DecidableEq

/-- `[i0:i0+m, j0:j0+n, k0:k0+l]` of component `t` in Fortran order. -/
def box (t i0 m j0 n k0 l : ℕ) : List Cell :=
  (List.range (m * n * l)).map fun s => (t, i0 + s % m, j0 + s / m % n, k0 + s / (m * n))

/-- `___gm330_msepy_quadrilateral___` (`GM_m3n3k0.py:75-378`). -/
def hex0 (h : Hex) (p q r : ℕ) : List Block := [
  .node h.m0 [(0, 0, 0, 0)],
  .node h.m1 [(0, p, 0, 0)],
  .node h.m2 [(0, 0, q, 0)],
  .node h.m3 [(0, p, q, 0)],
  .node h.m4 [(0, 0, 0, r)],
  .node h.m5 [(0, p, 0, r)],
  .node h.m6 [(0, 0, q, r)],
  .node h.m7 [(0, p, q, r)],
  .ent false [h.m0, h.m1] (p - 1, 1) (box 0 1 (p - 1) 0 1 0 1),
  .ent false [h.m2, h.m3] (p - 1, 1) (box 0 1 (p - 1) q 1 0 1),
  .ent false [h.m4, h.m5] (p - 1, 1) (box 0 1 (p - 1) 0 1 r 1),
  .ent false [h.m6, h.m7] (p - 1, 1) (box 0 1 (p - 1) q 1 r 1),
  .ent false [h.m0, h.m2] (q - 1, 1) (box 0 0 1 1 (q - 1) 0 1),
  .ent false [h.m1, h.m3] (q - 1, 1) (box 0 p 1 1 (q - 1) 0 1),
  .ent false [h.m4, h.m6] (q - 1, 1) (box 0 0 1 1 (q - 1) r 1),
  .ent false [h.m5, h.m7] (q - 1, 1) (box 0 p 1 1 (q - 1) r 1),
  .ent false [h.m0, h.m4] (r - 1, 1) (box 0 0 1 0 1 1 (r - 1)),
  .ent false [h.m1, h.m5] (r - 1, 1) (box 0 p 1 0 1 1 (r - 1)),
  .ent false [h.m2, h.m6] (r - 1, 1) (box 0 0 1 q 1 1 (r - 1)),
  .ent false [h.m3, h.m7] (r - 1, 1) (box 0 p 1 q 1 1 (r - 1)),
  .ent false [h.m0, h.m2, h.m4, h.m6] (q - 1, r - 1) (box 0 0 1 1 (q - 1) 1 (r - 1)),
  .ent false [h.m1, h.m3, h.m5, h.m7] (q - 1, r - 1) (box 0 p 1 1 (q - 1) 1 (r - 1)),
  .ent false [h.m0, h.m1, h.m4, h.m5] (p - 1, r - 1) (box 0 1 (p - 1) 0 1 1 (r - 1)),
  .ent false [h.m2, h.m3, h.m6, h.m7] (p - 1, r - 1) (box 0 1 (p - 1) q 1 1 (r - 1)),
  .ent false [h.m0, h.m1, h.m2, h.m3] (p - 1, q - 1) (box 0 1 (p - 1) 1 (q - 1) 0 1),
  .ent false [h.m4, h.m5, h.m6, h.m7] (p - 1, q - 1) (box 0 1 (p - 1) 1 (q - 1) r 1),
  .inner (box 0 1 (p - 1) 1 (q - 1) 1 (r - 1))]

/-- `___gm331_msepy_quadrilateral___` (`GM_m3n3k1.py:74-303`). Components 0, 1, 2 are `dx`, `dy`, `dz`. -/
def hex1 (h : Hex) (p q r : ℕ) : List Block := [
  .ent false [h.m0, h.m1] (p, 1) (box 0 0 p 0 1 0 1),
  .ent false [h.m2, h.m3] (p, 1) (box 0 0 p q 1 0 1),
  .ent false [h.m4, h.m5] (p, 1) (box 0 0 p 0 1 r 1),
  .ent false [h.m6, h.m7] (p, 1) (box 0 0 p q 1 r 1),
  .ent false [h.m0, h.m2] (q, 1) (box 1 0 1 0 q 0 1),
  .ent false [h.m1, h.m3] (q, 1) (box 1 p 1 0 q 0 1),
  .ent false [h.m4, h.m6] (q, 1) (box 1 0 1 0 q r 1),
  .ent false [h.m5, h.m7] (q, 1) (box 1 p 1 0 q r 1),
  .ent false [h.m0, h.m4] (r, 1) (box 2 0 1 0 1 0 r),
  .ent false [h.m1, h.m5] (r, 1) (box 2 p 1 0 1 0 r),
  .ent false [h.m2, h.m6] (r, 1) (box 2 0 1 q 1 0 r),
  .ent false [h.m3, h.m7] (r, 1) (box 2 p 1 q 1 0 r),
  .ent true [h.m0, h.m2, h.m4, h.m6] (q * (r - 1) + (q - 1) * r, 1)
    (box 1 0 1 0 q 1 (r - 1) ++ box 2 0 1 1 (q - 1) 0 r),
  .ent true [h.m1, h.m3, h.m5, h.m7] (q * (r - 1) + (q - 1) * r, 1)
    (box 1 p 1 0 q 1 (r - 1) ++ box 2 p 1 1 (q - 1) 0 r),
  .ent true [h.m0, h.m1, h.m4, h.m5] (p * (r - 1) + (p - 1) * r, 1)
    (box 0 0 p 0 1 1 (r - 1) ++ box 2 1 (p - 1) 0 1 0 r),
  .ent true [h.m2, h.m3, h.m6, h.m7] (p * (r - 1) + (p - 1) * r, 1)
    (box 0 0 p q 1 1 (r - 1) ++ box 2 1 (p - 1) q 1 0 r),
  .ent true [h.m0, h.m1, h.m2, h.m3] (p * (q - 1) + (p - 1) * q, 1)
    (box 0 0 p 1 (q - 1) 0 1 ++ box 1 1 (p - 1) 0 q 0 1),
  .ent true [h.m4, h.m5, h.m6, h.m7] (p * (q - 1) + (p - 1) * q, 1)
    (box 0 0 p 1 (q - 1) r 1 ++ box 1 1 (p - 1) 0 q r 1),
  .inner (box 0 0 p 1 (q - 1) 1 (r - 1)),
  .inner (box 1 1 (p - 1) 0 q 1 (r - 1)),
  .inner (box 2 1 (p - 1) 1 (q - 1) 0 r)]

/-- `___gm332_msepy_quadrilateral___` (`GM_m3n3k2.py:73-168`). Components 0, 1, 2 are `dydz`, `dzdx`, `dxdy`. -/
def hex2 (h : Hex) (p q r : ℕ) : List Block := [
  .ent false [h.m0, h.m2, h.m4, h.m6] (q, r) (box 0 0 1 0 q 0 r),
  .ent false [h.m1, h.m3, h.m5, h.m7] (q, r) (box 0 p 1 0 q 0 r),
  .ent false [h.m0, h.m1, h.m4, h.m5] (p, r) (box 1 0 p 0 1 0 r),
  .ent false [h.m2, h.m3, h.m6, h.m7] (p, r) (box 1 0 p q 1 0 r),
  .ent false [h.m0, h.m1, h.m2, h.m3] (p, q) (box 2 0 p 0 q 0 1),
  .ent false [h.m4, h.m5, h.m6, h.m7] (p, q) (box 2 0 p 0 q r 1),
  .inner (box 0 1 (p - 1) 0 q 0 r),
  .inner (box 1 0 p 1 (q - 1) 0 r),
  .inner (box 2 0 p 0 q 1 (r - 1))]

/-- An element of a 3d mesh: its label, whether it belongs to the partial mesh, its nodes. Other types than
hexahedra are refused by the code and not modelled. -/
structure Item3 where
  label : ℕ
  inside : Bool
  hex : Hex

/-- The arrays raveled and joined (`GM_m3n3k0.py:376`). -/
def elem30 (p q r : ℕ) (x : Item3) : Elem :=
  ⟨x.label, x.inside, hex0 x.hex p q r, box 0 0 (p + 1) 0 (q + 1) 0 (r + 1)⟩

/-- The arrays raveled and joined (`GM_m3n3k1.py:301`). -/
def elem31 (p q r : ℕ) (x : Item3) : Elem :=
  ⟨x.label, x.inside, hex1 x.hex p q r, box 0 0 p 0 (q + 1) 0 (r + 1) ++ box 1 0 (p + 1) 0 q 0 (r + 1) ++ box 2 0 (p + 1) 0 (q + 1) 0 r⟩

/-- The arrays raveled and joined (`GM_m3n3k2.py:166`). -/
def elem32 (p q r : ℕ) (x : Item3) : Elem :=
  ⟨x.label, x.inside, hex2 x.hex p q r, box 0 0 (p + 1) 0 q 0 r ++ box 1 0 p 0 (q + 1) 0 r ++ box 2 0 p 0 q 0 (r + 1)⟩

/-- `___gm333_msepy_quadrilateral___` (`GM_m3n3k3.py:64-70`). -/
def elem33 (p q r : ℕ) (x : Item3) : Elem :=
  ⟨x.label, x.inside, [.inner (box 0 0 p 0 q 0 r)], box 0 0 p 0 q 0 r⟩

/-- The elements' functions raise when the mesh may have faces met in different ways
(`element_face_topology_mismatch`, `GM_m3n3k0.py:89-90`). -/
def guarded (mismatch : Bool) (mesh : List Item3)
    (r : Option (Dict ℕ (Option (List ℕ)) × ℕ)) : Option (Dict ℕ (Option (List ℕ)) × ℕ) :=
  if mismatch = true ∧ ∃ x ∈ mesh, x.inside = true then none else r

/-- `gathering_matrix_Lambda__m3n3k0` (`GM_m3n3k0.py:13-69`); distribution and cache are not modelled. -/
def number30 (mismatch : Bool) (p q r : ℕ) (mesh : List Item3) : Option (Dict ℕ (Option (List ℕ)) × ℕ) :=
  guarded mismatch mesh (number false (mesh.map (elem30 p q r)))

/-- `gathering_matrix_Lambda__m3n3k1` (`GM_m3n3k1.py:13-68`); distribution and cache are not modelled. -/
def number31 (mismatch : Bool) (p q r : ℕ) (mesh : List Item3) : Option (Dict ℕ (Option (List ℕ)) × ℕ) :=
  guarded mismatch mesh (number false (mesh.map (elem31 p q r)))

/-- `gathering_matrix_Lambda__m3n3k2` (`GM_m3n3k2.py:13-67`); distribution and cache are not modelled. -/
def number32 (mismatch : Bool) (p q r : ℕ) (mesh : List Item3) : Option (Dict ℕ (Option (List ℕ)) × ℕ) :=
  guarded mismatch mesh (number false (mesh.map (elem32 p q r)))

/-- `gathering_matrix_Lambda__m3n3k3` (`GM_m3n3k3.py:13-58`). -/
def number33 (p q r : ℕ) (mesh : List Item3) : Option (Dict ℕ (Option (List ℕ)) × ℕ) :=
  number false (mesh.map (elem33 p q r))

end Phyem.PoolGM
