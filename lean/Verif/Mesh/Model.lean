import Verif.Base.Dict

/-
Model of the element numbering and of the element map of msepy meshes: `msepy/mesh/elements/main.py` with
`Regions._check_map` of `msepy/manifold/regions/main.py`.  Layouts enter through the number of elements per
axis only (`len(_) for _ in layout`); lengths of elements play no role here.
-/

namespace Phyem.Mesh

/-- Entry of `np.arange(prod(dis)).reshape(dis, order='F')` at a multi-index (axis 0 fastest). -/
def stride : List ℕ → List ℕ → ℕ
  | n :: ns, i :: is => i + n * stride ns is
  | _, _ => 0

/-- A multi-index inside a shape. -/
def Inside : List ℕ → List ℕ → Prop
  | [], [] => True
  | n :: ns, i :: is => i < n ∧ Inside ns is
  | _, _ => False

/-- `dis[r]`, the numbers of elements per axis of region `r`. -/
def shape (dis : List (List ℕ)) (r : ℕ) : List ℕ := (dis[r]?).getD []

/-- `num_accumulation[r]`, msepy/mesh/elements/main.py:187-206. -/
def acc (dis : List (List ℕ)) (r : ℕ) : ℕ := ((dis.take r).map List.prod).sum

/-- `element_numbering[r][idx]` of `_generate_element_numbering_from_layout`,
msepy/mesh/elements/main.py:187-206. -/
def num (dis : List (List ℕ)) (r : ℕ) (idx : List ℕ) : ℕ := acc dis r + stride (shape dis r) idx

/-- `amount_of_elements`. -/
def total (dis : List (List ℕ)) : ℕ := acc dis dis.length

/-- The search for the region, msepy/mesh/elements/main.py:282-292. -/
def search (R i : ℕ) : ℕ → List ℕ → Option ℕ
  | _, [] => none
  | j, [_] => if j = R - 1 then some j else none
  | j, na :: na' :: rest =>
    if j = R - 1 then some j
    else if na ≤ i ∧ i < na' then some j
    else search R i (j + 1) (na' :: rest)

/-- The loop over the axes from the last one down, msepy/mesh/elements/main.py:302-313 (the list is built
in this order and reversed afterwards). -/
def peel (dis : List ℕ) : ℕ → ℕ → List ℕ
  | 0, l => [l]
  | n + 1, l => l / (dis.take (n + 1)).prod :: peel dis n (l % (dis.take (n + 1)).prod)

/-- `_find_region_and_local_indices_of_element`, msepy/mesh/elements/main.py:268-317; `none` is a failed
assertion. -/
def find (dis : List (List ℕ)) (i : ℕ) : Option (ℕ × List ℕ) :=
  if i < total dis then
    match search dis.length i 0 ((List.range dis.length).map (acc dis)) with
    | none => none
    | some r => some (r, (peel (shape dis r) ((shape dis r).length - 1) (i - acc dis r)).reverse)
  else none

/-! ### The element map -/

/-- A region map of type 0: for each region the neighbours over its sides (`x-, x+, y-, y+, …`), `None` on
the boundary. -/
abbrev RegionMap := List (List (Option ℕ))

/-- `_find_region_on`, msepy/mesh/elements/main.py:386-389; the outer `none` is an index error. -/
def side (rm : RegionMap) (r c : ℕ) : Option (Option ℕ) := (rm[r]?).bind (·[c]?)

/-- `m * 2 + _n`: the opposite side. -/
def opposite (j : ℕ) : ℕ := j / 2 * 2 + (if j % 2 = 0 then 1 else 0)

/-- `Regions._check_map`, msepy/manifold/regions/main.py:56-81. -/
def checkMap (rm : RegionMap) : Bool :=
  (List.range rm.length).all fun i =>
    (List.range ((rm[i]?).getD []).length).all fun j =>
      match side rm i j with
      | some (some nb) => decide (side rm nb (opposite j) = some (some i))
      | _ => true

/-- All multi-indices of a shape. -/
def boxes : List ℕ → List (List ℕ)
  | [] => [[]]
  | n :: ns => (List.range n).flatMap fun i => (boxes ns).map (i :: ·)

/-- numpy: an array of shape `v` can be assigned to one of shape `t`. -/
def bcastable : List ℕ → List ℕ → Bool
  | [], [] => true
  | a :: v, b :: t => (decide (a = b) || decide (a = 1)) && bcastable v t
  | _, _ => false

/-- numpy: the entry of an array of shape `v` that is used for the entry `idx` of the target. -/
def clip : List ℕ → List ℕ → List ℕ
  | a :: v, i :: idx => (if a = 1 then 0 else i) :: clip v idx
  | _, _ => []

/-- A write `element_map[e, c] = f`. -/
abbrev Write := (ℕ × ℕ) × ℕ

/-- `element_map[take(numbering[r], layer), c] = take(numbering[r'], layer')`: both sides are layers
(`_find_on_layer`, msepy/mesh/elements/main.py:391-405), the assignment is elementwise with numpy
broadcasting; `none` is a numpy shape error. -/
def layerWrites (dis : List (List ℕ)) (axis r layer r' layer' c : ℕ) : Option (List Write) :=
  if bcastable ((shape dis r').eraseIdx axis) ((shape dis r).eraseIdx axis) then
    some ((boxes ((shape dis r).eraseIdx axis)).map fun idx =>
      ((num dis r (idx.insertIdx axis layer), c),
        num dis r' ((clip ((shape dis r').eraseIdx axis) idx).insertIdx axis layer')))
  else none

/-- The minus side of one layer, msepy/mesh/elements/main.py:357-370, 384-387. -/
def minusJob (dis : List (List ℕ)) (rm : RegionMap) (r axis layer : ℕ) : Option (List Write) :=
  if layer = 0 then
    match side rm r (2 * axis) with
    | none => none
    | some none => some []
    | some (some nb) =>
      if nb < dis.length then
        layerWrites dis axis r layer nb ((shape dis nb).getD axis 0 - 1) (2 * axis)
      else none
  else layerWrites dis axis r layer r (layer - 1) (2 * axis)

/-- The plus side of one layer, msepy/mesh/elements/main.py:372-383, 388-391. -/
def plusJob (dis : List (List ℕ)) (rm : RegionMap) (r axis layer : ℕ) : Option (List Write) :=
  if layer + 1 ≥ (shape dis r).getD axis 0 then
    match side rm r (2 * axis + 1) with
    | none => none
    | some none => some []
    | some (some nb) =>
      if nb < dis.length then layerWrites dis axis r layer nb 0 (2 * axis + 1) else none
  else layerWrites dis axis r layer r (layer + 1) (2 * axis + 1)

/-- The loops over regions, axes and layers. -/
def jobs (dis : List (List ℕ)) (rm : RegionMap) (ndim : ℕ) : List (Option (List Write)) :=
  (List.range dis.length).flatMap fun r =>
    (List.range ndim).flatMap fun axis =>
      (List.range ((shape dis r).getD axis 0)).flatMap fun layer =>
        [minusJob dis rm r axis layer, plusJob dis rm r axis layer]

/-- Run the jobs one after the other; an exception ends the run. -/
def collect : List (Option (List Write)) → Option (List Write)
  | [] => some []
  | none :: _ => none
  | some ws :: js => (collect js).map (ws ++ ·)

/-- The array `element_map`: absent entries are `-1`. -/
abbrev EMap := Dict (ℕ × ℕ) ℕ

/-- Perform the writes in order. -/
def writeAll (ws : List Write) : EMap := ws.foldl (fun m w => Dict.put m w.1 w.2) []

/-- `_generate_element_map_for_structured_regions`, msepy/mesh/elements/main.py:334-384, on a mesh whose
regions passed `_check_map`, with layouts of `ndim` non-empty lists each (`_parse_origin_and_delta_from_layout`
fails on an empty one; `_check_layouts` asserts one layout per region). -/
def elementMap (dis : List (List ℕ)) (rm : RegionMap) (ndim : ℕ) : Option EMap :=
  if rm.length = dis.length ∧ checkMap rm = true ∧
      (∀ s ∈ dis, s.length = ndim) ∧ (∀ s ∈ dis, ∀ n ∈ s, 0 < n) then
    (collect (jobs dis rm ndim)).map writeAll
  else none

end Phyem.Mesh
