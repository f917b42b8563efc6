import Verif.Base.Dict
import Mathlib.Data.List.Sort

/-!
Faces of the elements of a great mesh: neighbours, boundary faces of a patch of elements and periodic faces
(`msehtt/static/mesh/great/elements/main.py`).
-/

namespace Phyem.Great

open Phyem.Dict

/-- An element by the way its faces are made of the nodes of its map (`elements/types/*.py`, `face_setting`). The
map has the right length by construction (simplification). `tri`: `vtu_5_triangle.py`, `unique_curvilinear_triangle.py`,
`unique_msepy_curvilinear_triangle.py`; `quad`: `orthogonal_rectangle.py`, `unique_msepy_curvilinear_quadrilateral.py`;
`ccw`: `vtu_9_quad.py`, `unique_curvilinear_quad.py`; `hex`: `orthogonal_hexahedron.py`,
`unique_msepy_curvilinear_hexahedron.py`. -/
inductive Shape where
  | tri (m0 m1 m2 : ℕ)
  | quad (m0 m1 m2 m3 : ℕ)
  | ccw (m0 m1 m2 m3 : ℕ)
  | hex (m0 m1 m2 m3 m4 m5 m6 m7 : ℕ)
deriving DecidableEq, Repr

/-- The nodes of face `0`, `1`, … in the order of the tables (`vtu_5_triangle.py:127-133`,
`orthogonal_rectangle.py:111-118`, `vtu_9_quad.py:199-206`, `orthogonal_hexahedron.py:99-108`). -/
def faces : Shape → List (List ℕ)
  | .tri m0 m1 m2 => [[m0, m1], [m1, m2], [m0, m2]]
  | .quad m0 m1 m2 m3 => [[m0, m2], [m1, m3], [m0, m1], [m2, m3]]
  | .ccw m0 m1 m2 m3 => [[m0, m3], [m1, m2], [m0, m1], [m3, m2]]
  | .hex m0 m1 m2 m3 m4 m5 m6 m7 =>
    [[m0, m2, m4, m6], [m1, m3, m5, m7], [m0, m1, m4, m5], [m2, m3, m6, m7], [m0, m1, m2, m3], [m4, m5, m6, m7]]

/-- Whether the element is two-dimensional (`element_class.n()`). -/
def isFlat : Shape → Bool
  | .hex .. => false
  | _ => true

/-- A global element map with element types: labels and elements, in the order of the dictionary. -/
abbrev Mesh := Dict ℕ Shape

/-- `face_nodes.sort()` (`main.py:122`). -/
def sorted (l : List ℕ) : List ℕ := l.insertionSort (· ≤ ·)

/-- A position: an element and the index of one of its faces. -/
abbrev Position := ℕ × ℕ

/-- The faces met by the loops over the elements and their faces, with their positions (`main.py:111-121`,
`main.py:370-378`, `main.py:590-606`). -/
def positions (mesh : Mesh) : List (List ℕ × Position) :=
  mesh.flatMap fun x => (faces x.2).zipIdx.map fun f => (f.1, (x.1, f.2))

/-- One step of the loops that collect positions by face (`main.py:124-130`): append to the list of the key, or
start it. -/
def collect {K V : Type} [DecidableEq K] (pool : Dict K (List V)) (k : K) (v : V) : Dict K (List V) :=
  match get pool k with
  | some vs => put pool k (vs ++ [v])
  | none => put pool k [v]

/-- The whole loop. -/
def collectAll {K V : Type} [DecidableEq K] (l : List (K × V)) : Dict K (List V) :=
  l.foldl (fun pool x => collect pool x.1 x.2) []

/-- The positions of every face, by its sorted nodes (`main.py:109-130`). -/
def pool (mesh : Mesh) : Dict (List ℕ) (List Position) :=
  collectAll ((positions mesh).map fun x => (sorted x.1, x.2))

/-- `global_neighbors[e][f] is None` (`main.py:138-139`). -/
def isFree (nb : Dict ℕ (List (Option ℕ))) (e f : ℕ) : Bool :=
  match get nb e with
  | some row => row[f]? == some none
  | none => false

/-- `global_neighbors[e][f] = e'` (`main.py:140-141`), for an `e` that is a key. -/
def setNeighbor (nb : Dict ℕ (List (Option ℕ))) (e f e' : ℕ) : Dict ℕ (List (Option ℕ)) :=
  match get nb e with
  | some row => put nb e (row.set f (some e'))
  | none => nb

/-- One face of the pool (`main.py:132-141`); `none`: an assertion fails. -/
def pair (nb : Dict ℕ (List (Option ℕ))) : List Position → Option (Dict ℕ (List (Option ℕ)))
  | [(e0, f0), (e1, f1)] =>
    if isFree nb e0 f0 && isFree nb e1 f1 then some (setNeighbor (setNeighbor nb e0 f0 e1) e1 f1 e0) else none
  | _ => some nb

/-- `global_neighbors` (`main.py:85-147`), in the master rank. -/
def neighbors (mesh : Mesh) : Option (Dict ℕ (List (Option ℕ))) :=
  (pool mesh).foldlM (fun nb x => pair nb x.2)
    (mesh.map fun x => (x.1, List.replicate (faces x.2).length none))

/-- Look up the elements of `element_range` (`main.py:182-183`, `main.py:222-223`); `none`: a `KeyError`. -/
def lookup (mesh : Mesh) : List ℕ → Option Mesh
  | [] => some []
  | i :: range => (get mesh i).bind fun s => (lookup mesh range).map fun m => (i, s) :: m

/-- The counter of a face (`main.py:187-205`): a face of a 2d element is `(min, max)` of its two nodes. -/
def undirected (s : Shape) (nodes : List ℕ) : List ℕ :=
  match isFlat s, nodes with
  | true, [a, b] => [min a b, max a b]
  | true, _ => []
  | false, ns => sorted ns

/-- `all_element_faces` (`main.py:179-205`). -/
def counts (patch : Mesh) : Dict (List ℕ) ℕ :=
  (patch.flatMap fun x => (faces x.2).map fun f => undirected x.2 f).foldl
    (fun d k => put d k ((get d k).getD 0 + 1)) []

/-- `boundary_element_face_undirected_indices` (`main.py:208-218`): faces met once, those of two nodes in both
directions. -/
def indicators (patch : Mesh) : List (List ℕ) :=
  (counts patch).flatMap fun x =>
    if x.2 = 1 then
      match x.1 with
      | [a, b] => [[a, b], [b, a]]
      | k => [k]
    else []

/-- Whether a face is among them (`main.py:228-253`): as it is for 2d elements, sorted for 3d ones. -/
def isBoundary (patch : Mesh) (s : Shape) (nodes : List ℕ) : Bool :=
  if isFlat s then (indicators patch).contains nodes else (indicators patch).contains (sorted nodes)

/-- `_parse_boundary_faces_of_a_patch_of_elements` (`main.py:164-266`): element, face id and global nodes of each face
found. -/
def boundaryFaces (mesh : Mesh) (range : List ℕ) : Option (List (Position × List ℕ)) :=
  (lookup mesh range).map fun patch =>
    patch.flatMap fun x =>
      ((faces x.2).zipIdx.filter fun f => isBoundary patch x.2 f.1).map fun f => ((x.1, f.2), f.1)

end Phyem.Great
