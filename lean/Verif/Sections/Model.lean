import Mathlib.Analysis.SpecialFunctions.Pow.Real
import Verif.Great.Model

/-!
Boundary sections of a mesh in msehtt: which faces they have, which degrees of freedom of a form are on them, how they
are configured, and in which elements a point is
(`msehtt/static/mesh/partial/main.py`, `msehtt/static/mesh/partial/boundary_section/main.py`,
`msehtt/static/mesh/partial/elements/main.py`, `tools/miscellaneous/geometries/m1n1.py`,
`tools/miscellaneous/geometries/m2n2.py`).

Numbers are real numbers: no rounding but the one the code asks for.
-/

namespace Phyem.Sections

open Phyem.Great Phyem.Dict
open Classical

/-! ### Geometries in the plane -/

/-- `distance2` of two points (`m2n2.py:356-368`). -/
noncomputable def distance2 (A B : ℝ × ℝ) : ℝ := √((B.1 - A.1) ^ 2 + (B.2 - A.2) ^ 2)

/-- `math.isclose(a, b, abs_tol=tol)` of Python's library, whose `rel_tol` is `1e-9` by default. -/
def isclose (a b tol : ℝ) : Prop := |a - b| ≤ max (1e-9 * max |a| |b|) tol

/-- The constructors of `StraightLine2` and `StraightSegment2` (`m2n2.py:128-141`, `m2n2.py:164-200`): two points that
are not too close. `none`: an `AssertionError`. The bounds that `StraightSegment2` caches are never used. -/
noncomputable def twoPoints (A B : ℝ × ℝ) : Option ((ℝ × ℝ) × (ℝ × ℝ)) :=
  if 1e-3 < distance2 A B then some (A, B) else none

/-- `whether_point_on_straight_line` (`m2n2.py:371-391`). -/
noncomputable def onLine (l : (ℝ × ℝ) × (ℝ × ℝ)) (P : ℝ × ℝ) : Bool :=
  let d1 := distance2 l.1 P
  if d1 < 1e-8 then true
  else
    let d2 := distance2 l.2 P
    if d2 < 1e-8 then true
    else
      let dAB := distance2 l.1 l.2
      if isclose (d1 + d2) dAB 1e-8 then true
      else if isclose |d1 - d2| dAB 1e-8 then true
      else false

/-- `whether_point_on_straight_segment` (`m2n2.py:408-429`). -/
noncomputable def onSegment (s : (ℝ × ℝ) × (ℝ × ℝ)) (P : ℝ × ℝ) : Bool :=
  let d1 := distance2 s.1 P
  if d1 < 1e-8 then true
  else
    let d2 := distance2 s.2 P
    if d2 < 1e-8 then true
    else
      let dAB := distance2 s.1 s.2
      if isclose (d1 + d2) dAB 1e-8 then true
      else false

/-- A `Polygon2` (`m2n2.py:550-605`): its vertices, and matplotlib's `Path.contains_point`, which is not modelled. -/
structure Polygon where
  vertices : List (ℝ × ℝ)
  inside : ℝ × ℝ → Bool

/-- `Polygon2.edges` for all indices (`m2n2.py:583-598`): from each vertex to the next, and from the last one to the
first one. -/
def Polygon.ends (p : Polygon) : List ((ℝ × ℝ) × (ℝ × ℝ)) := p.vertices.zip (p.vertices.rotate 1)

/-- `whether_point_in_polygon` (`m2n2.py:794-825`): on an edge, or inside. `none`: an edge that is too short. -/
noncomputable def inPolygon (p : Polygon) (P : ℝ × ℝ) : Option Bool :=
  let rec go : List ((ℝ × ℝ) × (ℝ × ℝ)) → Option Bool
    | [] => some (p.inside P)
    | e :: es => (twoPoints e.1 e.2).bind fun s => if onSegment s P then some true else go es
  go p.ends

/-- An `Interval` (`m1n1.py:9-37`). -/
structure Interval where
  closed : Bool
  lb : ℝ
  ub : ℝ

/-- Its constructor (`m1n1.py:16-37`). -/
noncomputable def interval (closed : Bool) (a b : ℝ) : Option Interval :=
  if a < b then some ⟨closed, a, b⟩ else none

/-- `Interval.__contains__` for a number (`m1n1.py:54-62`). -/
noncomputable def Interval.has (i : Interval) (x : ℝ) : Bool :=
  if i.closed then decide (i.lb ≤ x ∧ x ≤ i.ub) else decide (i.lb < x ∧ x < i.ub)

/-- `Interval.linspace` (`m1n1.py:50-52`), as numpy's `linspace`. -/
noncomputable def Interval.linspace (i : Interval) (n : ℕ) : List ℝ :=
  (List.range n).map fun (k : ℕ) => i.lb + k * ((i.ub - i.lb) / ((n : ℝ) - 1))

/-- A `Curve2` (`m2n2.py:828-863`). `tx` is what pynverse's `inversefunc` makes of `xt`. -/
structure Curve where
  t : Interval
  x : Interval
  xt : ℝ → ℝ
  yt : ℝ → ℝ
  tx : ℝ → ℝ

/-- The constructor of `Curve2` (`m2n2.py:831-863`): `x(t)` is monotone at 33 places, the least and the greatest of these
values are the bounds of `x`. `none`: an `AssertionError`. -/
noncomputable def curve (inversefunc : (ℝ → ℝ) → ℝ → ℝ) (xt yt : ℝ → ℝ) (t : Interval) : Option Curve :=
  let x := (t.linspace 33).map xt
  let xd := x.zipWith (fun a b => b - a) x.tail
  if (∀ d ∈ xd, 0 ≤ d) ∨ (∀ d ∈ xd, d ≤ 0) then
    (interval t.closed (x.min?.getD 0) (x.max?.getD 0)).map fun xi => ⟨t, xi, xt, yt, inversefunc xt⟩
  else none

/-- `whether_point_on_curve` (`m2n2.py:900-919`), with numpy's `isclose(y, Y)`. `none`: the `AssertionError` of `y_from_t`
(`m2n2.py:869-871`). -/
noncomputable def onCurve (c : Curve) (P : ℝ × ℝ) : Option Bool :=
  if c.x.has P.1 then
    let t := c.tx P.1
    if c.t.has t then
      let Y := c.yt t
      if |P.2 - Y| ≤ 1e-8 + 1e-5 * |Y| then some true else some false
    else none
  else some false

/-! ### The faces of a section -/

/-- What a boundary section looks at in a face: `face.ct.mapping`, `face.ct.is_plane` and the outward unit normal vector
in the middle of the face. `plane = none`: the element does not implement `is_plane`. -/
structure Face where
  map : ℝ → ℝ × ℝ
  plane : Option Bool
  normal : List ℝ

/-- `np.linspace(-1, 1, 13)` (`main.py:874`). -/
noncomputable def samples : List ℝ := (List.range 13).map fun (k : ℕ) => -1 + (k : ℝ) / 6

/-- `___checking_whether_a_face_of_a_m2n2_element_is_…___` (`main.py:860-943`): all the points, one after the other, up to
the first that is not. -/
noncomputable def faceOn (on : ℝ × ℝ → Option Bool) (face : Face) : Option Bool :=
  let rec go : List ℝ → Option Bool
    | [] => some true
    | t :: ts => (on (face.map t)).bind fun b => if b then go ts else some false
  go samples

/-- The loop over the given geometries, up to the first the face is on (`main.py:510-518`). -/
noncomputable def faceOnAny (ons : List (ℝ × ℝ → Option Bool)) (face : Face) : Option Bool :=
  match ons with
  | [] => some false
  | on :: rest => (faceOn on face).bind fun b => if b then some true else faceOnAny rest face

/-- What `constant_outward_unit_normal_vector` gives (`types/base.py:890-931`): each number is rounded to 6 digits.
`rnd` is Python's `round(·, 6)`. -/
def cOunv (rnd : ℝ → ℝ) (face : Face) : List ℝ := face.normal.map rnd

/-- Whether a face is plane and its vector is among the given ones, which are rounded as well (`main.py:397-429`).
`none`: `is_plane` is not implemented. -/
noncomputable def hasOunv (rnd : ℝ → ℝ) (ounv : List (List ℝ)) (face : Face) : Option Bool :=
  face.plane.map fun plane =>
    if plane then decide (cOunv rnd face ∈ ounv.map fun v => v.map rnd) else false

/-- The faces a test says yes to, in their order. -/
def keep (test : Position → Option Bool) : List Position → Option (List Position)
  | [] => some []
  | p :: ps => (test p).bind fun b => (keep test ps).map fun l => if b then p :: l else l

/-- What a boundary section is made of, and of which elements (`main.py:93-375`), for the elements of one rank. -/
inductive Including where
  /-- `including` is a mesh of elements: configuration 2. -/
  | boundary
  /-- Configurations 3 and 4. -/
  | ounv (except : Bool) (vectors : List (List ℝ))
  /-- Configurations 5 and 6. -/
  | lines (except : Bool) (points : List ((ℝ × ℝ) × (ℝ × ℝ)))
  /-- Configurations 7 and 8. -/
  | polygons (except : Bool) (polygons : List Polygon)
  /-- Configurations 9 and 10. -/
  | curves (except : Bool) (curves : List Curve)
  /-- Configurations 11 and 12. -/
  | segments (except : Bool) (points : List ((ℝ × ℝ) × (ℝ × ℝ)))

/-- `_get_local_boundary_faces` of a mesh of elements (`elements/main.py:140-158`): the boundary faces of the elements of
all ranks that are faces of elements of this rank. -/
def localFaces (mesh : Mesh) (all mine : List ℕ) : Option (List Position) :=
  (boundaryFaces mesh all).map fun bf => (bf.map fun f => f.1).filter fun p => decide (p.1 ∈ mine)

/-- `_merge_element_indices` (`elements/main.py:102-125`), for elements with numbers: the elements of all ranks, rank by
rank; if they are consecutive, in increasing order (all are between the least and the greatest one). `none`: `min` of no
element. -/
def globalRange (ranks : List (List ℕ)) : Option (List ℕ) :=
  let all := ranks.flatten
  all.min?.bind fun lo => all.max?.map fun hi =>
    if (List.range' lo (hi + 1 - lo)).all fun i => all.contains i then
      List.range' lo (hi + 1 - lo)
    else all

/-- The test of a configuration (`main.py:377-857`); `except` is one of the configurations 4, 6, 8, 10 and 12. -/
noncomputable def test (rnd : ℝ → ℝ) : Including → Option (Face → Option Bool)
  | .boundary => some fun _ => some true
  | .ounv ex vs => some fun f => (hasOunv rnd vs f).map fun b => if ex then !b else b
  | .lines ex ps => (ps.mapM fun p => twoPoints p.1 p.2).map fun ls =>
      fun f => (faceOnAny (ls.map fun l P => some (onLine l P)) f).map fun b => if ex then !b else b
  | .polygons ex ps => some fun f => (faceOnAny (ps.map fun p P => inPolygon p P) f).map fun b => if ex then !b else b
  | .curves ex cs => some fun f => (faceOnAny (cs.map fun c P => onCurve c P) f).map fun b => if ex then !b else b
  | .segments ex ps => (ps.mapM fun p => twoPoints p.1 p.2).map fun ls =>
      fun f => (faceOnAny (ls.map fun l P => some (onSegment l P)) f).map fun b => if ex then !b else b

/-- The faces of a boundary section in one rank (`_perform_configuration`, `main.py:377-857`): those of the local boundary
faces the test says yes to. `none`: an error. -/
noncomputable def section_ (rnd : ℝ → ℝ) (mesh : Mesh) (face : Position → Face) (all mine : List ℕ)
    (inc : Including) : Option (List Position) :=
  (test rnd inc).bind fun t => (localFaces mesh all mine).bind fun ps => keep (fun p => t (face p)) ps

/-! ### Configuring -/

/-- A partial mesh: whether its great mesh is set, and its composition (`main.py:21-30`). -/
structure Partial (C : Type) where
  tgm : Bool
  composition : Option C

/-- `_config` (`main.py:93-375`): `make` is what parsing and performing the configuration gives, `none` an error. The
great mesh is set before the request is parsed. -/
def config {C R : Type} (make : R → Option C) (s : Partial C) (r : R) : Partial C × Bool :=
  if s.tgm then (s, false)
  else if s.composition.isSome then (s, false)
  else match make r with
    | some c => (⟨true, some c⟩, true)
    | none => (⟨true, none⟩, false)

/-- A new partial mesh. -/
def new (C : Type) : Partial C := ⟨false, none⟩

/-- A number of requests, one after the other, with errors caught. -/
def configs {C R : Type} (make : R → Option C) (s : Partial C) (rs : List R) : Partial C × List Bool :=
  rs.foldl (fun sb r => let n := config make sb.1 r; (n.1, sb.2 ++ [n.2])) (s, [])

/-! ### Degrees of freedom on a section -/

/-- A form as `find_dofs` sees it: its key (`__repr__` of itself or of the form it is a copy of), the degrees of freedom
on a face of an element, and its gathering matrix. -/
structure Form where
  key : ℕ
  dofs : Position → List ℕ
  gm : ℕ → List ℕ

/-- `list(set(l))` and `sort` (`boundary_section/main.py:153-155`). -/
def sortedSet (l : List ℕ) : List ℕ := l.dedup.insertionSort (· ≤ ·)

/-- `local_wise_dofs` (`boundary_section/main.py:140-155`): the elements of the faces in the order they are met, with the
sorted degrees of freedom on all their faces. -/
def localDofs (f : Form) (faces : List Position) : Dict ℕ (List ℕ) :=
  (faces.foldl (fun d p => put d p.1 ((get d p.1).getD [] ++ f.dofs p)) []).map fun x => (x.1, sortedSet x.2)

/-- `gm[i][local_wise_dofs[i]]` for all elements of a rank (`boundary_section/main.py:174-177`). `none`: an `IndexError`. -/
def rankDofs (f : Form) (faces : List Position) : Option (List ℕ) :=
  ((localDofs f faces).mapM fun (x : ℕ × List ℕ) => x.2.mapM fun i => (f.gm x.1)[i]?).map fun l => l.flatten

/-- The global degrees of freedom (`boundary_section/main.py:173-188`): of all ranks together, the same for every rank. -/
def globalDofs (f : Form) (ranks : List (List Position)) : Option (List ℕ) :=
  (ranks.mapM fun faces => rankDofs f faces).map fun l => sortedSet l.flatten

/-- An answer of `find_dofs`: of each rank the degrees of freedom of its elements, or the global ones. -/
inductive Answer where
  | loc (ranks : List (Dict ℕ (List ℕ)))
  | glob (dofs : List ℕ)

/-- What is found without a cache. -/
def find (ranks : List (List Position)) (f : Form) (loc : Bool) : Option Answer :=
  if loc then some (.loc (ranks.map fun faces => localDofs f faces)) else (globalDofs f ranks).map .glob

/-- `find_dofs` (`boundary_section/main.py:122-188`), in all ranks at once: the cache is a dictionary with the key of the
form and `local` as key. -/
def findDofs (ranks : List (List Position)) (cache : Dict (ℕ × Bool) Answer) (f : Form) (loc : Bool) :
    Dict (ℕ × Bool) Answer × Option Answer :=
  match get cache (f.key, loc) with
  | some a => (cache, some a)
  | none =>
    match find ranks f loc with
    | some a => (put cache (f.key, loc) a, some a)
    | none => (cache, none)

/-- The answers to a number of calls, one after the other. -/
def findAll (ranks : List (List Position)) (calls : List (Form × Bool)) : List (Option Answer) :=
  (calls.foldl (fun ca c => let n := findDofs ranks ca.1 c.1 c.2; (n.1, ca.2 ++ [n.2])) ([], [])).2

/-! ### In which elements a point is -/

/-- What is found without a cache (`elements/main.py:276-316`): rank by rank. `has` is `_whether_coo_in_me_`. -/
def whichElements {P : Type} (ranks : List (List ℕ)) (has : ℕ → P → Bool) (x : P) : List ℕ :=
  (ranks.map fun els => els.filter fun e => has e x).flatten

/-- `___find_coordinates_in_which_elements___` (`elements/main.py:260-320`): `fmt` is the string made with `%.6f-`. -/
def whereIs {P K : Type} [DecidableEq K] (ranks : List (List ℕ)) (has : ℕ → P → Bool) (fmt : P → K)
    (cache : Dict K (List ℕ)) (x : P) : Dict K (List ℕ) × List ℕ :=
  match get cache (fmt x) with
  | some a => (cache, a)
  | none => let a := whichElements ranks has x; (put cache (fmt x) a, a)

/-- The answers to a number of calls, one after the other. -/
def whereAll {P K : Type} [DecidableEq K] (ranks : List (List ℕ)) (has : ℕ → P → Bool) (fmt : P → K) (xs : List P) :
    List (List ℕ) :=
  (xs.foldl (fun ca x => let n := whereIs ranks has fmt ca.1 x; (n.1, ca.2 ++ [n.2])) ([], [])).2

end Phyem.Sections
