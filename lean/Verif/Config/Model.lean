import Verif.Base.Dict
import Verif.Dds.Stream
import Mathlib.Algebra.Order.Field.Rat
import Mathlib.Data.List.Sort

/-!
# Meshes from regions

Model of `/repo/msehtt/static/mesh/great/config/msehtt_.py` for regions in two dimensions, as the master rank runs it. Numbers are
rational, exceptions are `none`. The dictionaries of regions are lists with the index of the region; the regions give their
mapping and their type.
-/

namespace Phyem.Config

open Phyem

/-- The text of a number, `"%.7f" % round(q, 7)`; `Dds.fmt` is `"%.7f" % q`, which shows the same. -/
abbrev Txt := Bool × ℕ

/-! ### Layouts -/

/-- The layout of one direction: a number of elements, or the sizes of the elements. -/
inductive DirLay
  | num (q : ℚ)
  | arr (l : List ℚ)

/-- The layout of a region: an integer for all directions, a sequence with one entry per direction, or something that has no length
(`None`, a number that is not an integer). -/
inductive RegLay
  | int (n : ℤ)
  | seq (l : List DirLay)
  | bad

/-- `element_layout`: the same for all regions, or a dictionary. -/
inductive Layout
  | all (l : RegLay)
  | dict (d : Dict ℕ RegLay)

/-- One direction (`msehtt_.py:121-139`). The last check, that the sum rounded to ten digits is one, fails only for an empty sequence. -/
def studyDir : DirLay → Option (List ℚ)
  | .num q => if q = (⌊q⌋ : ℚ) ∧ 1 ≤ q then some (List.replicate ⌊q⌋.toNat (1 / q)) else none
  | .arr l => if (∀ x ∈ l, 0 < x) ∧ l ≠ [] then some (l.map fun x => x / l.sum) else none

/-- One region of dimension two (`msehtt_.py:110-141`). -/
def studyReg : RegLay → Option (List ℚ × List ℚ)
  | .int n => (studyDir (.num n)).bind fun a => (studyDir (.num n)).map fun b => (a, b)
  | .seq [a, b] => (studyDir a).bind fun a => (studyDir b).map fun b => (a, b)
  | .seq _ => none
  | .bad => none

/-- `_study_element_layout_` (`msehtt_.py:85-143`); `regions` are the indices of the regions. A region that is not there raises at
`regions[i].ndim`. -/
def study (regions : List ℕ) (lay : Layout) : Option (Dict ℕ (List ℚ × List ℚ)) :=
  let d := match lay with
    | .all l => regions.map fun i => (i, l)
    | .dict d => d
  d.mapM fun p => if p.1 ∈ regions then (studyReg p.2).map fun x => (p.1, x) else none

/-! ### Numbers for things in the order in which they appear -/

section
variable {K : Type} [DecidableEq K]

/-- `if k in pool: pass else: pool[k] = current; current += 1` (`msehtt_.py:207-212, 318-328, 417-427`). As `current` is the number of
entries, the pool is the list of its keys, and the number of a key its position. -/
def intern (pool : List K) (k : K) : List K := if k ∈ pool then pool else pool ++ [k]

/-- The loop over rows of keys; every row is replaced by the numbers of its keys. -/
def numberRows : List K → List (ℕ × List K) → List (ℕ × List ℕ)
  | _, [] => []
  | pool, (r, row) :: rows =>
    (r, row.map fun k => (row.foldl intern pool).idxOf k) :: numberRows (row.foldl intern pool) rows

end

/-! ### Corners of regions -/

/-- The region: its mapping of the unit square. -/
abbrev RegMap := ℚ → ℚ → ℚ × ℚ

/-- `quad_sequence_region_reference_coo` (`msehtt_.py:168-171`), also the corners of an element. -/
def square : List (ℚ × ℚ) := [(0, 0), (1, 0), (1, 1), (0, 1)]

/-- The text of a corner (`msehtt_.py:183-188`). -/
def cornerKey (m : RegMap) (p : ℚ × ℚ) : Dds.Key := Dds.keyOf (m p.1 p.2).1 (m p.1 p.2).2

/-- `_parse_regions` (`msehtt_.py:146-226`). -/
def parseRegions (regions : List (ℕ × RegMap)) : List (ℕ × List ℕ) :=
  numberRows [] (regions.map fun p => (p.1, square.map (cornerKey p.2)))

/-! ### Periodic sides -/

/-- A side: the region and the two corners it goes from and to. -/
structure Side where
  reg : ℕ
  a : ℕ
  b : ℕ
deriving DecidableEq

/-- `region_map[r][k]`. -/
def corner (M : List (ℕ × List ℕ)) (r k : ℕ) : Option ℕ := (Dict.get M r).bind fun row => row[k]?

/-- `[a, b].sort()`. -/
def sort2 (a b : ℕ) : ℕ × ℕ := if a ≤ b then (a, b) else (b, a)

/-- The labels that one pair of sides makes the same (`msehtt_.py:246-269`). -/
def pairsOf (M : List (ℕ × List ℕ)) (p : Side × Side) : Option (List (ℕ × ℕ)) :=
  (corner M p.1.reg p.1.a).bind fun a => (corner M p.1.reg p.1.b).bind fun b =>
    (corner M p.2.reg p.2.a).bind fun c => (corner M p.2.reg p.2.b).bind fun d =>
      if a ≠ c ∧ b ≠ d then some [sort2 a c, sort2 b d] else none

/-- One pair in the search for links (`msehtt_.py:286-295`). -/
def link (S : List ℕ) (p : ℕ × ℕ) : List ℕ :=
  if p.1 ∈ S ∧ p.2 ∉ S then S ++ [p.2] else if p.2 ∈ S ∧ p.1 ∉ S then S ++ [p.1] else S

/-- `SAME` of a label: three times through all pairs (`msehtt_.py:284-295`). -/
def same (pairs : List (ℕ × ℕ)) (i : ℕ) : List ℕ :=
  pairs.foldl link (pairs.foldl link (pairs.foldl link [i]))

/-- The sets, one for each label that was not found before (`msehtt_.py:277-296`); the labels that were found are those of the sets. -/
def organize (pairs : List (ℕ × ℕ)) : List ℕ → List (List ℕ) → List (List ℕ)
  | [], sets => sets
  | i :: pool, sets => organize pairs pool (if ∃ S ∈ sets, i ∈ S then sets else sets ++ [same pairs i])

/-- `same_labeling_pool` as a sorted list (`msehtt_.py:244, 274-275`). -/
def poolOf (pairs : List (ℕ × ℕ)) : List ℕ := ((pairs.flatMap fun p => [p.1, p.2]).dedup).insertionSort (· ≤ ·)

/-- The new label of a corner: the number of the first set that has it (a text), or the old number (`msehtt_.py:298-316`). -/
def relabel (pairs : List (ℕ × ℕ)) (j : ℕ) : ℕ ⊕ ℕ :=
  if j ∈ poolOf pairs then .inr ((organize pairs (poolOf pairs) []).findIdx fun S => decide (j ∈ S)) else .inl j

/-- `_parse_pbc` (`msehtt_.py:229-330`). -/
def parsePbc (M : List (ℕ × List ℕ)) : Option (List (Side × Side)) → Option (List (ℕ × List ℕ))
  | none => some M
  | some sides =>
    (sides.mapM (pairsOf M)).map fun ps =>
      numberRows [] (M.map fun r => (r.1, r.2.map (relabel ps.flatten)))

/-! ### Elements -/

/-- A corner of an element, as it is put into the pool: a corner of a region, a place on a side between two corners of regions, a place in
a region (`msehtt_.py:432-478`). -/
inductive Node
  | corner (n : ℕ)
  | side (a b : ℕ) (t : Txt)
  | inside (r : ℕ) (x y : Txt)
deriving DecidableEq

/-- A place on a side; `n0` and `n1` are the corners, `d` the distance from `n0` (`msehtt_.py:469-475`). -/
def sideNode (n0 n1 : ℕ) (d : ℚ) : Option Node :=
  if n0 < n1 then some (.side n0 n1 (Dds.fmt d))
  else if n1 < n0 then some (.side n1 n0 (Dds.fmt (1 - d)))
  else none

/-- `___parse_2d_element_map___` (`msehtt_.py:432-478`). -/
def nodeOf (r : ℕ) (labels : List ℕ) (x y : ℚ) : Option Node :=
  match labels with
  | [n0, n1, n2, n3] =>
    if labels.Nodup then
      if x = 0 ∧ y = 0 then some (.corner n0)
      else if x = 1 ∧ y = 0 then some (.corner n1)
      else if x = 1 ∧ y = 1 then some (.corner n2)
      else if x = 0 ∧ y = 1 then some (.corner n3)
      else if x = 0 then sideNode n0 n3 y
      else if x = 1 then sideNode n1 n2 y
      else if y = 0 then sideNode n0 n1 x
      else if y = 1 then sideNode n3 n2 x
      else some (.inside r (Dds.fmt x) (Dds.fmt y))
    else none
  | _ => none

/-- `x_spacing`: the sums of the first entries of the layout, and one (`msehtt_.py:359-366`). -/
def spacing (l : List ℚ) : List ℚ := (List.range l.length).map (fun i => (l.take i).sum) ++ [1]

/-- An element: its region, and the part of the unit square it covers. -/
structure Elem where
  reg : ℕ
  x0 : ℚ
  x1 : ℚ
  y0 : ℚ
  y1 : ℚ
deriving DecidableEq

/-- The corners of an element (`msehtt_.py:371-385`). -/
def Elem.corners (e : Elem) : List (ℚ × ℚ) := [(e.x0, e.y0), (e.x1, e.y0), (e.x1, e.y1), (e.x0, e.y1)]

/-- The elements of a region, in the order of their numbers (`msehtt_.py:368-369`). -/
def elemsOf (r : ℕ) (lay : List ℚ × List ℚ) : List Elem :=
  (List.range lay.2.length).flatMap fun j => (List.range lay.1.length).map fun i =>
    ⟨r, (spacing lay.1).getD i 0, (spacing lay.1).getD (i + 1) 0, (spacing lay.2).getD j 0, (spacing lay.2).getD (j + 1) 0⟩

/-- The nodes of an element (`msehtt_.py:387-389`). -/
def Elem.nodes (M : List (ℕ × List ℕ)) (e : Elem) : Option (List Node) :=
  (Dict.get M e.reg).bind fun labels => e.corners.mapM fun p => nodeOf e.reg labels p.1 p.2

/-- `_parse_elements_` (`msehtt_.py:333-429`): the elements with their numbers, and the element map. -/
def parseElements (regions : List ℕ) (M : List (ℕ × List ℕ)) (lay : Dict ℕ (List ℚ × List ℚ)) :
    Option (List Elem × List (ℕ × List ℕ)) :=
  (regions.mapM fun r => (Dict.get lay r).map fun l => elemsOf r l).bind fun es =>
    (es.flatten.zipIdx.mapM fun (p : Elem × ℕ) => (p.1.nodes M).map fun ns => (p.2, ns)).map fun rows =>
      (es.flatten, numberRows [] rows)

/-- The whole configuration (`msehtt_.py:18-82`); `given` is the map of the regions if they come with one. -/
def config (regions : List (ℕ × RegMap)) (given : Option (List (ℕ × List ℕ))) (periodic : Option (List (Side × Side))) (lay : Layout) :
    Option (List Elem × List (ℕ × List ℕ)) :=
  (study (regions.map Prod.fst) lay).bind fun l =>
    (parsePbc (given.getD (parseRegions regions)) periodic).bind fun M =>
      parseElements (regions.map Prod.fst) M l

/-- The parameters of an element of type 9 (`msehtt_.py:391-394`): its corners in space. -/
def Elem.places (m : RegMap) (e : Elem) : List (ℚ × ℚ) := e.corners.map fun p => m p.1 p.2

/-- `_RegionElementCT_2d_.mapping` (`msehtt_.py:492-496`): the mapping of `[-1, 1]^2` to the element. -/
def Elem.mapping (m : RegMap) (e : Elem) (xi et : ℚ) : ℚ × ℚ :=
  m ((xi + 1) * (1 / 2) * (e.x1 - e.x0) + e.x0) ((et + 1) * (1 / 2) * (e.y1 - e.y0) + e.y0)

end Phyem.Config
