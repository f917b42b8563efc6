import Mathlib.Algebra.Order.Floor.Semiring
import Mathlib.Data.Rat.Floor
import Mathlib.Algebra.Order.Field.Rat
import Mathlib.Algebra.BigOperators.Group.List.Basic

/-!
# Passing cochains between grids

Model of `/repo/msehtt/multigrid/mesh/great/`: the correspondence of dofs (`dof_correspondence/main.py`, `dof_correspondence/global_.py`), the
passing of cochains and vectors (`pass_.py`) and the hierarchy of elements (`hierarchy.py`). Numbers are rational, exceptions are `none`.
The caches with names of objects as keys are left out.
-/

namespace Phyem.Passing

open Phyem

/-- The kind of the geometries of dofs: when two are equal, when the first contains the second as a part, when the first is the union of some of
the others, and the key of groups if there is one (`tools/miscellaneous/geometries/m2n2.py`). -/
structure Shape (G K : Type) where
  eq : G → G → Bool
  contains : G → G → Bool
  union : G → List G → Bool
  key : Option (G → K)

section
variable {G K : Type} [DecidableEq K]

/-- `if not ___geo_in_geometries___(g, l): l.append(g)` (`global_.py:59-65, 214-218, 256-263`). -/
def addGeo (S : Shape G K) (l : List G) (g : G) : List G := if l.any (S.eq g) then l else l ++ [g]

/-- One local dof: its geometry is added to those of the global dof (`global_.py:55-65`). -/
def addTo (S : Shape G K) : List (ℕ × List G) → ℕ × G → List (ℕ × List G)
  | [], p => [(p.1, [p.2])]
  | q :: d, p => if q.1 = p.1 then (q.1, addGeo S q.2 p.2) :: d else q :: addTo S d p

/-- The geometries of the dofs on a rank (`global_.py:51-81`); the argument has the global dof and the geometry of all local dofs. -/
def rankGeos (S : Shape G K) (places : List (ℕ × G)) : List (ℕ × List G) := places.foldl (addTo S) []

/-- One dof of one rank is merged (`global_.py:88-99`). That the list for `f1` is extended twice (two names for one list, 120-124)
changes nothing, as lists are only searched. -/
def mergeOne (S : Shape G K) : List (ℕ × List G) → ℕ × List G → List (ℕ × List G)
  | [], p => [p]
  | q :: d, p => if q.1 = p.1 then (q.1, q.2 ++ p.2.filter fun g => !q.2.any (S.eq g)) :: d else q :: mergeOne S d p

/-- The geometries of all dofs on the master rank (`global_.py:83-129`); one list of places for each rank. -/
def allGeos (S : Shape G K) (ranks : List (List (ℕ × G))) : List (ℕ × List G) :=
  ranks.foldl (fun d places => (rankGeos S places).foldl (mergeOne S) d) []

/-- `___there_is_a_geo_in_geometries1_that_is_a_part_of_one_in_geometries0___` (`global_.py:266-289`). -/
def partOf (S : Shape G K) (gs0 gs1 : List G) : Bool := gs1.any fun g => gs0.any fun h => S.contains h g

/-- The dofs of `f1` that are searched: those in the group of the first geometry, or all (`global_.py:131-153, 173-181`). -/
def group (S : Shape G K) (gs0 gs1 : List G) : Bool :=
  match S.key with
  | none => true
  | some k => decide (gs0.head?.map k = gs1.head?.map k)

/-- The dofs of `f1` found for one dof of `f0` (`global_.py:183-193`); `taken` are those found before. -/
def findOne (S : Shape G K) (d1 : List (ℕ × List G)) (taken : List ℕ) (gs0 : List G) : List ℕ :=
  (d1.filter fun p => group S gs0 p.2 && !decide (p.1 ∈ taken) && partOf S gs0 p.2).map Prod.fst

/-- The search, dof by dof (`global_.py:161-202`). -/
def findAll (S : Shape G K) (d1 : List (ℕ × List G)) : List (ℕ × List G) → List ℕ → List (ℕ × List ℕ)
  | [], _ => []
  | p :: d0, taken => (p.1, findOne S d1 taken p.2) :: findAll S d1 d0 (taken ++ findOne S d1 taken p.2)

/-- The geometries of some dofs, without repetition (`global_.py:211-218`). -/
def geosOf (S : Shape G K) (d1 : List (ℕ × List G)) (l : List ℕ) : List G :=
  (l.flatMap fun d => ((d1.find? fun p => p.1 = d).map Prod.snd).getD []).foldl (addGeo S) []

/-- The first geometry of a dof is the union of those found for it (`global_.py:208-226`). -/
def covered (S : Shape G K) (d0 d1 : List (ℕ × List G)) (p : ℕ × List ℕ) : Bool :=
  match ((d0.find? fun q => q.1 = p.1).map Prod.snd).bind List.head? with
  | some g => S.union g (geosOf S d1 p.2)
  | none => false

/-- What the master rank finds: whether it is complete, and the dictionary (`global_.py:159-228`). -/
def computer (S : Shape G K) (ranks0 ranks1 : List (List (ℕ × G))) : Bool × List (ℕ × List ℕ) :=
  let d0 := allGeos S ranks0
  let d1 := allGeos S ranks1
  let found := findAll S d1 d0 []
  (found.all (fun p => !p.2.isEmpty) && found.all (covered S d0 d1), found.filter fun p => !p.2.isEmpty)

/-- What a rank keeps: the dofs it has; all that correspond to them must be on the same rank (`global_.py:234-253`). -/
def rankView (here0 here1 : List (ℕ × G)) (cor : List (ℕ × List ℕ)) : Option (List (ℕ × List ℕ)) :=
  let mine := cor.filter fun p => here0.any fun q => q.1 = p.1
  if mine.all fun p => p.2.all fun d => here1.any fun q => q.1 = d then some mine else none

/-- The answer of `global_correspondence`. -/
inductive Answer
  | empty
  | same
  | incomplete (cor : List (ℕ × List ℕ))
  | complete (cor : List (ℕ × List ℕ))
deriving DecidableEq

/-- `global_correspondence` on rank `r` (`main.py:27-78`, `global_.py:28-46`); `lvl0` and `lvl1` are the levels of the forms, `isSame` says that
they have the same space and degree. -/
def correspondence (S : Shape G K) (isSame : Bool) (lvl0 lvl1 : ℕ) (ranks0 ranks1 : List (List (ℕ × G))) (r : ℕ) : Option Answer :=
  if isSame then some .same
  else if lvl1 < lvl0 then some .empty
  else
    (rankView (ranks0.getD r []) (ranks1.getD r []) (computer S ranks0 ranks1).2).bind fun cor =>
      if cor = [] then some .empty
      else if (computer S ranks0 ranks1).1 then
        if (ranks0.getD r []).all fun p => cor.any fun q => q.1 = p.1 then some (.complete cor) else none
      else some (.incomplete cor)

/-- What `pass_cochain` does on a rank: project the form, or set values. -/
inductive Passed
  | project
  | set (values : List (List ℚ))
deriving DecidableEq

/-- `ffc_vec[f_gm[e]] = ffc[e]`, element by element: the last place of a dof counts, other entries are zero (`pass_.py:65-70`). -/
def vecOf (elements : List (List (ℕ × ℚ))) (d : ℕ) : ℚ := (((elements.flatten.filter fun p => p.1 = d).getLast?).map Prod.snd).getD 0

/-- The value of one dof: `sum(vec[cor[dof]])` (`pass_.py:84, 191`). -/
def valueAt (cor : List (ℕ × List ℕ)) (vec : ℕ → ℚ) (d : ℕ) : Option ℚ := (cor.find? fun p => p.1 = d).map fun p => (p.2.map vec).sum

/-- `pass_cochain` (`pass_.py:21-93`): `answer` is the correspondence of `tf` and `ff`, `from_` has dofs and values of the elements of `ff` on the
rank, `into` the dofs of the elements of `tf`. -/
def passCochain (answer : Answer) (completeOnly : Bool) (from_ : List (List (ℕ × ℚ))) (into : List (List ℕ)) : Option Passed :=
  match answer with
  | .empty => if completeOnly then none else some .project
  | .incomplete _ => if completeOnly then none else some .project
  | .same => none
  | .complete cor => (into.mapM fun e : List ℕ => e.mapM (valueAt cor (vecOf from_))).map .set

/-- `vector_through_cochain` where the correspondence is complete, before assembling (`pass_.py:171-192`); `vec` is the global vector. -/
def passVector (cor : List (ℕ × List ℕ)) (vec : ℕ → ℚ) (into : List (List ℕ)) : Option (List (List ℚ)) :=
  into.mapM fun e : List ℕ => e.mapM (valueAt cor vec)

end

/-! ### Geometries -/

/-- What `'%.6f' % round(q, 8)` shows: a sign and the number of the sixth decimals (`tools/miscellaneous/geometries/m2n2.py:72, 251, 259`). -/
def fmt6 (q : ℚ) : Bool × ℕ :=
  let near (s : ℚ) : ℕ :=
    if s - ⌊s⌋₊ < 1 / 2 then ⌊s⌋₊ else if 1 / 2 < s - ⌊s⌋₊ then ⌊s⌋₊ + 1 else if ⌊s⌋₊ % 2 = 0 then ⌊s⌋₊ else ⌊s⌋₊ + 1
  (decide (q < 0), near ((near (|q| * 100000000) : ℚ) / 100))

/-- `math.isclose(x, y, abs_tol=tol)`, where the relative tolerance is `tol`, too. -/
def isclose (tol x y : ℚ) : Bool := decide (|x - y| ≤ max (tol * max |x| |y|) tol)

/-- Points in the plane (`m2n2.py:26-123`); the tolerance is `1e-9` in the code. The test that no two of the given points are equal (108-117)
cannot fail where it is used and is left out. -/
def points (tol : ℚ) : Shape (ℚ × ℚ) (Bool × ℕ) where
  eq a b := isclose tol a.1 b.1 && isclose tol a.2 b.2
  contains a b := isclose tol a.1 b.1 && isclose tol a.2 b.2
  union a l := l.any fun b => isclose tol b.1 a.1 && isclose tol b.2 a.2
  key := some fun a => fmt6 a.1

/-- A segment parallel to an axis: upright or not, the coordinate of its line, and its ends. -/
structure Seg where
  upright : Bool
  line : ℚ
  lo : ℚ
  hi : ℚ
deriving DecidableEq

/-- Whether two segments meet at most at an end (`m2n2.py:440-483`). -/
def separate (a b : Seg) : Bool := decide (a.upright = b.upright → a.line = b.line → a.hi ≤ b.lo ∨ b.hi ≤ a.lo)

/-- The test for each pair of a list (`m2n2.py:294-302`). -/
def pairs : List Seg → Bool
  | [] => true
  | a :: l => l.all (separate a) && pairs l

/-- Whether a segment has all of another (`m2n2.py:261-272`). -/
def inSeg (a b : Seg) : Bool := decide (a.upright = b.upright ∧ a.line = b.line ∧ a.lo ≤ b.lo ∧ b.hi ≤ a.hi)

/-- Segments parallel to an axis (`m2n2.py:162-318`), without tolerances and with the lower end first. The failure where parallel segments are not
separate (299-300) counts as not being a union. -/
def segments : Shape Seg (Bool × Bool × ℕ) where
  eq a b := decide (a = b)
  contains := inSeg
  union a l :=
    pairs (l.filter fun b => a.upright = b.upright) && decide (a.hi - a.lo = ((l.filter (inSeg a)).map fun b => b.hi - b.lo).sum)
  key := some fun a => (a.upright, fmt6 a.line)

/-! ### Hierarchy -/

/-- The loop over the elements of the coarse mesh (`hierarchy.py:93-120`): those of the remaining centers that are in the element are its
elements; nothing may remain. -/
def children {P E I : Type} [DecidableEq I] (inside : E → P → Bool) : List (I × E) → List (I × P) → Option (List (I × List I))
  | [], [] => some []
  | [], _ :: _ => none
  | e :: es, centers =>
    (children inside es (centers.filter fun c => !inside e.2 c.2)).map fun h =>
      (e.1, (centers.filter fun c => inside e.2 c.2).map Prod.fst) :: h

end Phyem.Passing
