import Verif.Dds.Ops

/-!
# Groups of data on the same points, files

Model of `DDS_RegionWiseStructured_Group` (`/repo/tools/dds/region_wise_structured_group.py`), of the files of these
objects and of `ph.save` and `ph.read` (`/repo/tools/save.py`, `/repo/tools/read.py`) in one process. A file keeps the
dictionary that is put into it; that pickling and unpickling gives the same back is assumed.
-/

namespace Phyem.Dds

variable {K : Type}

/-- What is given for the variables: a list, or a dictionary with their names. -/
inductive Given (K : Type)
  | list (l : List (List (Dict K)))
  | dict (l : List (String × List (Dict K)))

/-- A group. -/
structure Group (K : Type) where
  coo : List (Dict K)
  vals : List (List (Dict K))
  names : List String

/-- The names (`region_wise_structured_group.py:29-40`). -/
def Given.names : Given K → List String
  | .list l => (List.range l.length).map fun n => n.repr
  | .dict l => l.map Prod.fst

/-- The variables (`region_wise_structured_group.py:29-40`). -/
def Given.vals : Given K → List (List (Dict K))
  | .list l => l
  | .dict l => l.map Prod.snd

/-- `__init__` (`region_wise_structured_group.py:16-75`). -/
def makeGroup (coo : List (Dict K)) (g : Given K) : Option (Group K) :=
  match coo with
  | [] => none
  | x :: cs =>
    if cs.all (fun d => sameKeys d x) && decide g.names.Nodup &&
        g.vals.all (fun v => !v.isEmpty && v.all (fun d => sameKeys d x)) &&
        x.all (fun p => cs.all (fun d => shapeIs d p.1 p.2.shape) &&
          g.vals.all (fun v => v.all fun d => shapeIs d p.1 p.2.shape)) then
      some ⟨coo, g.vals, g.names⟩
    else none

/-- `group[i]` with a number (`region_wise_structured_group.py:141-149`). That an object is kept and given back later is
left out: it has the same contents. -/
def Group.nth (g : Group K) (i : ℕ) : Option (Fld K) := g.vals[i]?.bind fun v => make g.coo v

/-- `group[name]` (`region_wise_structured_group.py:151-154`). -/
def Group.named (g : Group K) (s : String) : Option (Fld K) := if s ∈ g.names then g.nth (g.names.idxOf s) else none

/-- What is in a file. -/
inductive File (K : Type) (Obj : Type)
  | rws (coo val : List (Dict K))
  | grouped (coo : List (Dict K)) (vals : List (List (Dict K)))
  | objects (l : List (String × Obj))

/-- What comes out of a file. -/
inductive Out (K : Type) (Obj : Type)
  | rws (f : Fld K)
  | grouped (g : Group K)
  | objects (l : List (String × Obj))

/-- `saveto` (`region_wise_structured.py:108-118`). -/
def Fld.file (f : Fld K) {Obj : Type} : File K Obj := .rws f.coo f.val

/-- `saveto` (`region_wise_structured_group.py:92-101`). -/
def Group.file (g : Group K) {Obj : Type} : File K Obj := .grouped g.coo g.vals

/-- `d[key] = obj` for a dictionary. -/
def setItem {Obj : Type} (l : List (String × Obj)) (k : String) (o : Obj) : List (String × Obj) :=
  if l.any fun p => p.1 == k then l.map fun p => if p.1 = k then (k, o) else p else l ++ [(k, o)]

/-- `ph.save` of objects that have a key (`save.py:10-39`). -/
def save {Obj : Type} (objs : List (String × Obj)) : Option (File K Obj) :=
  (objs.foldlM (fun l p => if p.1 ≠ "key" then some (setItem l p.1 p.2) else none) []).map .objects

/-- `ph.read` (`read.py:11-43`); `DDSRegionWiseStructured.read` (`region_wise_structured.py:120-130`) and
`DDS_RegionWiseStructured_Group.read` (`region_wise_structured_group.py:103-113`). -/
def read {Obj : Type} : File K Obj → Option (Out K Obj)
  | .rws coo val => (make coo val).map .rws
  | .grouped coo vals => (makeGroup coo (.list vals)).map .grouped
  | .objects l => some (.objects l)

end Phyem.Dds
