import Mathlib.Data.Rat.Defs
import Mathlib.Algebra.Field.Basic
import Mathlib.Algebra.Field.Rat
import Mathlib.Data.List.Sort
import Verif.Base.Dict
import Verif.Config.Model

/-!
Splitting of all elements of a great mesh (argument `ts`) and of triangular and quadrilateral regions:
`msehtt/static/mesh/great/main.py:877-1376, 1565-1664` and `msehtt/static/mesh/great/config/tqr.py:35-50, 94-276`.

Coordinates are in a field `R` instead of floats. The three dictionaries of an element (type, parameters, map) have the same keys and are one
dictionary here. Nodes are natural numbers.
-/

namespace Phyem.Split

/-- An index of an element: an integer or a string. -/
abbrev Idx := ℕ ⊕ List Char

/-- `str(e_index)`. -/
def text : Idx → List Char
  | .inl n => Nat.toDigits 10 n
  | .inr s => s

/-- What a corner of a new element is called before it gets a number: an old node (`int`), or a `tuple` of old nodes. -/
inductive Key where
  | node (n : ℕ)
  | tup (l : List ℕ)
deriving DecidableEq

abbrev Pt (R : Type) := R × R

abbrev Pt3 (R : Type) := R × R × R

/-- The types of elements that have a rule in `___ts___`, with their parameters. `other` is any other type. -/
inductive Shape (R : Type) where
  /-- `5`: the three corners. -/
  | tri (A B C : Pt R)
  /-- `9`: the four corners. -/
  | quad (A B C D : Pt R)
  /-- `'orthogonal rectangle'`: `origin` and `delta`. -/
  | rect (o d : Pt R)
  /-- `'unique curvilinear quad'`: `mapping` and `Jacobian_matrix` as `((dx_dr, dx_ds), (dy_dr, dy_ds))`. -/
  | ucq (m : R → R → Pt R) (J : R → R → Pt R × Pt R)
  /-- `'orthogonal hexahedron'`: `origin` and `delta`. -/
  | hexa (o d : Pt3 R)
  /-- `11`: the eight corners. -/
  | voxel (p0 p1 p2 p3 p4 p5 p6 p7 : Pt3 R)
  | other

/-- An element: its type with its parameters, and its map. -/
structure Elem (R κ : Type) where
  shape : Shape R
  map : List κ

/-- `[a, b].sort()` and `tuple` (`main.py:934-939, 986-993`), also for four nodes. -/
def srt (l : List ℕ) : Key := .tup (l.insertionSort (· ≤ ·))

section
variable {R : Type} [Field R]

/-- The middle of a side. -/
def mid (A B : Pt R) : Pt R := ((A.1 + B.1) / 2, (A.2 + B.2) / 2)

/-- `D` (`main.py:926`). -/
def centre3 (A B C : Pt R) : Pt R := ((A.1 + B.1 + C.1) / 3, (A.2 + B.2 + C.2) / 3)

/-- `E` (`main.py:976`). -/
def centre4 (A B C D : Pt R) : Pt R := ((A.1 + B.1 + C.1 + D.1) / 4, (A.2 + B.2 + C.2 + D.2) / 4)

/-- The branch `e_type == 5` (`main.py:921-953`, `tqr.py:166-198`). -/
def splitTri (A B C : Pt R) (a b c : ℕ) : List (Elem R Key) :=
  [⟨.quad A (mid A B) (centre3 A B C) (mid A C), [.node a, srt [a, b], .tup [a, b, c], srt [a, c]]⟩,
    ⟨.quad B (mid C B) (centre3 A B C) (mid A B), [.node b, srt [b, c], .tup [a, b, c], srt [a, b]]⟩,
    ⟨.quad C (mid A C) (centre3 A B C) (mid C B), [.node c, srt [a, c], .tup [a, b, c], srt [b, c]]⟩]

/-- The branch `e_type == 9` (`main.py:961-1011`, `tqr.py:200-250`). -/
def splitQuad (A B C D : Pt R) (a b c d : ℕ) : List (Elem R Key) :=
  [⟨.quad A (mid A B) (centre4 A B C D) (mid D A), [.node a, srt [a, b], .tup [a, b, c, d], srt [d, a]]⟩,
    ⟨.quad (mid A B) B (mid B C) (centre4 A B C D), [srt [a, b], .node b, srt [b, c], .tup [a, b, c, d]]⟩,
    ⟨.quad (centre4 A B C D) (mid B C) C (mid C D), [.tup [a, b, c, d], srt [b, c], .node c, srt [c, d]]⟩,
    ⟨.quad (mid D A) (centre4 A B C D) (mid C D) D, [srt [d, a], .tup [a, b, c, d], srt [c, d], .node d]⟩]

/-- The branch `'orthogonal rectangle'` (`main.py:1013-1069`): the map is `_0_, _1_, _3_, _2_`. -/
def splitRect (o d : Pt R) (n0 n1 n3 n2 : ℕ) : List (Elem R Key) :=
  splitQuad o (o.1 + d.1, o.2) (o.1 + d.1, o.2 + d.2) (o.1, o.2 + d.2) n0 n1 n2 n3

/-- `hUCQ.mapping_..` (`main.py:1578-1600`): the lower or the upper half in each direction. -/
def quarterMap (m : R → R → Pt R) (i j : Bool) : R → R → Pt R := fun xi et =>
  m (if i then (xi + 1) / 2 else (xi + 1) / 2 - 1) (if j then (et + 1) / 2 else (et + 1) / 2 - 1)

/-- `hUCQ.JM_..` (`main.py:1602-1664`). -/
def quarterJ (J : R → R → Pt R × Pt R) (i j : Bool) : R → R → Pt R × Pt R := fun xi et =>
  let q := J (if i then (xi + 1) / 2 else (xi + 1) / 2 - 1) (if j then (et + 1) / 2 else (et + 1) / 2 - 1)
  ((q.1.1 * (1 / 2), q.1.2 * (1 / 2)), (q.2.1 * (1 / 2), q.2.2 * (1 / 2)))

/-- The branch `'unique curvilinear quad'` (`main.py:1269-1315`). -/
def splitUcq (m : R → R → Pt R) (J : R → R → Pt R × Pt R) (a b c d : ℕ) : List (Elem R Key) :=
  [⟨.ucq (quarterMap m false false) (quarterJ J false false), [.node a, srt [a, b], .tup [a, b, c, d], srt [d, a]]⟩,
    ⟨.ucq (quarterMap m true false) (quarterJ J true false), [srt [a, b], .node b, srt [b, c], .tup [a, b, c, d]]⟩,
    ⟨.ucq (quarterMap m true true) (quarterJ J true true), [.tup [a, b, c, d], srt [b, c], .node c, srt [c, d]]⟩,
    ⟨.ucq (quarterMap m false true) (quarterJ J false true), [srt [d, a], .tup [a, b, c, d], srt [c, d], .node d]⟩]

/-- The middle of two points of the same height; `h` is the height (`main.py:1134-1137`). -/
def midAt (h : R) (A B : Pt3 R) : Pt3 R := ((A.1 + B.1) / 2, (A.2.1 + B.2.1) / 2, h)

/-- The centre of four points of the same height (`main.py:1133`). -/
def centreAt (h : R) (A B C D : Pt3 R) : Pt3 R :=
  ((A.1 + B.1 + C.1 + D.1) / 4, (A.2.1 + B.2.1 + C.2.1 + D.2.1) / 4, h)

/-- The branch for hexahedra (`main.py:1110-1267`), from `origin` and `delta`. -/
def splitHexa (o d : Pt3 R) (a b d' c k l m n : ℕ) : List (Elem R Key) :=
  let x0 := o.1
  let y0 := o.2.1
  let x1 := o.1 + d.1
  let y1 := o.2.1 + d.2.1
  let zU := o.2.2 + d.2.2 / 2
  let zA := o.2.2
  let zK := o.2.2 + d.2.2
  let U : Pt3 R := (x0, y0, zU)
  let a' : Pt3 R := (x1, y1, zU)
  let X : Pt3 R := (x1, y0, zU)
  let W : Pt3 R := (x0, y1, zU)
  let V := centreAt zU U X a' W
  let Z := midAt zU U X
  let i := midAt zU X a'
  let o' := midAt zU a' W
  let Y := midAt zU U W
  let A : Pt3 R := (x0, y0, zA)
  let C : Pt3 R := (x1, y1, zA)
  let B : Pt3 R := (x1, y0, zA)
  let D : Pt3 R := (x0, y1, zA)
  let E := centreAt zA A B C D
  let F := midAt zA A B
  let G := midAt zA B C
  let H := midAt zA C D
  let J := midAt zA D A
  let K : Pt3 R := (x0, y0, zK)
  let N : Pt3 R := (x1, y1, zK)
  let L : Pt3 R := (x1, y0, zK)
  let M : Pt3 R := (x0, y1, zK)
  let T := centreAt zK K L M N
  let R' := midAt zK K L
  let Q := midAt zK L N
  let S := midAt zK N M
  let P := midAt zK M K
  let kE := srt [a, b, c, d']
  let kF := srt [a, b]
  let kG := srt [b, c]
  let kH := srt [d', c]
  let kJ := srt [a, d']
  let kT := srt [k, l, m, n]
  let kR := srt [k, l]
  let kQ := srt [l, n]
  let kS := srt [m, n]
  let kP := srt [k, m]
  let kU := srt [a, k]
  let kX := srt [b, l]
  let kW := srt [d', m]
  let ka := srt [c, n]
  let kZ := srt [a, b, k, l]
  let kY := srt [a, d', k, m]
  let kI := srt [b, c, l, n]
  let kO := srt [d', c, m, n]
  let kV := Key.tup [a, b, c, d', k, l, m, n]
  [⟨.voxel A F J E U Z Y V, [.node a, kF, kJ, kE, kU, kZ, kY, kV]⟩,
    ⟨.voxel F B E G Z X V i, [kF, .node b, kE, kG, kZ, kX, kV, kI]⟩,
    ⟨.voxel J E D H Y V W o', [kJ, kE, .node d', kH, kY, kV, kW, kO]⟩,
    ⟨.voxel E G H C V i o' a', [kE, kG, kH, .node c, kV, kI, kO, ka]⟩,
    ⟨.voxel U Z Y V K R' P T, [kU, kZ, kY, kV, .node k, kR, kP, kT]⟩,
    ⟨.voxel Z X V i R' L T Q, [kZ, kX, kV, kI, kR, .node l, kT, kQ]⟩,
    ⟨.voxel Y V W o' P T M S, [kY, kV, kW, kO, kP, kT, .node m, kS]⟩,
    ⟨.voxel V i o' a' T Q S N, [kV, kI, kO, ka, kT, kQ, kS, .node n]⟩]

/-- One element of the loop of `___ts___` (`main.py:916-1319`). The unpacking of the map fails if its length is wrong; other types raise. -/
def split (e : Elem R ℕ) : Option (List (Elem R Key)) :=
  match e.shape, e.map with
  | .tri A B C, [a, b, c] => some (splitTri A B C a b c)
  | .quad A B C D, [a, b, c, d] => some (splitQuad A B C D a b c d)
  | .rect o d, [a, b, c, d'] => some (splitRect o d a b c d')
  | .ucq m J, [a, b, c, d] => some (splitUcq m J a b c d)
  | .hexa o d, [a, b, d', c, k, l, m, n] => some (splitHexa o d a b d' c k l m n)
  | .voxel p0 p1 p2 _ p4 _ _ _, [a, b, d', c, k, l, m, n] =>
    some (splitHexa p0 (p1.1 - p0.1, p2.2.1 - p0.2.1, p4.2.2 - p0.2.2) a b d' c k l m n)
  | _, _ => none

/-- What is written between the index of an element and the number of the new one (`main.py:942-944, 996-999, 1054-1057, 1236-1243, 1295-1298`). -/
def tag : Shape R → List Char
  | .tri .. => [':', '5', '>']
  | .quad .. => [':', '9', '>']
  | .rect .. => [':', 'o', 'r', '>']
  | .ucq .. => [':', 'U', 'C', 'Q', '>']
  | .hexa .. => [':', 'o', 'H', '>']
  | .voxel .. => [':', 'o', 'H', '>']
  | .other => []

/-- The indices of the new elements of one element. -/
def kidName (i : Idx) (s : Shape R) (k : ℕ) : Idx := .inr (text i ++ tag s ++ Nat.toDigits 10 k)

/-- The new elements of one element with their indices. -/
def kids (p : Idx × Elem R ℕ) : Option (Dict Idx (Elem R Key)) :=
  (split p.2).map fun l => l.zipIdx.map fun q => (kidName p.1 p.2.shape q.2, q.1)

/-- The loop over the elements of a rank: `new_element_.._dict[e_i_0] = ...`, in dictionaries. -/
def splitRank (d : Dict Idx (Elem R ℕ)) : Option (Dict Idx (Elem R Key)) :=
  (d.mapM kids).map fun L => L.flatten.foldl (fun d p => Dict.put d p.1 p.2) []

/-- All keys of a rank in the order of the loops. -/
def keysOf {κ : Type} (d : Dict Idx (Elem R κ)) : List κ := d.flatMap fun p => p.2.map

/-- `[node for .. if isinstance(node, int)]` (`main.py:1325-1333`). -/
def intNodes (ks : List Key) : List ℕ := ks.filterMap fun | .node n => some n | .tup _ => none

/-- The keys of `new_node_pool` in order (`main.py:1335-1351`): the tuples in the order in which they are met. -/
def pool (ks : List Key) : List Key :=
  (ks.filter fun | .node _ => false | .tup _ => true).foldl Config.intern []

/-- The number of a key (`main.py:1334, 1345-1349, 1359-1366`): `i = max(int_nodes) + 1` is the first new number. -/
def numOf (base : ℕ) (P : List Key) : Key → ℕ
  | .node n => n
  | .tup l => base + P.idxOf (.tup l)

/-- The numbers of the keys of a whole mesh; `max` of no nodes raises. -/
def numbering (ks : List Key) : Option (Key → ℕ) :=
  match (intNodes ks).max? with
  | none => none
  | some m => some (numOf (m + 1) (pool ks))

/-- The map of an element with numbers (`main.py:1359-1366`). -/
def Elem.num {κ μ : Type} (f : κ → μ) (e : Elem R κ) : Elem R μ := ⟨e.shape, e.map.map f⟩

/-- A mesh: the dictionary of every rank. -/
abbrev Mesh (R κ : Type) := List (Dict Idx (Elem R κ))

/-- All elements of all ranks. -/
def elems {κ : Type} (M : Mesh R κ) : List (Elem R κ) := M.flatten.map Prod.snd

/-- `___ts___` (`main.py:911-1376`) on all ranks. -/
def ts (M : Mesh R ℕ) : Option (Mesh R ℕ) :=
  (M.mapM splitRank).bind fun K => (numbering (K.flatMap keysOf)).map fun f =>
    K.map fun d => d.map fun p => (p.1, p.2.num f)

/-- The new keys of `___ts_element_info___` (`main.py:880-893`): `i` becomes `max_ts - i`; a key that is not in `1 .. max_ts` would raise. -/
def renumber {V : Type} (info : Dict ℕ V) : Option (Dict ℕ V) :=
  match info.keys.max? with
  | none => some info
  | some mx => info.foldlM (fun d p => if 1 ≤ p.1 ∧ p.1 ≤ mx then some (Dict.put d (mx - p.1) p.2) else none) []

/-- `_parse_ts_` (`main.py:877-909`): the mesh and `___ts_element_info___`. -/
def parseTs : ℕ → Dict ℕ (Mesh R ℕ) → Mesh R ℕ → Option (Mesh R ℕ × Dict ℕ (Mesh R ℕ))
  | 0, info, M => (renumber info).map fun i => (M, i)
  | t + 1, info, M => (ts M).bind fun M' => parseTs t (Dict.put info (t + 1) M) M'

/-! ### Regions of triangles and quadrilaterals -/

/-- `_check` (`tqr.py:35-50`): types, lengths and whether all vertices have coordinates. Types are `5` (`true`) and `9` (`false`); `none` is any
other. A region without a map raises `KeyError`. -/
def tqrCheck (types : Dict Idx (Option Bool)) (vmap : Dict Idx (List Idx)) (coo : Dict Idx (Pt R)) : Bool :=
  types.all fun p => match Dict.get vmap p.1 with
    | none => false
    | some rm => (match p.2 with
        | some true => decide (rm.length = 3)
        | some false => decide (rm.length = 4)
        | none => false) && rm.all fun v => (Dict.get coo v).isSome

/-- The number of a vertex in `POOL` (`tqr.py:113-121`): its place among the keys. -/
def place {K : Type} [DecidableEq K] (l : List K) (v : K) : ℕ := l.idxOf v

/-- The elements of level 0 (`tqr.py:111-132`): vertices are numbered in the order of the coordinates. -/
def tqrInit (types : Dict Idx (Option Bool)) (vmap : Dict Idx (List Idx)) (coo : Dict Idx (Pt R)) :
    Option (Dict Idx (Elem R ℕ)) :=
  types.mapM fun p => (Dict.get vmap p.1).bind fun rm => (rm.mapM fun v => Dict.get coo v).bind fun para =>
    match p.2, para with
    | some true, [A, B, C] => some (p.1, ⟨.tri A B C, rm.map (place coo.keys)⟩)
    | some false, [A, B, C, D] => some (p.1, ⟨.quad A B C D, rm.map (place coo.keys)⟩)
    | _, _ => none

/-- `___qtr_ts___` (`tqr.py:156-276`): the same rules for triangles and quadrilaterals; all nodes, old and new, get numbers from zero in the order
in which they are met. -/
def tqrTs (d : Dict Idx (Elem R ℕ)) : Option (Dict Idx (Elem R ℕ)) :=
  if d.all (fun p => match p.2.shape with | .tri .. => true | .quad .. => true | _ => false) then
    (splitRank d).map fun K => K.map fun p => (p.1, p.2.num fun k => ((keysOf K).foldl Config.intern []).idxOf k)
  else none

/-- `_parse_qtr_ts_` (`tqr.py:143-154`). -/
def tqrParse : ℕ → Dict Idx (Elem R ℕ) → Option (Dict Idx (Elem R ℕ))
  | 0, d => some d
  | t + 1, d => (tqrTs d).bind (tqrParse t)

end

end Phyem.Split
