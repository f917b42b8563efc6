import Mathlib.Algebra.Order.Field.Basic
import Mathlib.Algebra.Order.Ring.Abs
import Mathlib.Algebra.BigOperators.Group.List.Basic

/-!
# Data at points, region by region: making them, and computing with them

Model of `DDSRegionWiseStructured` (`/repo/tools/dds/region_wise_structured.py`) without pictures, interpolation and files.
Arrays are a shape and the entries in order. Dictionaries are lists of keys and entries, in the order in which they were
filled. An exception is `none`. Two arrays of different shapes are not combined (numpy would stretch some of them; that
can only happen in regions that have values but no coordinates, and when coordinates of different shapes are compared).
-/

namespace Phyem.Dds

/-- An array. -/
structure Arr (K : Type) where
  shape : List ℕ
  data : List K

/-- A dictionary of arrays, its keys are regions. -/
abbrev Dict (K : Type) := List (ℕ × Arr K)

/-- What the object keeps: coordinates and components, each region by region. -/
structure Fld (K : Type) where
  coo : List (Dict K)
  val : List (Dict K)

section
variable {K : Type}

/-- `d.keys() == e.keys()` -/
def sameKeys (d e : Dict K) : Bool := d.all (fun p => (e.lookup p.1).isSome) && e.all (fun p => (d.lookup p.1).isSome)

/-- `d[region].shape == shape`; a region that is not there is an error. -/
def shapeIs (d : Dict K) (r : ℕ) (s : List ℕ) : Bool :=
  match d.lookup r with
  | some a => a.shape == s
  | none => false

/-- `__init__` (`region_wise_structured.py:42-73`, `_find_shape` at 1030-1039). -/
def make (coo val : List (Dict K)) : Option (Fld K) :=
  match coo with
  | [] => none
  | x :: cs =>
    if cs.all (fun d => sameKeys d x) &&
        x.all (fun p => cs.all (fun d => shapeIs d p.1 p.2.shape) && val.all (fun d => shapeIs d p.1 p.2.shape)) then
      match val with
      | [] => none
      | _ :: _ => some ⟨coo, val⟩
    else none

/-- `'scalar'`, `'vector'` or `'tensor'` -/
inductive Kind
  | scalar
  | vector
  | tensor
  deriving DecidableEq

/-- `dtype` (`region_wise_structured.py:133-146`). -/
def kind (f : Fld K) : Option Kind :=
  if f.val.length = 1 then some .scalar
  else if f.coo.length = f.val.length then some .vector
  else if f.val.length = f.coo.length ^ 2 then some .tensor
  else none

/-- `classification == '2d vector'` (`region_wise_structured.py:153-165`); other cases of interest are left out. -/
def isVector2 (f : Fld K) : Bool := f.coo.length = 2 ∧ kind f = some .vector

/-- An operation on the entries of two arrays. -/
def Arr.zip (op : K → K → K) (a b : Arr K) : Option (Arr K) :=
  if a.shape = b.shape then some ⟨a.shape, List.zipWith op a.data b.data⟩ else none

/-- An operation on the entries of an array. -/
def Arr.map (f : K → K) (a : Arr K) : Arr K := ⟨a.shape, a.data.map f⟩

/-- `for region in d: out[region] = g(region)` -/
def along (d : Dict K) (g : ℕ → Option (Arr K)) : Option (Dict K) :=
  d.mapM fun p => (g p.1).map fun z => (p.1, z)

/-- An operation on all entries, with the result on the same points: `other * self`, `self + 1`, `self - 1`, `self ** 2`
and `square` (`region_wise_structured.py:488-494, 521-527, 532-542, 560-570, 598-606`). -/
def unary (f : K → K) (a : Fld K) : Option (Fld K) :=
  (a.val.mapM fun d => along d fun r => (d.lookup r).map (Arr.map f)).bind fun v => make a.coo v

end

section
variable {K : Type} [Field K] [LinearOrder K]

/-- `np.allclose(a, b)` -/
def allclose (a b : Arr K) : Bool :=
  a.shape = b.shape ∧
    (List.zipWith (fun x y => decide (|x - y| ≤ 1 / 100000000 + 1 / 100000 * |y|)) a.data b.data).all id

/-- `___check_coo_equality___` (`region_wise_structured.py:79-104`); that the same dictionaries are equal (lines 89-90) is
what the comparison of the entries says too. -/
def checkCoo (a b : Fld K) : Bool :=
  if a.coo.length ≠ b.coo.length then false
  else if ¬ sameKeys (a.coo.headD []) (b.coo.headD []) then false
  else (a.coo.zip b.coo).all fun p => (a.coo.headD []).all fun q =>
    match p.1.lookup q.1, p.2.lookup q.1 with
    | some x, some y => allclose x y
    | _, _ => false

/-- `self + other` and `self - other` (`region_wise_structured.py:466-486, 499-519`). The second look at the coordinates
(lines 472-477 and 505-510) is the same as the first one. -/
def binary (op : K → K → K) (a b : Fld K) : Option (Fld K) :=
  if checkCoo a b then
    if a.val.length = b.val.length then
      ((a.val.zip b.val).mapM fun p => along p.1 fun r =>
        (p.1.lookup r).bind fun x => (p.2.lookup r).bind fun y => x.zip op y).bind fun v => make a.coo v
    else none
  else none

/-- `region_value = 0`, then `region_value += …` for every component. -/
def sumArr : List (Arr K) → Option (Arr K)
  | [] => none
  | x :: xs => xs.foldlM (fun s y => s.zip (· + ·) y) (x.map (0 + ·))

/-- `self.dot(other)` (`region_wise_structured.py:544-558`). -/
def dot (a b : Fld K) : Option (Fld K) :=
  if checkCoo a b then
    if a.val.length = b.val.length then
      (along (a.val.headD []) fun r =>
        ((a.val.zip b.val).mapM fun (p : Dict K × Dict K) => (p.1.lookup r).bind fun x => (p.2.lookup r).bind fun y => x.zip (· * ·) y).bind
          sumArr).bind fun d => make a.coo [d]
    else none
  else none

/-- The body of the loop of `cross_product`. -/
def crossAt (wx wy u v : Dict K) (r : ℕ) : Option (Arr K) :=
  (wx.lookup r).bind fun a => (wy.lookup r).bind fun b => (u.lookup r).bind fun c => (v.lookup r).bind fun d =>
    (a.zip (· * ·) d).bind fun p => (b.zip (· * ·) c).bind fun q => p.zip (· - ·) q

/-- `self.cross_product(other)` (`region_wise_structured.py:612-641`). -/
def cross (a b : Fld K) : Option (Fld K) :=
  if checkCoo a b then
    if isVector2 a ∧ isVector2 b then
      match a.val, b.val with
      | [wx, wy], [u, v] => (along wx (crossAt wx wy u v)).bind fun d => make a.coo [d]
      | _, _ => none
    else none
  else none

/-- `np.max` of a list of numbers; there is none of an empty list. -/
def maxOf : List K → Option K
  | [] => none
  | x :: xs => some (xs.foldl max x)

/-- `np.min` of a list of numbers. -/
def minOf : List K → Option K
  | [] => none
  | x :: xs => some (xs.foldl min x)

/-- `maximum()` (`region_wise_structured.py:168-184`). -/
def maximum (f : Fld K) : Option (List K) :=
  f.val.mapM fun d => (d.mapM fun p => maxOf (p.2.data.map fun x => |x|)).bind maxOf

/-- The weight of a point of a region: the product of `(max - min) / shape[0]` (`region_wise_structured.py:193-200`). -/
def weight (coo : List (Dict K)) (r : ℕ) : Option K :=
  (coo.mapM fun (d : Dict K) => (d.lookup r).bind fun a => (maxOf a.data).bind fun M => (minOf a.data).bind fun m =>
    a.shape.head?.map fun (n : ℕ) => (M - m) / n).map List.prod

/-- `L2_norm()` (`region_wise_structured.py:186-208`), before the square roots are taken. -/
def L2sq (f : Fld K) : Option (List K) :=
  f.val.mapM fun d => (d.mapM fun p => (weight f.coo p.1).map fun w => (p.2.data.map fun x => x ^ 2 * w).sum).map
    List.sum

end

end Phyem.Dds
