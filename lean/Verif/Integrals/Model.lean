import Mathlib.Algebra.Order.Field.Rat
import Mathlib.Algebra.Order.AbsoluteValue.Basic
import Mathlib.Algebra.BigOperators.Group.List.Basic
import Mathlib.Data.Rat.Floor
import Verif.Base.Dict

/-!
# Numbers computed on a part of a mesh

Model of `msehtt/static/mesh/partial/elements/compute.py` (the trilinear number `a(A, B, C)` and integrals) and of
`msehtt/static/mesh/partial/elements/cfl.py` (CFL numbers and their files). Floats are rationals; an exception is `none`. The elements of the part
are lists, one for each rank; arrays over quadrature points are functions of the point. Not modelled: `a_test`, which is for debugging, and
that an exception on one rank leaves the others waiting.
-/

namespace Phyem.Integrals

/-- A reconstructed form, `f.reconstruct(*quad_nodes, ravel=True)[1]`: the number of components, and the value of a component in an element at a
point. -/
structure Rec where
  comps : ℕ
  val : ℕ → ℕ → ℕ → ℚ

/-- Sum over the elements of all ranks: a list for each rank is summed, and `COMM.allgather` or `allreduce` adds the sums
(`compute.py:75-111`, `222-232`). -/
def sumRanks (f : ℕ → Option ℚ) (ranks : List (List ℕ)) : Option ℚ := do
  let sums ← ranks.mapM fun es => do
    let l ← es.mapM f
    pure l.sum
  pure sums.sum

/-- `np.sum(… * qw_ravel * detJ)` over `n` points. -/
def npSum (n : ℕ) (g : ℕ → ℚ) : ℚ := ((List.range n).map g).sum

/-- The number of one element (`compute.py:77-107`): `d` is the dimension. -/
def aElem (d n : ℕ) (qw : ℕ → ℚ) (detJ : ℕ → ℕ → ℚ) (A B C : Rec) (e : ℕ) : Option ℚ :=
  if (d, A.comps, B.comps, C.comps) = (3, 3, 3, 3) then
    some (npSum n fun l =>
      ((A.val 1 e l * B.val 2 e l - A.val 2 e l * B.val 1 e l) * C.val 0 e l + (A.val 2 e l * B.val 0 e l - A.val 0 e l * B.val 2 e l) * C.val 1 e l +
        (A.val 0 e l * B.val 1 e l - A.val 1 e l * B.val 0 e l) * C.val 2 e l) * qw l * detJ e l)
  else if (d, A.comps, B.comps, C.comps) = (2, 1, 2, 2) then
    some (npSum n fun l => (-A.val 0 e l * B.val 1 e l * C.val 0 e l + A.val 0 e l * B.val 0 e l * C.val 1 e l) * qw l * detJ e l)
  else none

/-- `elements.compute.a(A, B, C)` (`compute.py:22-111`), after the forms and their degrees are accepted. -/
def a (d n : ℕ) (qw : ℕ → ℚ) (detJ : ℕ → ℕ → ℚ) (A B C : Rec) (ranks : List (List ℕ)) : Option ℚ :=
  if d = 2 ∨ d = 3 then sumRanks (aElem d n qw detJ A B C) ranks else none

/-- The geometry of an element in the plane: `ct.mapping` and `ct.Jacobian`. -/
structure Geo where
  map : ℚ → ℚ → ℚ × ℚ
  jac : ℚ → ℚ → ℚ

/-- `np.einsum('ij, i, j ->', value * detJ, *quad_weights)` (`compute.py:223-229`) with nodes and weights `q`. -/
def intElem (q : List (ℚ × ℚ)) (f : ℚ → ℚ → ℚ) (g : Geo) : ℚ :=
  (q.map fun i => (q.map fun j => f (g.map i.1 j.1).1 (g.map i.1 j.1).2 * g.jac i.1 j.1 * i.2 * j.2).sum).sum

/-- `elements.compute.integrate(obj, quad_degree, t=t)` (`compute.py:195-237`) for a function of time and the plane. In space the function is called
with three coordinates, which it does not accept. -/
def integrate (d : ℕ) (q : List (ℚ × ℚ)) (geo : ℕ → Geo) (f : ℚ → ℚ → ℚ → ℚ) (t : Option ℚ) (ranks : List (List ℕ)) : Option ℚ :=
  match t with
  | none => none
  | some t =>
    if d = 2 then sumRanks (fun e => some (intElem q (f t) (geo e))) ranks
    else if d = 3 then sumRanks (fun _ => none) ranks
    else none

/-! ### CFL numbers -/

/-- `max` of a list; of an empty one an exception. -/
def pyMax : List ℚ → Option ℚ
  | [] => none
  | x :: l => some (l.foldl max x)

/-- `np.linspace(-1, 1, density)` and the middles of its intervals (`cfl.py:76-77`, `140-141`). -/
def middles (density : ℕ) : List ℚ :=
  let x : ℕ → ℚ := fun i => -1 + 2 * (i : ℚ) / (density - 1 : ℕ)
  (List.range (density - 1)).map fun i => (x (i + 1) + x i) / 2

/-- The density (`cfl.py:68-74`, `131-137`): `int(33 * ddf)` between 17 and 99. -/
def density (ddf : ℚ) : ℕ :=
  let k := (⌊33 * ddf⌋).toNat
  if k < 17 then 17 else if k > 99 then 99 else k

/-- The CFL number of an orthogonal rectangle (`cfl.py:86-95`, `153-162`) with sides `hx`, `hy` and the values of the components at the points. -/
def cfl (U V : List ℚ) (hx hy dt : ℚ) : Option ℚ := do
  let u ← pyMax (U.map fun x => |x|)
  let v ← pyMax (V.map fun x => |x|)
  pure (max (u * dt / hx) (v * dt / hy))

/-- The values at the grid of the middles, in an element where the components are `u` and `v` (functions of the reference coordinates). -/
def sample (ddf : ℚ) (u : ℚ → ℚ → ℚ) : List ℚ :=
  (middles (density ddf)).flatMap fun y => (middles (density ddf)).map fun x => u x y

/-- What is known of an element of the form: its type, sides, and components. -/
structure Elem where
  rectangle : Bool
  hx : ℚ
  hy : ℚ
  u : ℚ → ℚ → ℚ
  v : ℚ → ℚ → ℚ

/-- `element_cfl_dict` on one rank (`cfl.py:82-100`). -/
def cflDict (es : Dict ℕ Elem) (dt : ℚ) : Option (Dict ℕ ℚ) :=
  es.mapM fun p => if p.2.rectangle then (cfl (sample 1 p.2.u) (sample 1 p.2.v) p.2.hx p.2.hy dt).map fun c => (p.1, c) else none

/-- `_merge_dict_` (`cfl.py:13-23`), on the master rank. -/
def merge {V : Type} (ds : List (Dict ℕ V)) : Dict ℕ V := ds.foldl (fun acc d => d.foldl (fun acc p => Dict.put acc p.1 p.2) acc) []

/-- `elements.cfl(filename, form, dt)` (`cfl.py:41-119`): the CFL number of each element, for a 1-form on a mesh of the plane. -/
def export_ (d k : ℕ) (ranks : List (Dict ℕ Elem)) (dt : ℚ) : Option (Dict ℕ ℚ) :=
  if d = 2 ∧ k = 1 then (ranks.mapM fun es => cflDict es dt).map merge else none

/-! ### The file with cells -/

/-- The key of a coordinate, `"%.7f" % round(x, 7)` (`orthogonal_rectangle.py:176-186`): the rounded number, and whether it is written with a
minus, which is so for negative numbers that round to zero too. Ties of the rounding go up here. -/
def key1 (x : ℚ) : ℤ × Bool := (⌊x * 10 ^ 7 + 1 / 2⌋, decide (x < 0))

/-- The key of a point. -/
def key (p : ℚ × ℚ) : (ℤ × Bool) × (ℤ × Bool) := (key1 p.1, key1 p.2)

/-- A cell: the corners in the order of the cell type, `(-1, -1)`, `(1, -1)`, `(-1, 1)`, `(1, 1)` (`orthogonal_rectangle.py:178-188`), and the number. -/
structure Cell where
  corners : List (ℚ × ℚ)
  cfl : ℚ

/-- The points of the cells, by their keys (`cfl.py:147`, `164-169`, `175-189`): later points replace earlier ones with the same key. -/
def points (ranks : List (List Cell)) : Dict ((ℤ × Bool) × (ℤ × Bool)) (ℚ × ℚ) :=
  (ranks.map fun cs => cs.foldl (fun acc c => c.corners.foldl (fun acc p => Dict.put acc (key p) p) acc) []).foldl
    (fun acc d => d.foldl (fun acc p => Dict.put acc p.1 p.2) acc) []

/-- What is written: coordinates of the points, connections, offsets and the numbers (`cfl.py:174-227`). -/
structure File where
  xy : List (ℚ × ℚ)
  connections : List ℕ
  offsets : List ℕ
  cfl : List ℚ

/-- The loop over the cells with `offset_current` (`cfl.py:202-216`). -/
def cellsLoop (num : (ℤ × Bool) × (ℤ × Bool) → ℕ) : ℕ → List Cell → List ℕ × List ℕ × List ℚ
  | _, [] => ([], [], [])
  | o, c :: cs =>
    let r := cellsLoop num (o + 4) cs
    (c.corners.map (fun p => num (key p)) ++ r.1, (o + 4) :: r.2.1, c.cfl :: r.2.2)

/-- The file (`cfl.py:174-227`). -/
def vtk (ranks : List (List Cell)) : File :=
  let P := points ranks
  let r := cellsLoop (fun k => (Dict.keys P).idxOf k) 0 ranks.flatten
  ⟨P.map Prod.snd, r.1, r.2.1, r.2.2⟩

end Phyem.Integrals
