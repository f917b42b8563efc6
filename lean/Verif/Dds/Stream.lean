import Mathlib.Algebra.Order.Floor.Semiring
import Mathlib.Data.Rat.Floor

/-!
# Stream functions of vectors that are given at points, region by region

Model of `streamfunction` and its helpers (`/repo/tools/dds/region_wise_structured.py:684-1025`) for vectors in the plane.
Numbers are rational. The array that is made with `np.ones_like(x)` has the type of the coordinates: `st` is what
happens when a number is put into it (nothing for floats, cutting off for integers). Regions are given in the order of
their sorted keys (lines 715-716); an exception is `none`.
-/

namespace Phyem.Dds

/-- The data in one region: coordinates and values at `n0` times `n1` points. -/
structure Reg where
  key : ℕ
  n0 : ℕ
  n1 : ℕ
  x : ℕ → ℕ → ℚ
  y : ℕ → ℕ → ℚ
  u : ℕ → ℕ → ℚ
  v : ℕ → ℕ → ℚ

/-- `sf[i, j] = a` -/
def put (sf : ℕ → ℕ → ℚ) (i j : ℕ) (a : ℚ) : ℕ → ℕ → ℚ := fun k l => if k = i ∧ l = j then a else sf k l

/-- The body of every loop (for example `region_wise_structured.py:822-843`): from the point `a` to the point `b`. -/
def go (st : ℚ → ℚ) (r : Reg) (sf : ℕ → ℕ → ℚ) (a b : ℕ × ℕ) : ℕ → ℕ → ℚ :=
  let dx := r.x b.1 b.2 - r.x a.1 a.2
  let dy := r.y b.1 b.2 - r.y a.1 a.2
  let mu := (r.u a.1 a.2 + r.u b.1 b.2) / 2
  let mv := (r.v a.1 a.2 + r.v b.1 b.2) / 2
  put sf b.1 b.2 (st (sf a.1 a.2 + mu * dy + - mv * dx))

/-- The corners: `(0, 0)`, `(-1, 0)`, `(0, -1)` and `(-1, -1)`. -/
inductive Corner
  | mm
  | pm
  | mp
  | pp
  deriving DecidableEq

/-- The indices of the point at a corner. -/
def Reg.index (r : Reg) : Corner → ℕ × ℕ
  | .mm => (0, 0)
  | .pm => (r.n0 - 1, 0)
  | .mp => (0, r.n1 - 1)
  | .pp => (r.n0 - 1, r.n1 - 1)

/-- `for i in range(1, n): …` -/
def up (n : ℕ) (f : (ℕ → ℕ → ℚ) → ℕ → ℕ → ℕ → ℚ) (sf : ℕ → ℕ → ℚ) : ℕ → ℕ → ℚ := (List.range' 1 (n - 1)).foldl f sf

/-- `for i in range(1, n)[::-1]: …` -/
def down (n : ℕ) (f : (ℕ → ℕ → ℚ) → ℕ → ℕ → ℕ → ℚ) (sf : ℕ → ℕ → ℚ) : ℕ → ℕ → ℚ :=
  (List.range' 1 (n - 1)).reverse.foldl f sf

/-- `region_wise_structured.py:845-889` and again `918-962`: the columns after the first one. -/
def columns (st : ℚ → ℚ) (r : Reg) (sf : ℕ → ℕ → ℚ) : ℕ → ℕ → ℚ :=
  up r.n1 (fun sf j => up r.n0 (fun sf i => go st r sf (i - 1, j) (i, j)) (go st r sf (0, j - 1) (0, j))) sf

/-- From the corner `(0, 0)` (`region_wise_structured.py:820-891`). -/
def fromMM (st : ℚ → ℚ) (r : Reg) (s : ℚ) : ℕ → ℕ → ℚ :=
  columns st r (up r.n0 (fun sf i => go st r sf (i - 1, 0) (i, 0)) (put (fun _ _ => 1) 0 0 (st s)))

/-- From the corner `(-1, 0)` (`region_wise_structured.py:893-964`). -/
def fromPM (st : ℚ → ℚ) (r : Reg) (s : ℚ) : ℕ → ℕ → ℚ :=
  columns st r (down r.n0 (fun sf i => go st r sf (i, 0) (i - 1, 0)) (put (fun _ _ => 1) (r.n0 - 1) 0 (st s)))

/-- From the corner `(0, -1)` (`region_wise_structured.py:966-993`). -/
def fromMP (st : ℚ → ℚ) (r : Reg) (s : ℚ) : ℕ → ℕ → ℚ :=
  fromMM st r (down r.n1 (fun sf j => go st r sf (0, j) (0, j - 1)) (put (fun _ _ => 1) 0 (r.n1 - 1) (st s)) 0 0)

/-- From the corner `(-1, -1)` (`region_wise_structured.py:995-1022`). -/
def fromPP (st : ℚ → ℚ) (r : Reg) (s : ℚ) : ℕ → ℕ → ℚ :=
  fromMP st r (down r.n0 (fun sf i => go st r sf (i, r.n1 - 1) (i - 1, r.n1 - 1))
    (put (fun _ _ => 1) (r.n0 - 1) (r.n1 - 1) (st s)) 0 (r.n1 - 1))

/-- `_compute_sf_in_2d_region_` (`region_wise_structured.py:812-1025`). -/
def compute (st : ℚ → ℚ) (r : Reg) (c : Corner) (s : ℚ) : ℕ → ℕ → ℚ :=
  match c with
  | .mm => fromMM st r s
  | .pm => fromPM st r s
  | .mp => fromMP st r s
  | .pp => fromPP st r s

/-- What `'%.7f' % q` shows: a sign and the number of the seventh decimals, rounded to the nearest, to the even one of two. -/
def fmt (q : ℚ) : Bool × ℕ :=
  let s := |q| * 10000000
  let f := ⌊s⌋₊
  (decide (q < 0),
    if s - f < 1 / 2 then f else if 1 / 2 < s - f then f + 1 else if f % 2 = 0 then f else f + 1)

/-- `'%.7f-%.7f' % (x, y)`; the text tells the two numbers apart. -/
abbrev Key := (Bool × ℕ) × (Bool × ℕ)

@[inherit_doc Key] def keyOf (x y : ℚ) : Key := (fmt x, fmt y)

/-- The key of a corner of a region. -/
def Reg.keyAt (r : Reg) (c : Corner) : Key := keyOf (r.x (r.index c).1 (r.index c).2) (r.y (r.index c).1 (r.index c).2)

/-- The order in which corners are looked for, and written. -/
def corners : List Corner := [.mm, .pm, .mp, .pp]

/-- `_renew_starting_point_2d_` (`region_wise_structured.py:780-799`); `pool` is a dictionary, its newest entries first. -/
def renewStart (pool : List (Key × ℚ)) (r : Reg) : Option (Corner × ℚ) :=
  corners.findSome? fun c => (pool.lookup (r.keyAt c)).map fun s => (c, s)

/-- `corner_pool.update(self._find_corner_xy_sf_(x, y, sf))` (`region_wise_structured.py:745-747, 801-810`). -/
def poolAfter (pool : List (Key × ℚ)) (r : Reg) (sf : ℕ → ℕ → ℚ) : List (Key × ℚ) :=
  corners.foldl (fun p c => (r.keyAt c, sf (r.index c).1 (r.index c).2) :: p) pool

/-- What a pass over the regions changes. -/
structure St where
  pool : List (Key × ℚ)
  sf : List (ℕ × (ℕ → ℕ → ℚ))
  empty : Bool
  full : Bool

/-- One region of a pass (`region_wise_structured.py:721-751`). A region without points has no corners: `IndexError`. -/
def visit (st : ℚ → ℚ) (s : St) (r : Reg) : Option St :=
  if (s.sf.lookup r.key).isSome then some s
  else if s.empty then
    if r.n0 = 0 ∨ r.n1 = 0 then none
    else
      let sf := compute st r .mm 0
      some { s with empty := false, pool := poolAfter s.pool r sf, sf := (r.key, sf) :: s.sf }
  else if r.n0 = 0 ∨ r.n1 = 0 then none
  else
    match renewStart s.pool r with
    | none => some { s with full := false }
    | some (c, a) =>
      let sf := compute st r c a
      some { s with pool := poolAfter s.pool r sf, sf := (r.key, sf) :: s.sf }

/-- The call and the calls it makes until all regions are done (`region_wise_structured.py:718-767`); `fuel` bounds their
number, which is at most the number of regions (`Phyem.Dds.stream_exists`). -/
def passes (st : ℚ → ℚ) (regs : List Reg) : ℕ → St → Option (List (ℕ × (ℕ → ℕ → ℚ)))
  | 0, _ => none
  | fuel + 1, s =>
    (regs.foldlM (visit st) { s with full := true }).bind fun s' =>
      if s'.sf.length > s.sf.length then
        if s'.full then some s'.sf else passes st regs fuel s'
      else none

/-- `streamfunction(shift, starting_coo_and_sf)` (`region_wise_structured.py:684-778`). Numpy refuses to add a shift that is no integer to
integers; that is left out here. -/
def streamfunction (st : ℚ → ℚ) (regs : List Reg) (start : Option ((ℚ × ℚ) × ℚ)) (shift : ℚ) :
    Option (List (ℕ × (ℕ → ℕ → ℚ))) :=
  (passes st regs regs.length
    (match start with
      | none => ⟨[], [], true, true⟩
      | some (p, s) => ⟨[(keyOf p.1 p.2, s)], [], false, true⟩)).map fun l =>
    if shift ≠ 0 then l.map fun p => (p.1, fun i j => st (p.2 i j + shift)) else l

end Phyem.Dds
