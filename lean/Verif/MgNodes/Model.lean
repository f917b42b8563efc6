import Mathlib.Algebra.Order.Field.Rat
import Mathlib.Algebra.Order.AbsoluteValue.Basic
import Mathlib.Algebra.BigOperators.Group.List.Basic

/-!
# Nodes of the levels of a uniform multigrid

Model of `msehtt/static/mesh/great/elements/types/degree_parsers/uniform_multigrid.py`. Floats are rationals; an exception is `none`. The Lobatto
nodes of the finest level are an argument, and so is the number `N` read from the string `MG-N…`.
-/

namespace Phyem.MgNodes

/-- `ratio` (`uniform_multigrid.py:70-75`): the numbers from one to `m`, the last one halved for an odd `N`, over their sum. -/
def ratio (m : ℕ) (half : Bool) : List ℚ :=
  let r : List ℚ := (List.range m).map fun i : ℕ => (i : ℚ) + 1
  let r := if half then r.dropLast ++ [(m : ℚ) / 2] else r
  r.map fun a => a / r.sum

/-- `check_nodes.append(check_nodes[-1] + 2 * r)` for all ratios (`uniform_multigrid.py:76-80`), the first one left out. -/
def cumulate : ℚ → List ℚ → List ℚ
  | _, [] => []
  | a, r :: l => (a + 2 * r) :: cumulate (a + 2 * r) l

/-- `check_nodes[1:-1]` (`uniform_multigrid.py:76-81`). -/
def checks (m : ℕ) (half : Bool) : List ℚ := (cumulate (-1) (ratio m half)).dropLast

/-- The loop over the base nodes (`uniform_multigrid.py:82-92`): the first node beyond the current check node gives the node before it, and the
next check node is the current one. `p` is the node before, `base_nodes[i-1]`. -/
def pick : ℚ → List ℚ → List ℚ → List ℚ
  | _, [], _ => []
  | _, _ :: _, [] => []
  | p, c :: cs, b :: bs => if b > c then p :: pick b cs bs else pick b (c :: cs) bs

/-- `split_into_parts_according_to_distribution(base_nodes, num_parts, half_last)` (`uniform_multigrid.py:68-94`): `base_nodes[-1]` is the last
node, and without check nodes the first access fails. -/
def splitParts (base : List ℚ) (m : ℕ) (half : Bool) : Option (List ℚ) :=
  match base.getLast?, checks m half with
  | some p, c :: cs => some (((-1) :: (pick p (c :: cs) base ++ [1])).map fun a => (a + 1) / 2 - 1)
  | _, _ => none

/-- The nodes of the two elements of the next level, in the element that is refined (`uniform_multigrid.py:57-60`). -/
def children (base : List ℚ) : List ℚ :=
  let b := base.map fun a => (a + 1) / 2
  (b.map fun a => a - 1) ++ b.tail

/-- One level (`uniform_multigrid.py:44-63`), with its assertions. -/
def coarse (N : ℕ) (base : List ℚ) : Option (List ℚ) :=
  if base.head? = some (-1) ∧ base.getLast? = some 1 then
    let nodes :=
      if N % 2 = 0 then (splitParts base (N / 2) false).map fun n => n ++ n.dropLast.reverse.map fun a => -a
      else (splitParts base (N / 2 + 1) true).map fun n => n.dropLast ++ (n.dropLast.map fun a => -a).reverse
    nodes.bind fun n => if n.all fun a => (children base).any fun b => decide (|b - a| < 1 / 10 ^ 12) then some n else none
  else none

/-- The nodes `t` levels below the finest one. -/
def below (N : ℕ) (fine : List ℚ) : ℕ → Option (List ℚ)
  | 0 => some fine
  | t + 1 => (below N fine t).bind (coarse N)

/-- `___parse_uniform_multigrid_degree___` (`uniform_multigrid.py:8-65`) with `MG-N…`, refinement by two, `lvl` and `max_levels`. A level that is
not there is a recursion without end. -/
def parse (N : ℤ) (rff : ℤ) (fine : List ℚ) (lvl maxLevels : ℕ) : Option (ℕ × List ℚ) :=
  if rff = 2 ∧ N ≥ 3 ∧ lvl < maxLevels then (below N.toNat fine (maxLevels - 1 - lvl)).map fun n => (N.toNat, n) else none

end Phyem.MgNodes
