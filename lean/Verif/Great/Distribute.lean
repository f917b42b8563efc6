import Mathlib.Data.List.Sort
import Mathlib.Data.Rat.Floor
import Mathlib.Data.List.Basic

/-!
How the elements of a great mesh are given to the ranks (`msehtt/static/mesh/great/main.py`,
`msehtt/static/mesh/great/config/vtu.py`).

The centres of the elements enter only by the distance between two of them, an arbitrary function here; it is rational
(simplification: the code has floating point numbers). The elements are the keys of a dictionary, a list without
repetitions. The scatter of the values of the dictionaries and the checks after it (`main.py:819-848`) are not modelled.
-/

namespace Phyem.Great

/-- `___split___(x, n)` (`config/vtu.py:295-318`), for `n > 0`. -/
def split (x n : ℕ) : List ℕ :=
  if x < n then (List.replicate x 1 ++ List.replicate (n - x) 0).reverse
  else if x % n = 0 then List.replicate n (x / n)
  else (List.range n).map fun i => if n - x % n ≤ i then x / n + 1 else x / n

/-- How many elements each of `size` ranks is meant to get (`main.py:1481-1499`, `config/vtu.py:200-217`): with many
elements half of those of the master rank, rank `0`, go to the others. For `size > 1`. -/
def shares (total size : ℕ) : List ℕ :=
  if total < 4 * size then split total size
  else
    match split total size with
    | [] => []
    | own :: others => own / 2 :: List.zipWith (· + ·) others (split (own - own / 2) (size - 1))

/-- The distance up to which elements are taken (`main.py:1520-1524`), the distances of the remaining ones being
`ds`. -/
def reach (ds : List ℚ) (n : ℕ) : ℚ :=
  match (ds.insertionSort (· ≤ ·))[n]? with
  | some d => d
  | none => ((ds.insertionSort (· ≤ ·)).getLast?).getD 0 + 1

/-- The loop over the ranks (`main.py:1508-1534`, `config/vtu.py:231-256`): what each rank gets and what remains. -/
def naiveLoop (dist : ℕ → ℕ → ℚ) : List ℕ → List ℕ → List (List ℕ) × List ℕ
  | [], remaining => ([], remaining)
  | n :: ns, remaining =>
    match remaining with
    | [] => let r := naiveLoop dist ns []; ([] :: r.1, r.2)
    | e0 :: _ =>
      let taken := remaining.filter fun e => dist e0 e ≤ reach (remaining.map (dist e0)) n
      let r := naiveLoop dist ns (remaining.diff taken)
      (taken :: r.1, r.2)

/-- The ranks without element (`main.py:1538-1543`). -/
def emptyRanks (d : List (List ℕ)) : List ℕ := (List.range d.length).filter fun r => d[r]? = some []

/-- An empty rank gets the last element of the first rank that has more than one (`main.py:1547-1552`). -/
def fill (d : List (List ℕ)) (er : ℕ) : List (List ℕ) :=
  match d.findIdx? fun r => 1 < r.length with
  | none => d
  | some rank =>
    match d[rank]? with
    | none => d
    | some l => (d.set rank l.dropLast).set er (l.getLast?.toList)

/-- `___Naive_element_distribution___` (`main.py:1459-1562`); `none`: an assertion fails. -/
def naive (dist : ℕ → ℕ → ℚ) (size : ℕ) (es : List ℕ) : Option (List (List ℕ)) :=
  if (shares es.length size).sum = es.length then
    let r := naiveLoop dist (shares es.length size) es
    if r.2.length = 0 ∧ r.1.flatten.length = es.length then
      let d := (emptyRanks r.1).foldl fill r.1
      if d.flatten.length = es.length ∧ ∀ l ∈ d, l.length ≠ 0 then some d else none
    else none
  else none

/-- `___master_rank_distribute___` (`config/vtu.py:198-259`); `none`: an assertion fails. -/
def masterDistribute (dist : ℕ → ℕ → ℚ) (size : ℕ) (es : List ℕ) : Option (List (List ℕ)) :=
  if (shares es.length size).sum = es.length then
    let r := naiveLoop dist (shares es.length size) es
    if r.2.length = 0 ∧ r.1.flatten.length = es.length then some r.1 else none
  else none

/-- `np.array_split(range(total), size)` as first and last index plus one (`main.py:791-795`): the first `total % size`
pieces are longer by one. -/
def arraySplit (total size : ℕ) : List (ℕ × ℕ) :=
  (List.range size).map fun r =>
    (r * (total / size) + min r (total % size), (r + 1) * (total / size) + min (r + 1) (total % size))

/-- The loop over piles (`main.py:797-804`) with the numbers of piles the ranks take, in exact arithmetic
(simplification: the code divides floating point numbers). -/
def piles (total numPiles : ℕ) : List ℕ → ℕ → List (ℕ × ℕ)
  | [], _ => []
  | t :: ts, start =>
    let stop := (⌊(start : ℚ) + t * ((total : ℚ) / numPiles)⌋).toNat + 1
    (start, stop) :: piles total numPiles ts stop

/-- `elements_indices[low:upper]`. -/
def slice (es : List ℕ) (x : ℕ × ℕ) : List ℕ := (es.take x.2).drop x.1

/-- What the code does with a distribution whose ranks must not be empty (`main.py:806-807`, `config/vtu.py:142-146`). -/
def nonempty (d : List (List ℕ)) : Option (List (List ℕ)) := if ∀ l ∈ d, 0 < l.length then some d else none

/-- `_distribute_elements_to_ranks` (`main.py:757-815`) on `size` ranks; `structured`: the mesh comes from a msepy
manifold. The result has a list of elements per rank; `none`: an exception. -/
def distribute (structured : Bool) (dist : ℕ → ℕ → ℚ) (size : ℕ) (es : List ℕ) : Option (List (List ℕ)) :=
  if size = 1 then some [es]
  else if es.length < size then none
  else if es.length = size then some (es.map fun e => [e])
  else if structured then
    if es.length ≤ 4 * size then nonempty ((arraySplit es.length size).map (slice es))
    else nonempty ((piles es.length (3 * (size - 1) + 1) (1 :: List.replicate (size - 1) 3) 0).map (slice es))
  else naive dist size es

/-- The redistribution of the cells of a vtu mesh (`config/vtu.py:100-146`) with the check that each rank has an
element. -/
def distributeVtu (dist : ℕ → ℕ → ℚ) (size : ℕ) (es : List ℕ) : Option (List (List ℕ)) :=
  if es.length < size then none
  else if size = 1 then nonempty [es]
  else if size = es.length then nonempty (es.map fun e => [e])
  else (masterDistribute dist size es).bind nonempty

end Phyem.Great
