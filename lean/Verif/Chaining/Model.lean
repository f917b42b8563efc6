import Verif.ArrayCache.Model

/-
Model of chaining, look-up, splitting and merging of gathering matrices:
`msepy/tools/gathering_matrix.py`, `msehtt/tools/gathering_matrix.py` and
`msehtt/tools/vector/static/global_gathered.py`.
-/

namespace Phyem.Chaining

/-! ### msepy -/

/-- `self._gm`: one row per element. -/
abbrev GM := List (List ℕ)

/-- `num_dofs`, msepy/tools/gathering_matrix.py:212-217: `np.max(self._gm) + 1`; numpy raises on an empty array. -/
def numDofs (g : GM) : Option ℕ :=
  if g.flatten = [] then none else some (g.flatten.foldr max 0 + 1)

/-- The lists of numbers of dofs; `none` if one of them raises. -/
def allDofs : List GM → Option (List ℕ)
  | [] => some []
  | g :: gs =>
    match numDofs g, allDofs gs with
    | some n, some ns => some (n :: ns)
    | _, _ => none

/-- Row `e`. -/
def rowOf (g : GM) (e : ℕ) : List ℕ := (g[e]?).getD []

/-- `gm._gm + sum(num_dofs[:i])` for each gathering matrix, and `np.hstack`, restricted to row `e`. -/
def hrow (e : ℕ) : List GM → List ℕ → ℕ → List ℕ
  | g :: gs, n :: ns, off => (rowOf g e).map (· + off) ++ hrow e gs ns (off + n)
  | _, _, _ => []

/-- Chaining method 1, msepy/tools/gathering_matrix.py:89-102, after the checks of lines 35-52; `none` is a failed
assertion or a numpy error. -/
def chain1 (gms : List GM) : Option GM :=
  match gms with
  | [] => none
  | g :: _ =>
    if ∀ h ∈ gms, h.length = g.length then
      (allDofs gms).map fun ns => (List.range g.length).map fun e => hrow e gms ns 0
    else none

/-- State of method 0: `cache[j][n]`, `filters[j]`, `current_number`. -/
structure S0 where
  cache : ℕ → ℕ → ℕ
  filters : ℕ → ℕ
  cur : ℕ

/-- `cache[j][fv] = np.arange(cur, …)`: numpy writes the entries in order. -/
def writeAll (cache : ℕ → ℕ → ℕ) (j : ℕ) : List ℕ → ℕ → ℕ → ℕ → ℕ
  | [], _ => cache
  | n :: fv, v => writeAll (fun j' n' => if j' = j ∧ n' = n then v else cache j' n') j fv (v + 1)

/-- The body of the loops, msepy/tools/gathering_matrix.py:71-77. -/
def step0 (s : S0) (j : ℕ) (row : List ℕ) : S0 :=
  let fv := row.filter fun n => s.filters j ≤ n
  ⟨writeAll s.cache j fv s.cur, fun j' => if j' = j then s.filters j + fv.length else s.filters j', s.cur + fv.length⟩

/-- The loops over elements and gathering matrices, msepy/tools/gathering_matrix.py:69-77. -/
def loop0 (gms : List GM) (N : ℕ) : S0 :=
  (List.range N).foldl (fun s e => gms.zipIdx.foldl (fun s q => step0 s q.2 (rowOf q.1 e)) s)
    ⟨fun _ _ => 1, fun _ => 0, 0⟩

/-- Chaining method 0, msepy/tools/gathering_matrix.py:62-87. -/
def chain0 (gms : List GM) : Option GM :=
  match gms with
  | [] => none
  | g :: _ =>
    if ∀ h ∈ gms, h.length = g.length then
      (allDofs gms).map fun _ => (List.range g.length).map fun e =>
        gms.zipIdx.flatMap fun q => (rowOf q.1 e).map ((loop0 gms g.length).cache q.2)
    else none

/-- Places of a number in a row, from position `l` on: `np.where(row == n)`. -/
def whereRow (e n : ℕ) : List ℕ → ℕ → List (ℕ × ℕ)
  | [], _ => []
  | x :: xs, l => (if x = n then [(e, l)] else []) ++ whereRow e n xs (l + 1)

/-- `np.where(self._gm == n)`: the (element, local index) pairs in C order. -/
def whereGM (g : GM) (n : ℕ) : List (ℕ × ℕ) :=
  g.zipIdx.flatMap fun q => whereRow q.2 n q.1 0

/-- The computed answer, msepy/tools/gathering_matrix.py:307-315, without redundant dofs; `none` is a failed
assertion. -/
def locate (g : GM) (dofs : List ℕ) : Option (Dict ℕ (List (ℕ × ℕ))) :=
  (numDofs g).bind fun n =>
    if ∀ d ∈ dofs, d < n then some (dofs.foldl (fun m d => Dict.put m d (whereGM g d)) []) else none

/-- The array used as key of the cache. -/
def keyArr (dofs : List ℕ) : ArrayCache.Arr := ⟨[dofs.length], dofs.map fun (d : ℕ) => (d : ℚ)⟩

/-- `_find_elements_and_local_indices_of_dofs`, msepy/tools/gathering_matrix.py:271-325, for a list of dofs that
are not negative, with the cache of the gathering matrix (default `maximum=25` of `add_to_ndarray_cache`). -/
def findDofs (g : GM) (s : ArrayCache.S (Dict ℕ (List (ℕ × ℕ)))) (dofs : List ℕ) :
    Option (Dict ℕ (List (ℕ × ℕ))) × ArrayCache.S (Dict ℕ (List (ℕ × ℕ))) :=
  let q := ArrayCache.query s [some (keyArr dofs)] ""
  match q.1 with
  | some v => (some v, q.2)
  | none =>
    match locate g dofs with
    | none => (none, q.2)
    | some v => (some v, (ArrayCache.addTo q.2 [some (keyArr dofs)] v "" 25).2)

/-! ### msehtt -/

/-- A distributed gathering matrix: for each rank the dictionary from elements to numberings. -/
abbrev DGM := List (Dict ℕ (List ℕ))

/-- All numbers. -/
def DGM.nums (g : DGM) : List ℕ := g.flatMap fun d => d.flatMap fun p => p.2

/-- `num_global_dofs`: `max(max_numbering) + 1` over all ranks, with `-1` for none;
msehtt/tools/gathering_matrix.py:176-208. -/
def DGM.num (g : DGM) : ℕ := g.nums.foldr (fun n m => max (n + 1) m) 0

/-- `ALL_GM[i]`: the union of the dictionaries of the ranks, lines 36-42. -/
def DGM.all (g : DGM) : Dict ℕ (List ℕ) := g.foldl (fun d r => r.foldl (fun d p => Dict.put d p.1 p.2) d) []

/-- `ALL_GM[i][e]`. -/
def DGM.at (g : DGM) (e : ℕ) : List ℕ := (Dict.get g.all e).getD []

/-- The keys `(i, num)` of an element in the order of the loops, lines 57-60. -/
def cells (gms : List DGM) (e : ℕ) : List (ℕ × ℕ) :=
  gms.zipIdx.flatMap fun q => (q.1.at e).map fun n => (q.2, n)

/-- `pool_dict`, `current`. -/
structure Pool (κ : Type) where
  dict : Dict κ ℕ
  cur : ℕ

/-- Lines 61-66: number a new key. -/
def visit {κ : Type} [DecidableEq κ] (p : Pool κ) (k : κ) : Pool κ :=
  match Dict.get p.dict k with
  | some _ => p
  | none => ⟨Dict.put p.dict k p.cur, p.cur + 1⟩

/-- Lines 55-67: number the cells of one element, giving its new numbering. -/
def number {κ : Type} [DecidableEq κ] : Pool κ → List κ → List ℕ × Pool κ
  | p, [] => ([], p)
  | p, k :: ks =>
    let p' := visit p k
    let r := number p' ks
    ((Dict.get p'.dict k).getD 0 :: r.1, r.2)

/-- The loop over the elements of a rank. -/
def numberRank {κ : Type} [DecidableEq κ] (cell : ℕ → List κ) : Pool κ → List ℕ → Dict ℕ (List ℕ) × Pool κ
  | p, [] => ([], p)
  | p, e :: es =>
    let r := number p (cell e)
    let t := numberRank cell r.2 es
    ((e, r.1) :: t.1, t.2)

/-- The loop over the ranks. -/
def numberAll {κ : Type} [DecidableEq κ] (cell : ℕ → List κ) : Pool κ → List (List ℕ) → DGM × Pool κ
  | p, [] => ([], p)
  | p, es :: ranks =>
    let r := numberRank cell p es
    let t := numberAll cell r.2 ranks
    (r.1 :: t.1, t.2)

/-- `gm._gm.keys()` on each rank. -/
def DGM.keys (g : DGM) : List (List ℕ) := g.map Dict.keys

/-- `gm._gm.keys() == element_indices` on every rank: equality of sets, lines 77-80. -/
def keysOK (g h : DGM) : Bool :=
  decide (g.length = h.length) &&
    (g.keys.zip h.keys).all fun q => q.1.all (fun e => decide (e ∈ q.2)) && q.2.all fun e => decide (e ∈ q.1)

/-- `___msehtt_gm_chaining___` with method 0, msehtt/tools/gathering_matrix.py:22-88, seen from all ranks at once;
`none` is a failed assertion. -/
def chain (gms : List DGM) : Option DGM :=
  match gms with
  | [] => none
  | [_] => none
  | g :: _ :: _ =>
    if gms.all (keysOK g) then
      let r := numberAll (cells gms) ⟨[], 0⟩ g.keys
      if r.2.cur = (gms.map DGM.num).sum then some r.1 else none
    else none

/-- `vec[gm] = dt` for one element: numpy writes in order. -/
def writeVec (vec : ℕ → ℚ) : List ℕ → List ℚ → ℕ → ℚ
  | n :: ns, v :: vs => writeVec (fun m => if m = n then v else vec m) ns vs
  | _, _ => vec

/-- `MseHttGatheringMatrix.assemble(mode='replace')`, msehtt/tools/gathering_matrix.py:483-505: zeros, then the
data of all elements of all ranks; `none` is the assertion on the lengths. -/
def assemble (g : DGM) (data : ℕ → List ℚ) : Option (List ℚ) :=
  if ∀ d ∈ g, ∀ p ∈ d, p.2.length = (data p.1).length then
    some ((List.range g.num).map (g.foldl (fun vec d => d.foldl (fun vec p => writeVec vec p.2 (data p.1)) vec)
      fun _ => 0))
  else none

/-- `V[gm[e]]`; numbers are inside the vector. -/
def pick (V : List ℚ) (nums : List ℕ) : List ℚ := nums.map fun n => V.getD n 0

/-- `MseHttGatheringMatrix.split`, msehtt/tools/gathering_matrix.py:507-527, for one element: the values cut into
pieces of the numbers of local dofs. -/
def cut : List ℕ → List ℚ → List (List ℚ)
  | [], _ => []
  | n :: ns, vs => vs.take n :: cut ns (vs.drop n)

/-- `MseHttGlobalVectorGathered.split`, msehtt/tools/vector/static/global_gathered.py:49-71, of a vector on the
chain `c` of two or more gathering matrices. -/
def splitVec (gms : List DGM) (c : DGM) (V : List ℚ) : List (Option (List ℚ)) :=
  gms.zipIdx.map fun q => assemble q.1 fun e =>
    (cut (gms.map fun g => (g.at e).length) (pick V (c.at e))).getD q.2 []

/-- `_merge_msehtt_gathered_global_vectors`, msehtt/tools/gathering_matrix.py:547-582; the vectors passed the
checks of their gathering matrices. -/
def mergeVec (gms : List DGM) (c : DGM) (vs : List (List ℚ)) : Option (List ℚ) :=
  assemble c fun e => (gms.zip vs).flatMap fun q => pick q.2 (q.1.at e)

/-! ### Look-ups (msehtt) -/

/-- Caches of one rank. -/
structure FC where
  cache : Dict ℕ (List (ℕ × ℕ))
  key : ℤ
  total : Dict ℕ (List (ℕ × ℕ))

/-- The places of a number on a rank, lines 409-419. -/
def rankPlaces (d : Dict ℕ (List ℕ)) (n : ℕ) : List (ℕ × ℕ) := d.flatMap fun p => whereRow p.1 n p.2 0

/-- The loop of lines 403-425. -/
def findLoop (d : Dict ℕ (List ℕ)) : List ℕ → Dict ℕ (List (ℕ × ℕ)) → Dict ℕ (List (ℕ × ℕ)) →
    Dict ℕ (List (ℕ × ℕ)) × Dict ℕ (List (ℕ × ℕ))
  | [], cache, out => (cache, out)
  | n :: ns, cache, out =>
    match Dict.get cache n with
    | some v => findLoop d ns cache (Dict.put out n v)
    | none => findLoop d ns (Dict.put cache n (rankPlaces d n)) (Dict.put out n (rankPlaces d n))

/-- `find_rank_locations_of_global_dofs` for a sequence of dofs, msehtt/tools/gathering_matrix.py:395-430.  `hash`
is Python's hash of a tuple of integers. -/
def findMany (hash : List ℕ → ℤ) (d : Dict ℕ (List ℕ)) (s : FC) (ns : List ℕ) :
    Dict ℕ (List (ℕ × ℕ)) × FC :=
  if hash ns = s.key then (s.total, s)
  else ((findLoop d ns s.cache []).2, ⟨(findLoop d ns s.cache []).1, hash ns, (findLoop d ns s.cache []).2⟩)

/-- `find_rank_locations_of_global_dofs` for one number, lines 382-394; negative numbers count from the end.
`none`: the number is still negative and the assertion of line 408 fails (or is found in no cache). -/
def findOne (hash : List ℕ → ℤ) (d : Dict ℕ (List ℕ)) (num : ℕ) (s : FC) (n : ℤ) :
    Option (Dict ℕ (List (ℕ × ℕ))) × FC :=
  let m := if n < 0 then n + num else n
  if m < 0 then (none, s)
  else
    match Dict.get s.cache m.toNat with
    | some v => (some [(m.toNat, v)], s)
    | none => (some (findMany hash d s [m.toNat]).1, (findMany hash d s [m.toNat]).2)

/-- `find_representative_location`, msehtt/tools/gathering_matrix.py:432-471: the rank and the element; `none`
where `who_are_in.index(1)` raises. -/
def representative (g : DGM) (n : ℕ) : Option (ℕ × ℕ) :=
  match (g.map fun d => (rankPlaces d n).head?.map Prod.fst).filterMap id with
  | [] => none
  | e :: _ =>
    (g.findIdx? fun d => decide (e ∈ (rankPlaces d n).map Prod.fst)).map fun r => (r, e)

/-- `find_global_numbering_of_ith_composition_local_dof`, msehtt/tools/gathering_matrix.py:310-327: the sum over
the ranks, of which at most one has the element; `none` is an index error on that rank. -/
def numberOfLocal (gms : List DGM) (c : DGM) (i e l : ℕ) : Option ℕ :=
  match c.findIdx? fun d => decide (e ∈ Dict.keys d) with
  | none => some 0
  | some _ => (c.at e)[((gms.take i).map fun g => (g.at e).length).sum + l]?

/-- `find_global_numbering_of_ith_composition_global_dof`, msehtt/tools/gathering_matrix.py:297-308: the pair
`(rank, element)` is used as `(element, local index)`. -/
def numberOfGlobal (gms : List DGM) (c : DGM) (i n : ℕ) : Option ℕ :=
  (gms[i]?).bind fun g => (representative g n).bind fun q => numberOfLocal gms c i q.1 q.2

/-! ### The cache of chains -/

/-- A gathering matrix object: its signature, as the list of the addresses of the root matrices it is made of, and
its content.  The signature of a chain joins the signatures of its parts, so that it does not show how the parts
are nested; msehtt/tools/gathering_matrix.py:97-112. -/
structure Obj where
  sig : List ℕ
  gm : DGM

/-- A root matrix, made from a dictionary, living at address `a`; lines 97-101. -/
def Obj.root (heap : ℕ → DGM) (a : ℕ) : Obj := ⟨[a], heap a⟩

/-- `MseHttGatheringMatrix.__init__` for a list of matrices with the module-level cache,
msehtt/tools/gathering_matrix.py:103-124; `none` is a failed assertion. -/
def makeChain (cache : Dict (List ℕ) DGM) (objs : List Obj) : Option Obj × Dict (List ℕ) DGM :=
  match objs with
  | [] => (none, cache)
  | [o] => (some o, cache)
  | o :: o' :: os =>
    let sig := (o :: o' :: os).flatMap Obj.sig
    match Dict.get cache sig with
    | some c => (some ⟨sig, c⟩, cache)
    | none =>
      match chain ((o :: o' :: os).map Obj.gm) with
      | none => (none, cache)
      | some c => (some ⟨sig, c⟩, Dict.put cache sig c)

/-! ### The augmented system -/

/-- Entry of a sparse matrix given by triplets: scipy sums entries at the same place. -/
def entryAt (t : List (ℕ × ℕ × ℚ)) (r c : ℕ) : ℚ :=
  ((t.filter fun x => decide (x.1 = r ∧ x.2.1 = c)).map fun x => x.2.2).sum

/-- `_new_EndZeroRowCol_with_a_one_`, msehtt/tools/matrix/static/local.py:856-929: the triplets of each rank, with
two more on the master rank. -/
def augment (parts : List (List (ℕ × ℕ × ℚ))) (dep wid place master : ℕ) : List (List (ℕ × ℕ × ℚ)) :=
  parts.zipIdx.map fun q => if q.2 = master then q.1 ++ [(dep, place, 1), (place, wid, 1)] else q.1

/-- The global matrix is the sum of the parts of the ranks. -/
def globalEntry (parts : List (List (ℕ × ℕ × ℚ))) (r c : ℕ) : ℚ := (parts.map fun t => entryAt t r c).sum

/-! ### Equality -/

/-- `np.all(a == b)` of 1d arrays with numpy broadcasting; `none`: the shapes cannot be broadcast and numpy
raises. -/
def npAllEq (a b : List ℕ) : Option Bool :=
  if a.length = b.length then some (decide (a = b))
  else if a.length = 1 then some (b.all fun x => decide (some x = a.head?))
  else if b.length = 1 then some (a.all fun x => decide (some x = b.head?))
  else none

/-- The loop of `MseHttGatheringMatrix.__eq__` on one rank, lines 275-290. -/
def eqLoop (o : Dict ℕ (List ℕ)) : Dict ℕ (List ℕ) → Option Bool
  | [] => some true
  | (e, a) :: d =>
    match Dict.get o e with
    | none => some false
    | some b =>
      match npAllEq a b with
      | none => none
      | some false => some false
      | some true => eqLoop o d

/-- `MseHttGatheringMatrix.__eq__` on one rank, msehtt/tools/gathering_matrix.py:255-295, for different objects
with different signatures. -/
def eqRank (s o : Dict ℕ (List ℕ)) : Option Bool :=
  if s.length = o.length then eqLoop o s else some false

end Phyem.Chaining
