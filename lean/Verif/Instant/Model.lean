import Verif.Chaining.Model

/-!
# The cochain of a form at one time

Model of `MseHttTimeInstantCochain` (`/repo/msehtt/static/form/cochain/instant.py`), seen from all ranks at once. Numbers
are rational. A callable, and a local vector, is the function from elements to the values it gives; a callable that
raises, or that gives other values each time, is left out. An exception on any rank is `none`.
-/

namespace Phyem.Instant

open Phyem Phyem.Chaining

/-- What is kept: a dictionary on each rank (`_ctype = 'dict'`), or something that gives values (`'realtime'` and
`'static-local-vector'`). -/
inductive Src
  | dict (cs : List (Dict ℕ (List ℚ)))
  | call (f : ℕ → List ℚ)

/-- The cochain with its gathering matrix. -/
structure Inst where
  gm : DGM
  src : Src

/-- `e in gm` and `len(v) == gm.num_local_dofs(e)`. -/
def rowOK (d : Dict ℕ (List ℕ)) (p : ℕ × List ℚ) : Bool :=
  match Dict.get d p.1 with
  | some ns => p.2.length == ns.length
  | none => false

/-- The checks of a dictionary on one rank (`instant.py:35-49`). -/
def dictOK (d : Dict ℕ (List ℕ)) (c : Dict ℕ (List ℚ)) : Bool :=
  c.all (rowOK d) && d.all fun p => (Dict.get c p.1).isSome || p.2.length == 0

/-- `h == g` of gathering matrices on all ranks (`msehtt/tools/gathering_matrix.py:255-295`). -/
def eqAll (h g : DGM) : Option Bool := ((h.zip g).mapM fun p => eqRank p.1 p.2).map fun bs => bs.all id

/-- `V[gm[e]]` with numpy's check of the indices. -/
def pickM (V : List ℚ) (ns : List ℕ) : Option (List ℚ) := ns.mapM fun n => V[n]?

/-- For all elements of all ranks, in order: `out[e] = f(e)`. -/
def overAll (g : DGM) (f : ℕ → ℕ × List ℕ → Option (List ℚ)) : Option (List (Dict ℕ (List ℚ))) :=
  g.zipIdx.mapM fun q => q.1.mapM fun p => (f q.2 p).map fun v => (p.1, v)

/-- What can be given for a cochain. -/
inductive Given
  | dict (cs : List (Dict ℕ (List ℚ)))
  | call (f : ℕ → List ℚ)
  | vec (h : DGM) (f : ℕ → List ℚ)
  | gathered (h : Option DGM) (V : List ℚ)
  | other

/-- `_receive` (`instant.py:33-70`). -/
def receive (g : DGM) : Given → Option Inst
  | .dict cs => if cs.length = g.length ∧ (g.zip cs).all (fun q => dictOK q.1 q.2) then some ⟨g, .dict cs⟩ else none
  | .call f => some ⟨g, .call f⟩
  | .vec h f => if eqAll h g = some true then some ⟨g, .call f⟩ else none
  | .gathered none _ => none
  | .gathered (some h) V =>
    if eqAll h g = some true then (overAll g fun _ p => pickM V p.2).map fun cs => ⟨g, .dict cs⟩ else none
  | .other => none

/-- `__getitem__` on rank `r` (`instant.py:72-89`). -/
def Inst.item (I : Inst) (r e : ℕ) : Option (List ℚ) :=
  I.gm[r]?.bind fun d =>
    if e ∈ Dict.keys d then
      some (match I.src with
        | .dict cs => (cs[r]?.bind fun c => Dict.get c e).getD []
        | .call f => f e)
    else none

/-- The values of an element, from the rank that has it. -/
def Inst.data (I : Inst) (e : ℕ) : List ℚ :=
  ((List.range I.gm.length).findSome? fun r => I.item r e).getD []

/-- `gathered_global_vector` (`instant.py:297-307`): the same on all ranks. -/
def Inst.gathered (I : Inst) : Option (List ℚ) := assemble I.gm I.data

/-- `homogenous()` (`instant.py:284-295`). -/
def Inst.homogenous (I : Inst) : Option Inst :=
  (assemble I.gm I.data).bind fun V => (overAll I.gm fun _ p => pickM V p.2).bind fun cs => receive I.gm (.dict cs)

/-- `np.testing.assert_almost_equal` of two numbers with seven decimals. -/
def almost (a b : ℚ) : Bool := decide (|b - a| < 3 / 20000000)

/-- `of_dof` (`instant.py:150-175`). `tabs` is what the gathering matrix finds on each rank
(`find_rank_locations_of_global_dofs`), of which the entry of the first key is taken. -/
def Inst.ofPlaces (I : Inst) (tabs : List (Dict ℕ (List (ℕ × ℕ)))) : Option ℚ :=
  (tabs.zipIdx.mapM fun (q : Dict ℕ (List (ℕ × ℕ)) × ℕ) => q.1.head?.bind fun kv => kv.2.mapM fun (x : ℕ × ℕ) => (I.item q.2 x.1).bind fun v => v[x.2]?).bind
    fun ls =>
      match ls.flatten with
      | [] => none
      | c :: cs => if cs.all fun x => almost x c then some c else none

/-- `v[l]` of an array, with negative indices. -/
def npAt (v : List ℚ) (l : ℤ) : Option ℚ :=
  if 0 ≤ l then v[l.toNat]? else if 0 ≤ l + v.length then v[(l + v.length).toNat]? else none

/-- `of_local_dof` (`instant.py:177-195`). -/
def Inst.ofLocal (I : Inst) (e : ℕ) (l : ℤ) : Option ℚ :=
  (I.gm.zipIdx.mapM fun (q : Dict ℕ (List ℕ) × ℕ) =>
    if e ∈ Dict.keys q.1 then ((I.item q.2 e).bind fun v => npAt v l).map some else some none).bind fun ls =>
      ls.findSome? id

/-- `_merge_to` on the rank that gets everything (`instant.py:197-210`). -/
def Inst.merge (I : Inst) : Dict ℕ (List ℚ) :=
  I.gm.zipIdx.foldl (fun D q => q.1.foldl (fun D p => Dict.put D p.1 ((I.item q.2 p.1).getD [])) D) []

/-! ### Arithmetic -/

/-- `a + b` of 1d arrays in numpy: an array of one number is stretched. -/
def npOp (op : ℚ → ℚ → ℚ) (a b : List ℚ) : Option (List ℚ) :=
  if a.length = b.length then some (List.zipWith op a b)
  else
    match a, b with
    | [x], b => some (b.map fun y => op x y)
    | a, [y] => some (a.map fun x => op x y)
    | _, _ => none

/-- The checks of a new `MseHttStaticLocalVector` from a dictionary with all elements
(`msehtt/tools/vector/static/local.py:129-150`). -/
def newVec (g : DGM) (cs : List (Dict ℕ (List ℚ))) : Option (List (Dict ℕ (List ℚ))) :=
  if (g.zip cs).all fun q => q.2.all (rowOK q.1) then some cs else none

/-- What can be added. -/
inductive Operand
  | inst (J : Inst)
  | vec (h : DGM) (f : ℕ → List ℚ)
  | cvec (h : DGM) (f : ℕ → List ℚ)
  | gathered (h : Option DGM) (V : List ℚ)

/-- `other[e]` on rank `r`; all of them ask whether the element is there. -/
def Operand.item : Operand → ℕ → ℕ → Option (List ℚ)
  | .inst J, r, e => J.item r e
  | .vec h f, r, e => (Inst.mk h (.call f)).item r e
  | .cvec h f, r, e => (Inst.mk h (.call f)).item r e
  | .gathered _ _, _, _ => none

/-- `data_dict[e] = self[e] + other[e]` for all elements. -/
def Inst.combine (op : ℚ → ℚ → ℚ) (I : Inst) (o : Operand) : Option (List (Dict ℕ (List ℚ))) :=
  overAll I.gm fun r p => (I.item r p.1).bind fun a => (o.item r p.1).bind fun b => npOp op a b

/-- `self + other` (`instant.py:212-234`): only for cochain vectors the gathering matrices are compared. -/
def Inst.add (I : Inst) : Operand → Option (List (Dict ℕ (List ℚ)))
  | .cvec h f => if eqAll h I.gm = some true then (I.combine (· + ·) (.cvec h f)).bind (newVec I.gm) else none
  | .inst J => (I.combine (· + ·) (.inst J)).bind (newVec I.gm)
  | .vec h f => (I.combine (· + ·) (.vec h f)).bind (newVec I.gm)
  | .gathered _ _ => none

/-- `self - other` (`instant.py:264-272`). -/
def Inst.sub (I : Inst) : Operand → Option (List (Dict ℕ (List ℚ)))
  | .inst J => (I.combine (· - ·) (.inst J)).bind (newVec I.gm)
  | _ => none

/-- `c * self` (`instant.py:274-282`). -/
def Inst.scale (c : ℚ) (I : Inst) : Option (List (Dict ℕ (List ℚ))) :=
  (overAll I.gm fun r p => (I.item r p.1).map fun v => v.map fun x => c * x).bind (newVec I.gm)

/-- `self += other` (`instant.py:236-262`): the cochain afterwards. -/
def Inst.iadd (I : Inst) : Operand → Option Inst
  | .cvec h f =>
    if eqAll h I.gm = some true then (I.combine (· + ·) (.cvec h f)).bind fun cs => receive I.gm (.dict cs) else none
  | .gathered h V =>
    if (match h with
      | none => decide (V.length = I.gm.num)
      | some h => eqAll h I.gm == some true)
    then
      (overAll I.gm fun r p => (I.item r p.1).bind fun a => (pickM V p.2).bind fun b => npOp (· + ·) a b).bind fun cs =>
        receive I.gm (.dict cs)
    else none
  | _ => none

/-! ### Components -/

/-- `num_local_dofs__Lambda__m2n2k1_inner` and `…_outer` on rectangles
(`msehtt/static/space/num_local_dofs/Lambda/num_local_dofs_m2n2k1.py:17-29, 43-55`): both give the same numbers. -/
def numComponents (px py : ℕ) : List ℕ := [px * (py + 1), (px + 1) * py]

/-- `components` (`instant.py:104-123`) of the values of an element: consecutive pieces. -/
def components (px py : ℕ) (c : List ℚ) : List (List ℚ) := cut (numComponents px py) c

end Phyem.Instant
