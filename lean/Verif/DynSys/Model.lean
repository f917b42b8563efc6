import Verif.OpCache.Spec
import Mathlib.Algebra.Field.Defs
import Mathlib.Algebra.BigOperators.Group.Finset.Basic

/-!
Model of dynamic linear systems: `MseHttDynamicLinearSystem`
(msehtt/tools/linear_system/dynamic/main.py, array_parser.py, config.py), the parser of root arrays
(msehtt/static/implementation_array_parser.py), dynamic matrices and vectors
(msehtt/tools/matrix/dynamic.py, msehtt/tools/vector/dynamic.py), the operations of static local
matrices and vectors, and essential boundary conditions
(msehtt/tools/linear_system/static/local/customize.py:46-81).

Matrix objects live on a heap, as in `Verif.OpCache`; the data of an object is `OpCache.value`, without
caches (C35 says when caches do not matter).  Strings are replaced by what they stand for: an array of the
abstract system is a component, a factor is a function of the arguments.  Printed texts and time
indicators are left out.  One rank.
-/

namespace Phyem.DynSys

open Phyem OpCache

/-- A local matrix. -/
@[ext]
structure LM (K : Type) where
  rows : ℕ
  cols : ℕ
  ent : ℕ → ℕ → K

/-- A local vector. -/
@[ext]
structure LV (K : Type) where
  len : ℕ
  ent : ℕ → K

section
variable {K : Type} [Field K]

/-- `- M[e]`. -/
def LM.neg (A : LM K) : LM K := ⟨A.rows, A.cols, fun r c => - A.ent r c⟩

/-- `c * M[e]`. -/
def LM.scale (a : K) (A : LM K) : LM K := ⟨A.rows, A.cols, fun r c => a * A.ent r c⟩

/-- `M[e].T`. -/
def LM.T (A : LM K) : LM K := ⟨A.cols, A.rows, fun r c => A.ent c r⟩

/-- `M[e] + N[e]`; scipy refuses different shapes. -/
def LM.add (A B : LM K) : Option (LM K) :=
  if A.rows = B.rows ∧ A.cols = B.cols then some ⟨A.rows, A.cols, fun r c => A.ent r c + B.ent r c⟩
  else none

/-- `M[e] @ N[e]`; scipy refuses shapes that do not fit. -/
def LM.mul (A B : LM K) : Option (LM K) :=
  if A.cols = B.rows then
    some ⟨A.rows, B.cols, fun r c => ∑ k ∈ Finset.range A.cols, A.ent r k * B.ent k c⟩
  else none

/-- `M[e] @ v[e]`. -/
def LM.mulVec (A : LM K) (v : LV K) : Option (LV K) :=
  if A.cols = v.len then some ⟨A.rows, fun r => ∑ k ∈ Finset.range A.cols, A.ent r k * v.ent k⟩
  else none

/-- `- v[e]`. -/
def LV.neg (v : LV K) : LV K := ⟨v.len, fun r => - v.ent r⟩

/-- `c * v[e]`. -/
def LV.scale (a : K) (v : LV K) : LV K := ⟨v.len, fun r => a * v.ent r⟩

/-- `v[e] + u[e]` for vectors of the same length (they have the same gathering matrix). -/
def LV.add (v u : LV K) : Option (LV K) :=
  if v.len = u.len then some ⟨v.len, fun r => v.ent r + u.ent r⟩ else none

end

/-- What a static local matrix is made of: `data`, `cache_key`, `gm_row` and `gm_col`
(msehtt/tools/matrix/static/local.py:21-46).  Gathering matrices are named by numbers. -/
structure MatData (K : Type) where
  data : ℕ → Option (LM K)
  key : ℕ → Key
  row : ℕ
  col : ℕ

/-- What a static local vector is made of (msehtt/tools/vector/static/local.py:102-109). -/
structure VecData (K : Type) where
  data : ℕ → Option (LV K)
  gm : ℕ

/-- One place in the rows of a prescribed dof: element, local row, whether it is the representative
location, and the value. -/
structure Edit (K : Type) where
  elem : ℕ
  row : ℕ
  rep : Bool
  val : K

/-- An implemented root form: its gathering matrix, its base form (itself for a base form), the time at
which it is taken and its cochain then, for given arguments.  Reference:
msehtt/static/form/cochain/main.py:217-244.  The arguments `T` include the cochains of all forms at the
moment of the call: `static_vec` reads them later, we assume that they are not changed in between. -/
structure FormInfo (T τ K : Type) where
  gm : ℕ
  base : ℕ
  time : T → Option τ
  data : T → ℕ → Option (LV K)

/-- Everything outside the linear system: the rank's elements, numbers of local dofs of the gathering
matrices, mass and incidence matrices of the spaces, root forms, places (partial meshes) with the manifold
each is on, the first partial mesh of a manifold (implementation_array_parser.py:333-340), boundary
integrals of a condition against a test form (`bi.with_vc_over_boundary_section`), and the dofs of a form
on a place with the reduced condition (customize.py:61-68). -/
structure World (T τ C K : Type) where
  elems : List ℕ
  size : ℕ → ℕ → ℕ
  mass : ℕ → MatData K
  inc : ℕ → MatData K
  form : ℕ → FormInfo T τ K
  manifold : ℕ → ℕ
  meshOf : ℕ → Option ℕ
  boundary : C → τ → ℕ → ℕ → Option (ℕ → Option (LV K))
  edits : ℕ → C → ℕ → τ → Option (List (Edit K))

/-- The root arrays of array_parser.py:21-176.  `natural f0 f1 time`: the vector of a boundary pairing
`<tr star f0 | tr f1>`; `mat` and `vec`: nonlinear terms, computed from the arguments. -/
inductive Comp (T τ K : Type)
  | mass (k : ℕ)
  | d (k : ℕ)
  | dT (k : ℕ)
  | form (f : ℕ)
  | natural (f0 f1 : ℕ) (time : T → Option τ)
  | mat (g : T → Option (MatData K))
  | vec (g : T → Option (VecData K))

/-- A root array with or without the mark of a transpose. -/
structure Arr (T τ K : Type) where
  comp : Comp T τ K
  tr : Bool

/-- A term of a block of the abstract system; a term without a factor has the factor one
(main.py:86-92). -/
structure Term (T τ K : Type) where
  minus : Bool
  factor : T → Option K
  comps : List (Arr T τ K)

/-- Boundary conditions of a section, src/wf/mp/linear_system_bc.py:18-322. -/
inductive BC
  | essential (i : ℕ)
  | natural (f0 : ℕ)
  | manual

/-- An abstract system with its boundary conditions by section.  The unknowns are root forms. -/
structure Sys (T τ K : Type) where
  A : List (List (List (Term T τ K)))
  x : List ℕ
  b : List (List (Term T τ K))
  bc : Option (List (ℕ × List BC))

/-- A configuration, config.py:31-54; the category is always 1. -/
structure Config (C : Type) where
  essential : Bool
  place : ℕ
  cond : C
  root : ℕ

/-- A static local matrix: its address and its gathering matrices. -/
structure MRef where
  id : ℕ
  row : ℕ
  col : ℕ

/-- `MseHttDynamicLocalMatrix`, msehtt/tools/matrix/dynamic.py:10-41. -/
inductive DM (T K : Type)
  | static (m : MRef)
  | dyn (g : T → Option (MatData K))
  | prod (a b : DM T K)

/-- Dynamic vectors, msehtt/tools/vector/dynamic.py, msehtt/static/form/cochain/vector/dynamic.py and
`_MatMulDynamicLocalVector` of msehtt/tools/matrix/dynamic.py:61-76.  A boundary vector remembers the
section found when it was parsed. -/
inductive DV (T τ K : Type)
  | form (f : ℕ)
  | natural (sec f0 f1 : ℕ) (time : T → Option τ)
  | dyn (g : T → Option (VecData K))
  | mulVec (a : DM T K) (v : DV T τ K)

inductive Dyn (T τ K : Type)
  | mat (a : DM T K)
  | vec (v : DV T τ K)

/-- `DynamicTerm`, main.py:574-637. -/
structure DTerm (T τ K : Type) where
  minus : Bool
  factor : T → Option K
  comp : Dyn T τ K

/-- A dynamic linear system after `apply`: the abstract system (`_ls`, `_bc`), the parsed blocks and the
configurations, main.py:36-51. -/
structure Dls (T τ C K : Type) where
  src : Sys T τ K
  A : List (List (List (DTerm T τ K)))
  b : List (List (DTerm T τ K))
  configs : List (Config C)

/-- All objects of a session: matrices, the cache of mass matrices
(`_setting_['_cache_M_']`, implementation_array_parser.py:27-30) and the systems. -/
structure Sess (T τ C K : Type) where
  heap : List (Op (LM K) × Dict ℕ (LM K))
  cacheM : Dict ℕ ℕ
  systems : List (Dls T τ C K)

/-- Computations with a state that may raise an exception; changes made before the exception stay. -/
def M (σ β : Type) : Type := σ → σ × Option β

namespace M
variable {σ α β : Type}

def pure (b : β) : M σ β := fun s => (s, some b)

def fail : M σ β := fun s => (s, none)

def bind (m : M σ α) (f : α → M σ β) : M σ β := fun s =>
  match (m s).2 with
  | none => ((m s).1, none)
  | some a => f a (m s).1

/-- A value or an exception. -/
def lift : Option β → M σ β
  | some b => pure b
  | none => fail

/-- One after the other. -/
def each (f : α → M σ β) : List α → M σ (List β)
  | [] => pure []
  | a :: l => bind (f a) fun b => bind (each f l) fun bs => pure (b :: bs)

/-- An assertion. -/
def assert (p : Prop) [Decidable p] : M σ Unit := if p then pure () else fail

end M

section
variable {T τ C K : Type} [Field K] [DecidableEq K]

/-- The constructor of a static local matrix. -/
def new (op : Op (LM K)) (row col : ℕ) : M (Sess T τ C K) MRef := fun s =>
  ({ s with heap := s.heap ++ [(op, [])] }, some ⟨s.heap.length, row, col⟩)

/-- A local matrix made from given data. -/
def leaf (d : MatData K) : M (Sess T τ C K) MRef := new (.leaf d.data d.key) d.row d.col

/-- A function of one operand. -/
def on1 (f : LM K → LM K) : List (LM K) → Option (LM K)
  | [a] => some (f a)
  | _ => none

/-- A function of two operands. -/
def on2 (f : LM K → LM K → Option (LM K)) : List (LM K) → Option (LM K)
  | [a, b] => f a b
  | _ => none

/-- `-M`, msehtt/tools/matrix/static/local.py:233-245. -/
def negM (m : MRef) : M (Sess T τ C K) MRef :=
  new (.derived .un [m.id] (on1 LM.neg)) m.row m.col

/-- `c * M`, msehtt/tools/matrix/static/local.py:283-302. -/
def scaleM (c : K) (m : MRef) : M (Sess T τ C K) MRef :=
  new (.derived .un [m.id] (on1 (LM.scale c))) m.row m.col

/-- `M.T`, msehtt/tools/matrix/static/local.py:267-281. -/
def trM (m : MRef) : M (Sess T τ C K) MRef :=
  new (.derived .un [m.id] (on1 LM.T)) m.col m.row

/-- `M + N`, msehtt/tools/matrix/static/local.py:304-329: the gathering matrices of `M`. -/
def addM (m n : MRef) : M (Sess T τ C K) MRef :=
  new (.derived .add [m.id, n.id] (on2 LM.add)) m.row m.col

/-- `M @ N`, msehtt/tools/matrix/static/local.py:342-368. -/
def mulM (m n : MRef) : M (Sess T τ C K) MRef :=
  new (.derived .mul [m.id, n.id] (on2 LM.mul)) m.row n.col

/-! ### Parsing -/

/-- `Parse__M_matrix`, implementation_array_parser.py:182-207. -/
def parseMass (w : World T τ C K) (k : ℕ) : M (Sess T τ C K) MRef := fun s =>
  match s.cacheM.get k with
  | some i => (s, some ⟨i, (w.mass k).row, (w.mass k).col⟩)
  | none =>
    ({ s with heap := s.heap ++ [(.leaf (w.mass k).data (w.mass k).key, [])],
              cacheM := s.cacheM.put k s.heap.length },
      some ⟨s.heap.length, (w.mass k).row, (w.mass k).col⟩)

/-- A natural condition for the form `f0`, implementation_array_parser.py:300-316. -/
def BC.naturalOf (f0 : ℕ) : BC → Bool
  | .natural g => g == f0
  | _ => false

/-- The section of a natural boundary condition, implementation_array_parser.py:295-325.  The `break`
ends the loop over the conditions of one section only: the last section with such a condition is taken. -/
def naturalSection (bc : List (ℕ × List BC)) (f0 : ℕ) : Option ℕ :=
  bc.foldl (fun found sb => if sb.2.any (BC.naturalOf f0) then some sb.1 else found) none

/-- `A.T` if the array is marked as a transpose, array_parser.py:175-178. -/
def mark (tr : Bool) (m : MRef) : M (Sess T τ C K) (Dyn T τ K) :=
  if tr then M.bind (trM m) fun n => M.pure (.mat (.static n)) else M.pure (.mat (.static m))

/-- `msehtt_root_array_parser`, array_parser.py:21-178.  Vectors and dynamic matrices have no transpose. -/
def parseArr (w : World T τ C K) (bc : Option (List (ℕ × List BC))) (a : Arr T τ K) :
    M (Sess T τ C K) (Dyn T τ K) :=
  match a.comp with
  | .form f => if a.tr then M.fail else M.pure (.vec (.form f))
  | .mass k => M.bind (parseMass w k) (mark a.tr)
  | .d k => M.bind (leaf (w.inc k)) (mark a.tr)
  | .dT k => M.bind (leaf (w.inc k)) fun m => M.bind (trM m) (mark a.tr)
  | .natural f0 f1 time =>
    M.bind (M.lift bc) fun l => M.bind (M.lift (naturalSection l f0)) fun sec =>
      M.bind (M.lift (w.meshOf sec)) fun _ =>
        if a.tr then M.fail else M.pure (.vec (.natural sec f0 f1 time))
  | .mat g => if a.tr then M.fail else M.pure (.mat (.dyn g))
  | .vec g => if a.tr then M.fail else M.pure (.vec (.dyn g))

/-- `a @ b` of dynamic objects, msehtt/tools/matrix/dynamic.py:43-58; vectors have no `@`. -/
def matmul : Dyn T τ K → Dyn T τ K → Option (Dyn T τ K)
  | .mat a, .mat b => some (.mat (.prod a b))
  | .mat a, .vec v => some (.vec (.mulVec a v))
  | .vec _, _ => none

/-- `c0 @ c1 @ ...` from the left, main.py:625-632. -/
def matmulAll : List (Dyn T τ K) → Option (Dyn T τ K)
  | [] => none
  | c :: cs => cs.foldl (fun acc d => acc.bind fun a => matmul a d) (some c)

/-- `DynamicTerm.__init__`, main.py:580-643. -/
def parseTerm (w : World T τ C K) (bc : Option (List (ℕ × List BC))) (t : Term T τ K) :
    M (Sess T τ C K) (DTerm T τ K) :=
  M.bind (M.each (parseArr w bc) t.comps) fun cs =>
    M.bind (M.lift (matmulAll cs)) fun c => M.pure ⟨t.minus, t.factor, c⟩

/-- `apply`, main.py:57-132: all terms of `A` row by row and then those of `b`.  The unknowns make no
objects. -/
def apply (w : World T τ C K) (sys : Sys T τ K) : M (Sess T τ C K) Unit :=
  M.bind (M.each (M.each (M.each (parseTerm w sys.bc))) sys.A) fun A =>
    M.bind (M.each (M.each (parseTerm w sys.bc)) sys.b) fun b => fun s =>
      ({ s with systems := s.systems ++ [⟨sys, A, b, []⟩] }, some ())

/-- `config`, config.py:17-54, for the `k`-th system. -/
def config (k : ℕ) (c : Config C) : M (Sess T τ C K) Unit := fun s =>
  ({ s with systems := s.systems.modify k fun d => { d with configs := d.configs ++ [c] } }, some ())

/-! ### Evaluation -/

/-- How the data of a static vector is found when it is read: `realtime` data, msehtt/tools/vector/static/local.py
and matrix/static/local.py:370-385. -/
inductive VT (K : Type)
  | data (d : ℕ → Option (LV K))
  | mulVec (m : ℕ) (v : VT K)
  | neg (v : VT K)
  | scale (c : K) (v : VT K)

/-- A static vector; `cochain` says whether it is a `MseHttStaticCochainVector`.  Its own customisation. -/
structure SV (K : Type) where
  cochain : Bool
  gm : ℕ
  tree : VT K
  cust : Dict ℕ (LV K)

/-- A static block. -/
inductive Stat (K : Type)
  | mat (m : MRef)
  | vec (v : SV K)

/-- `M[e]`. -/
def readM (heap : List (Op (LM K) × Dict ℕ (LM K))) (i e : ℕ) : Option (LM K) := value heap (i + 1) i e

/-- `_get_meta_data` of a vector that is not customised. -/
def VT.read (heap : List (Op (LM K) × Dict ℕ (LM K))) : VT K → ℕ → Option (LV K)
  | .data d, e => d e
  | .mulVec m v, e => (readM heap m e).bind fun A => (v.read heap e).bind fun u => A.mulVec u
  | .neg v, e => (v.read heap e).map LV.neg
  | .scale c v, e => (v.read heap e).map (LV.scale c)

/-- `v[e]`, msehtt/tools/vector/static/local.py:192-198. -/
def SV.read (heap : List (Op (LM K) × Dict ℕ (LM K))) (v : SV K) (e : ℕ) : Option (LV K) :=
  match v.cust.get e with
  | some u => some u
  | none => v.tree.read heap e

/-- Evaluate a dynamic matrix, msehtt/tools/matrix/dynamic.py:26-41. -/
def evalM (t : T) : DM T K → M (Sess T τ C K) MRef
  | .static m => M.pure m
  | .dyn g => M.bind (M.lift (g t)) leaf
  | .prod a b => M.bind (evalM t a) fun m => M.bind (evalM t b) fun n => mulM m n

/-- The latest natural condition for a form on a place, implementation_array_parser.py:371-388. -/
def findNatural (configs : List (Config C)) (place f0 : ℕ) : Option (Config C) :=
  configs.reverse.find? fun c => !c.essential && c.place == place && c.root == f0

/-- Evaluate a dynamic vector: msehtt/tools/vector/dynamic.py:20-26, form/cochain/main.py:231-234,
implementation_array_parser.py:366-418 and msehtt/tools/matrix/dynamic.py:70-76.  The form of a natural
condition is compared by its base form. -/
def evalV (w : World T τ C K) (configs : List (Config C)) (t : T) :
    DV T τ K → M (Sess T τ C K) (SV K)
  | .form f =>
    M.bind (M.lift ((w.form f).time t)) fun _ =>
      M.pure ⟨true, (w.form f).gm, .data ((w.form f).data t), []⟩
  | .natural sec f0 f1 time =>
    M.bind (M.lift (time t)) fun s => M.bind (M.lift (w.meshOf sec)) fun place =>
      M.bind (M.lift (findNatural configs place (w.form f0).base)) fun c =>
        M.bind (M.lift (w.boundary c.cond s f1 place)) fun d =>
          M.pure ⟨false, (w.form f1).gm, .data d, []⟩
  | .dyn g => M.bind (M.lift (g t)) fun d => M.pure ⟨false, d.gm, .data d.data, []⟩
  | .mulVec a v =>
    M.bind (evalM t a) fun m => M.bind (evalV w configs t v) fun u =>
      M.pure ⟨false, m.row, .mulVec m.id u.tree, []⟩

/-- Sign and factor of a term, main.py:544-555.  The class of a cochain vector cannot be constructed by
`-` and `*` (its constructor takes other arguments). -/
def signed (minus : Bool) (f : K) : Stat K → M (Sess T τ C K) (Stat K)
  | .mat m =>
    if f = 1 then
      if minus then M.bind (negM m) fun n => M.pure (.mat n) else M.pure (.mat m)
    else M.bind (scaleM (if minus then -f else f) m) fun n => M.pure (.mat n)
  | .vec v =>
    if f = 1 then
      if minus then (if v.cochain then M.fail else M.pure (.vec { v with tree := .neg v.tree }))
      else M.pure (.vec v)
    else if v.cochain then M.fail
    else M.pure (.vec { v with tree := .scale (if minus then -f else f) v.tree })

/-- One term of a block: its factor and its data, main.py:454-458. -/
def evalTerm (w : World T τ C K) (configs : List (Config C)) (t : T) (d : DTerm T τ K) :
    M (Sess T τ C K) (Stat K) :=
  M.bind (M.lift (d.factor t)) fun f =>
    match d.comp with
    | .mat a => M.bind (evalM t a) fun m => signed d.minus f (.mat m)
    | .vec v => M.bind (evalV w configs t v) fun u => signed d.minus f (.vec u)

/-- The eager sum of two vectors, msehtt/tools/vector/static/local.py:244-256. -/
def addV (w : World T τ C K) (heap : List (Op (LM K) × Dict ℕ (LM K))) (v u : SV K) : Option (SV K) :=
  if v.cochain then none
  else if v.gm = u.gm then
    if w.elems.all fun e => (((v.read heap e).bind fun a => (u.read heap e).bind fun b => a.add b)).isSome then
      some ⟨false, v.gm, .data fun e =>
        if e ∈ w.elems then (v.read heap e).bind fun a => (u.read heap e).bind fun b => a.add b else none, []⟩
    else none
  else none

/-- `static += ft`, main.py:560-565. -/
def addS (w : World T τ C K) : Stat K → Stat K → M (Sess T τ C K) (Stat K)
  | .mat m, .mat n => M.bind (addM m n) fun p => M.pure (.mat p)
  | .vec v, .vec u => fun s => (s, (addV w s.heap v u).map .vec)
  | _, _ => M.fail

/-- The sum of the terms from the left. -/
def addAll (w : World T τ C K) : Stat K → List (Stat K) → M (Sess T τ C K) (Stat K)
  | a, [] => M.pure a
  | a, b :: l => M.bind (addS w a b) fun c => addAll w c l

/-- `DynamicBlockEntry.__call__`, main.py:447-571; an empty block is `None`. -/
def evalEntry (w : World T τ C K) (configs : List (Config C)) (t : T) (l : List (DTerm T τ K)) :
    M (Sess T τ C K) (Option (Stat K)) :=
  match l with
  | [] => M.pure none
  | _ => M.bind (M.each (evalTerm w configs t) l) fun fs =>
    match fs with
    | [] => M.fail
    | f :: r => M.bind (addAll w f r) fun a => M.pure (some a)

/-- A block of `A` has to be a matrix, static/local/main.py:61-62. -/
def asMat : Option (Stat K) → Option (Option MRef)
  | none => some none
  | some (.mat m) => some (some m)
  | some (.vec _) => none

/-- An entry of `b` has to be a vector, static/local/main.py:114-116. -/
def asVec : Option (Stat K) → Option (Option (SV K))
  | none => some none
  | some (.vec v) => some (some v)
  | some (.mat _) => none

/-- All of a list of gathering matrices are the same one, static/local/main.py:63-80. -/
def same : List ℕ → Option ℕ
  | [] => none
  | g :: l => if l.all (· == g) then some g else none

/-- All values or none. -/
def seqO {α : Type} : List (Option α) → Option (List α)
  | [] => some []
  | a :: l => a.bind fun x => (seqO l).map (x :: ·)

/-- The unknown `x[j]`: the form and the time. -/
structure Unknown (τ : Type) where
  form : ℕ
  time : τ

/-- An evaluated system. -/
structure SLS (τ K : Type) where
  A : List (List MRef)
  x : List (Unknown τ)
  b : List (SV K)

/-- The gathering matrices of the rows and columns and their checks, static/local/main.py:48-124. -/
def gms (A : List (List (Option MRef))) (x : List ℕ) (b : List (Option (SV K))) :
    Option (List ℕ × List ℕ) :=
  (seqO (A.map fun row => same ((row.filterMap id).map MRef.row))).bind fun rows =>
    (seqO ((List.range x.length).map fun j => same ((A.filterMap fun row => (row[j]?).join).map MRef.col))).bind
      fun cols =>
      if b.length = A.length ∧ (∀ row ∈ A, row.length = x.length) ∧ x = cols ∧
          (∀ p ∈ b.zip rows, ∀ v ∈ p.1, v.gm = p.2) then some (rows, cols)
      else none

/-- The zero block of a given size, main.py:376-382. -/
def zeroData (w : World T τ C K) (row col : ℕ) : MatData K :=
  ⟨fun e => some ⟨w.size row e, w.size col e, fun _ _ => 0⟩, fun _ => ['z'], row, col⟩

/-- The zero vector, main.py:386-388. -/
def zeroVec (w : World T τ C K) (gm : ℕ) : SV K :=
  ⟨false, gm, .data fun e => some ⟨w.size gm e, fun _ => 0⟩, []⟩

/-- Replace empty blocks by zeros, main.py:371-390. -/
def fill (w : World T τ C K) (row col : ℕ) : Option MRef → M (Sess T τ C K) MRef
  | some m => M.pure m
  | none => leaf (zeroData w row col)

/-- A row without its empty blocks. -/
def fillRow (w : World T τ C K) (cols : List ℕ) (p : List (Option MRef) × ℕ) :
    M (Sess T τ C K) (List MRef) :=
  M.each (fun q : Option MRef × ℕ => fill w p.2 q.2 q.1) (p.1.zip cols)

/-- `_get_raw_Axb`, main.py:297-395. -/
def evalRaw (w : World T τ C K) (d : Dls T τ C K) (t : T) : M (Sess T τ C K) (SLS τ K) :=
  M.bind (M.each (M.each fun l => M.bind (evalEntry w d.configs t l) fun a => M.lift (asMat a)) d.A) fun A =>
  M.bind (M.each (fun f => M.bind (M.lift ((w.form f).time t)) fun s => M.pure (⟨f, s⟩ : Unknown τ)) d.src.x)
    fun x =>
  M.bind (M.each (fun l => M.bind (evalEntry w d.configs t l) fun a => M.lift (asVec a)) d.b) fun b =>
  M.bind (M.lift (gms A (d.src.x.map fun f => (w.form f).gm) b)) fun g =>
  M.bind (M.each (fillRow w g.2) (A.zip g.1)) fun A' =>
    M.pure ⟨A', x, (b.zip g.1).map fun q => q.1.getD (zeroVec w q.2)⟩

/-! ### Essential boundary conditions -/

/-- `M[r, :] = 0`, and `M[r, r] = 1` at the representative location for the diagonal block,
msehtt/tools/matrix/static/local.py:429-510. -/
def editRow (diag : Bool) (ed : Edit K) (A : LM K) : LM K :=
  ⟨A.rows, A.cols, fun r c =>
    if r = ed.row then (if diag && ed.rep && decide (c = r) then 1 else 0) else A.ent r c⟩

/-- The value at the representative location and zero elsewhere,
msehtt/tools/vector/static/local.py:301-355. -/
def editVal (ed : Edit K) (v : LV K) : LV K :=
  ⟨v.len, fun r => if r = ed.row then (if ed.rep then ed.val else 0) else v.ent r⟩

/-- Store a customised local matrix. -/
def customise (i e : ℕ) (A : LM K) : M (Sess T τ C K) Unit := fun s =>
  ({ s with heap := s.heap.modify i fun o => (o.1, o.2.put e A) }, some ())

/-- One edit of one matrix object. -/
def editM (i : ℕ) (diag : Bool) (ed : Edit K) : M (Sess T τ C K) Unit := fun s =>
  match readM s.heap i ed.elem with
  | none => (s, none)
  | some A => customise i ed.elem (editRow diag ed A) s

/-- One edit of a vector. -/
def editV (heap : List (Op (LM K) × Dict ℕ (LM K))) (v : SV K) (ed : Edit K) : Option (SV K) :=
  (v.read heap ed.elem).map fun u => { v with cust := v.cust.put ed.elem (editVal ed u) }

/-- `set_values`. -/
def editVs (heap : List (Op (LM K) × Dict ℕ (LM K))) (v : SV K) : List (Edit K) → Option (SV K)
  | [] => some v
  | ed :: l => (editV heap v ed).bind fun u => editVs heap u l

/-- `apply_essential_bc`, customize.py:46-81, given the dofs and values. -/
def applyEdits (i : ℕ) (l : List (Edit K)) (S : SLS τ K) : M (Sess T τ C K) (SLS τ K) :=
  M.bind (M.lift S.A[i]?) fun row =>
  M.bind (M.lift S.b[i]?) fun v =>
  M.bind (M.each (fun q : MRef × ℕ => M.each (editM q.1.id (q.2 == i)) l) row.zipIdx) fun _ => fun s =>
    (s, (editVs s.heap v l).map fun u => { S with b := S.b.set i u })

/-- The latest essential condition on a section for a base form, main.py:262-284. -/
def findEssential (w : World T τ C K) (configs : List (Config C)) (sec base : ℕ) : Option (Config C) :=
  configs.reverse.find? fun c => c.essential && w.manifold c.place == sec && c.root == base

/-- One boundary condition, main.py:257-297. -/
def applyBC (w : World T τ C K) (configs : List (Config C)) (sec : ℕ) (S : SLS τ K) :
    BC → M (Sess T τ C K) (SLS τ K)
  | .essential i =>
    M.bind (M.lift S.x[i]?) fun u =>
    M.bind (M.lift (findEssential w configs sec (w.form u.form).base)) fun c =>
    M.bind (M.lift (w.edits c.place c.cond u.form u.time)) fun l => applyEdits i l S
  | .natural _ => M.pure S
  | .manual => M.pure S

/-- The conditions with their sections in order. -/
def flat (bc : List (ℕ × List BC)) : List (ℕ × BC) := bc.flatMap fun p => p.2.map fun c => (p.1, c)

/-- All boundary conditions, main.py:250-300. -/
def applyBCs (w : World T τ C K) (configs : List (Config C)) :
    SLS τ K → List (ℕ × BC) → M (Sess T τ C K) (SLS τ K)
  | S, [] => M.pure S
  | S, p :: l => M.bind (applyBC w configs p.1 S p.2) fun S' => applyBCs w configs S' l

/-- `dls(...)`, main.py:231-303. -/
def call (w : World T τ C K) (k : ℕ) (t : T) : M (Sess T τ C K) (SLS τ K) := fun s =>
  match s.systems[k]? with
  | none => (s, none)
  | some d =>
    M.bind (evalRaw w d t) (fun S => applyBCs w d.configs S ((d.src.bc.map flat).getD [])) s

/-- What a user does. -/
inductive UserOp (T τ C K : Type)
  | apply (sys : Sys T τ K)
  | config (k : ℕ) (c : Config C)
  | call (k : ℕ) (t : T)

/-- One operation; exceptions are caught by the user, who goes on. -/
def userStep (w : World T τ C K) (s : Sess T τ C K) : UserOp T τ C K → Sess T τ C K
  | .apply sys => (apply w sys s).1
  | .config k c => (config k c s).1
  | .call k t => (call w k t s).1

/-- The session after a history. -/
def session (w : World T τ C K) (h : List (UserOp T τ C K)) : Sess T τ C K :=
  h.foldl (userStep w) ⟨[], [], []⟩

end

end Phyem.DynSys
