import Verif.Base.Dict
import Mathlib.Data.Int.Notation

/-
Model of the abstract function spaces and of the operators on them: `src/spaces/main.py` (`new`),
`src/spaces/base.py`, `src/spaces/continuous/{Lambda,bundle,bundle_diagonal}.py` and
`src/spaces/operators.py`.  A Python exception (failed assertion, `NotImplementedError`) is `none`.
-/

namespace Phyem.Spaces

/-- The three classes of `_implemented_spaces`, src/spaces/main.py:64-74. -/
inductive Kind | lambda | bundle | diagonal
deriving DecidableEq, Repr

/-- The attribute `SpaceBase._orientation`. -/
inductive Ori | inner | outer | unknown
deriving DecidableEq, Repr

/-- The values that can be passed as the argument `orientation`: the accepted strings, `None`, and every
other value (`'unknown'` among them). -/
inductive OArg | inner | outer | i | o | none | noneStr | unknownStr | other
deriving DecidableEq, Repr

/-- An abstract mesh: `name` stands for its `_sym_repr`, `m` is the dimension of the embedding space,
`level` counts how often `boundary()` was taken. -/
structure Mesh where
  name : ℕ
  level : ℕ
  m : ℕ
  ndim : ℕ
  periodic : Bool
deriving DecidableEq, Repr

/-- `Mesh.boundary`, src/mesh.py:161-176 with `Manifold.boundary`, src/manifold.py:171-188.  A `NullMesh` has
no `_sym_repr`, so no space can be built on it: `none`. -/
def Mesh.boundary (x : Mesh) : Option Mesh :=
  if x.ndim = 0 then none
  else if x.periodic then none
  else some ⟨x.name, x.level + 1, x.m, x.ndim - 1, true⟩

/-- A space object. -/
structure Space where
  kind : Kind
  mesh : Mesh
  k : ℤ
  ori : Ori
deriving DecidableEq, Repr

/-- `SpaceBase.__init__`, src/spaces/base.py:29-41. -/
def parseOri : OArg → Option Ori
  | .inner => some .inner
  | .outer => some .outer
  | .i => some .inner
  | .o => some .outer
  | .none => some .unknown
  | .noneStr => some .unknown
  | .unknownStr => none
  | .other => none

/-- `SpaceBase.opposite_orientation`, src/spaces/base.py:65-73. -/
def opp : Ori → Ori
  | .inner => .outer
  | .outer => .inner
  | .unknown => .unknown

/-- `orientation=space.orientation`: the attribute handed back as an argument. -/
def asArg : Ori → OArg
  | .inner => .inner
  | .outer => .outer
  | .unknown => .unknownStr

/-- The symbolic representation of a space on one mesh: a tilde or not, the letter of the class, and the
degree.  src/spaces/continuous/Lambda.py:26-29, bundle.py:16-20, bundle_diagonal.py:15-19. -/
structure Sym where
  kind : Kind
  tilde : Bool
  k : ℤ
deriving DecidableEq, Repr

/-- The tilde is decided by the *argument*, `if orientation == 'outer'`. -/
def mkSym (kind : Kind) (k : ℤ) (o : OArg) : Sym := ⟨kind, decide (o = OArg.outer), k⟩

/-- The assertions on the degree in the three constructors, Lambda.py:23, bundle.py:13,
bundle_diagonal.py:12. -/
def degreeOk (kind : Kind) (n : ℕ) (k : ℤ) : Bool :=
  match kind with
  | .lambda => decide (0 ≤ k ∧ k ≤ n)
  | .bundle => decide (0 ≤ k ∧ k ≤ n)
  | .diagonal => decide (k = 0 ∨ k = n)

/-- `_space_set`: for each mesh a dictionary from symbolic representations to spaces. -/
abbrev Reg := Dict (Mesh × Sym) Space

/-- `new(abbr, k, mesh=mesh, orientation=o)`, src/spaces/main.py:77-139: the space is built, and the one
already registered under its symbolic representation is returned if there is one. -/
def new (r : Reg) (kind : Kind) (k : ℤ) (mesh : Mesh) (o : OArg) : Option (Reg × Space) :=
  match parseOri o with
  | none => none
  | some ori =>
    if degreeOk kind mesh.ndim k then
      match Dict.get r (mesh, mkSym kind k o) with
      | some s => some (r, s)
      | none => some (Dict.put r (mesh, mkSym kind k o) ⟨kind, mesh, k, ori⟩, ⟨kind, mesh, k, ori⟩)
    else none

/-- `operators.wedge`, src/spaces/operators.py:20-61. -/
def wedge (r : Reg) (s t : Space) : Option (Reg × Space) :=
  if s.mesh = t.mesh then
    if s.kind = t.kind ∧ s.kind ≠ .diagonal then
      if s.k + t.k ≤ s.mesh.ndim then
        new r s.kind (s.k + t.k) s.mesh (if s.ori = t.ori then asArg s.ori else .none)
      else none
    else none
  else none

/-- `operators.Hodge`, src/spaces/operators.py:275-286. -/
def hodge (r : Reg) (s : Space) : Option (Reg × Space) :=
  if s.kind ≠ .diagonal then new r s.kind (s.mesh.ndim - s.k) s.mesh (asArg (opp s.ori)) else none

/-- `operators.d`, src/spaces/operators.py:289-300. -/
def d (r : Reg) (s : Space) : Option (Reg × Space) :=
  if s.kind ≠ .diagonal then
    if s.k < s.mesh.ndim then new r s.kind (s.k + 1) s.mesh (asArg s.ori) else none
  else none

/-- `operators.codifferential`, src/spaces/operators.py:303-314. -/
def codifferential (r : Reg) (s : Space) : Option (Reg × Space) :=
  if s.kind ≠ .diagonal then
    if s.k > 0 then new r s.kind (s.k - 1) s.mesh (asArg s.ori) else none
  else none

/-- `operators.trace`, src/spaces/operators.py:406-415. -/
def trace (r : Reg) (s : Space) : Option (Reg × Space) :=
  if s.kind = .lambda then
    if 0 ≤ s.k ∧ s.k < s.mesh.ndim then
      match s.mesh.boundary with
      | none => none
      | some b => new r .lambda s.k b (asArg s.ori)
    else none
  else none

/-- `operators.tensor_product`, src/spaces/operators.py:64-86.  Off two dimensions the code returns `None`
without a space, which is also `none` here. -/
def tensorProduct (r : Reg) (s t : Space) : Option (Reg × Space) :=
  if s.kind = .bundle ∧ t.kind = .bundle ∧ s.mesh = t.mesh ∧ s.mesh.m = 2 ∧ s.mesh.ndim = 2 ∧
      s.k = 0 ∧ t.k = 0 ∧ s.ori = .inner ∧ t.ori = .inner then
    new r .bundle 1 s.mesh .inner
  else none

/-- The table of `operators.cross_product`, src/spaces/operators.py:117-176: dimension, degrees and
orientations of the factors to degree and orientation of the product. -/
def crossTable : ℕ → ℤ → Ori → ℤ → Ori → Option (ℤ × Ori)
  | 2, k1, o1, k2, o2 =>
    if k1 = 0 ∧ k2 = 1 ∧ o1 = .outer ∧ o2 = .inner then some (1, .inner)
    else if k1 = 0 ∧ k2 = 1 ∧ o1 = .outer ∧ o2 = .outer then some (1, .outer)
    else if k1 = 2 ∧ k2 = 1 ∧ o1 = .inner ∧ o2 = .outer then some (1, .outer)
    else if k1 = 1 ∧ k2 = 1 ∧ o1 = .inner ∧ o2 = .inner then some (0, .outer)
    else if k1 = 1 ∧ k2 = 1 ∧ o1 = .outer ∧ o2 = .outer then some (0, .outer)
    else if k1 = 2 ∧ k2 = 1 ∧ o1 = .inner ∧ o2 = .inner then some (1, .inner)
    else if k1 = 1 ∧ k2 = 1 ∧ o1 = .outer ∧ o2 = .inner then some (2, .inner)
    else if k1 = 1 ∧ k2 = 1 ∧ o1 = .inner ∧ o2 = .outer then some (0, .outer)
    else none
  | 3, k1, o1, k2, o2 =>
    if k1 = 1 ∧ k2 = 1 ∧ o1 = .outer ∧ o2 = .inner then some (1, .inner)
    else if k1 = 2 ∧ k2 = 2 ∧ o1 = .inner ∧ o2 = .outer then some (2, .outer)
    else if (k1 = 1 ∧ o1 = .outer) ∧ (k2 = 2 ∧ o2 = .outer) then some (2, .outer)
    else if (k1 = 2 ∧ o1 = .inner) ∧ (k2 = 1 ∧ o2 = .inner) then some (1, .inner)
    else if (k1 = 2 ∧ o1 = .outer) ∧ (k2 = 1 ∧ o2 = .inner) then some (2, .inner)
    else if (k1 = 2 ∧ o1 = .outer) ∧ (k2 = 2 ∧ o2 = .outer) then some (1, .outer)
    else none
  | _, _, _, _, _ => none

/-- The table of `operators.Cross_Product`, src/spaces/operators.py:179-221. -/
def crossTable2 : ℕ → ℤ → Ori → ℤ → Ori → Option (ℤ × Ori)
  | 2, k1, o1, k2, o2 =>
    if (k1 = 0 ∧ o1 = .outer) ∧ (k2 = 1 ∧ o2 = .inner) then some (1, .outer)
    else if (k1 = 1 ∧ o1 = .outer) ∧ (k2 = 1 ∧ o2 = .inner) then some (0, .outer)
    else none
  | 3, k1, o1, k2, o2 =>
    if (k1 = 1 ∧ o1 = .outer) ∧ (k2 = 2 ∧ o2 = .outer) then some (1, .outer)
    else if (k1 = 1 ∧ o1 = .outer) ∧ (k2 = 1 ∧ o2 = .inner) then some (2, .outer)
    else if (k1 = 2 ∧ o1 = .outer) ∧ (k2 = 1 ∧ o2 = .inner) then some (1, .outer)
    else if (k1 = 2 ∧ o1 = .inner) ∧ (k2 = 2 ∧ o2 = .outer) then some (2, .inner)
    else none
  | _, _, _, _, _ => none

/-- The table of `operators.CrossProduct`, src/spaces/operators.py:224-248. -/
def crossTable3 : ℕ → ℤ → Ori → ℤ → Ori → Option (ℤ × Ori)
  | 3, k1, o1, k2, o2 =>
    if (k1 = 1 ∧ o1 = .outer) ∧ (k2 = 1 ∧ o2 = .inner) then some (1, .outer) else none
  | _, _, _, _, _ => none

/-- The three products of operators.py:117-248 with the product table as an argument. -/
def cross (table : ℕ → ℤ → Ori → ℤ → Ori → Option (ℤ × Ori)) (r : Reg) (s t : Space) :
    Option (Reg × Space) :=
  if s.kind = .lambda ∧ t.kind = .lambda ∧ s.mesh = t.mesh ∧ s.mesh.m = s.mesh.ndim then
    match table s.mesh.ndim s.k s.ori t.k t.ori with
    | none => none
    | some ko => new r .lambda ko.1 s.mesh (asArg ko.2)
  else none

/-- The names of `_d_to_vc` and `_d_ast_to_vc`. -/
inductive VC | derivative | gradient | curl | rot | divergence
deriving DecidableEq, Repr

/-- `_d_to_vc`, src/spaces/operators.py:317-362. -/
def dToVc (m n : ℕ) (k : ℤ) (o : Ori) : Option VC :=
  if m = n ∧ n = 1 ∧ k = 0 then some .derivative
  else if m = n ∧ n = 2 ∧ k = 0 then
    match o with | .inner => some .gradient | .outer => some .curl | .unknown => none
  else if m = n ∧ n = 2 ∧ k = 1 then
    match o with | .inner => some .rot | .outer => some .divergence | .unknown => none
  else if m = n ∧ n = 3 then
    if k = 0 then some .gradient else if k = 1 then some .curl else if k = 2 then some .divergence else none
  else none

/-- `_d_ast_to_vc`, src/spaces/operators.py:365-403; `true` is the sign `'-'`. -/
def dAstToVc (m n : ℕ) (k : ℤ) (o : Ori) : Option (Bool × VC) :=
  if m = n ∧ n = 1 ∧ k = 1 then some (true, .derivative)
  else if m = n ∧ n = 2 ∧ k = 1 then
    match o with | .inner => some (true, .divergence) | .outer => some (false, .rot) | .unknown => none
  else if m = n ∧ n = 2 ∧ k = 2 then
    match o with | .inner => some (false, .curl) | .outer => some (true, .gradient) | .unknown => none
  else if m = n ∧ n = 3 then
    if k = 1 then some (true, .divergence) else if k = 2 then some (false, .curl)
    else if k = 3 then some (true, .gradient) else none
  else none

/-! ### Histories -/

/-- What a program may do with spaces. -/
inductive Op
  | make (kind : Kind) (k : ℤ) (mesh : Mesh) (o : OArg)
  | d (s : Space)
  | codifferential (s : Space)
  | hodge (s : Space)
  | trace (s : Space)
  | wedge (s t : Space)
  | tensor (s t : Space)
  | cross1 (s t : Space)
  | cross2 (s t : Space)
  | cross3 (s t : Space)
deriving DecidableEq

/-- The space objects existing: those of the registry (`new` only ever returns those). -/
def Known (r : Reg) (s : Space) : Prop := s ∈ r.map Prod.snd

instance (r : Reg) (s : Space) : Decidable (Known r s) := by unfold Known; infer_instance

/-- One call; `none` is an exception.  Operators apply to spaces obtained before. -/
def call (r : Reg) : Op → Option (Reg × Space)
  | .make kind k mesh o => new r kind k mesh o
  | .d s => if Known r s then d r s else none
  | .codifferential s => if Known r s then codifferential r s else none
  | .hodge s => if Known r s then hodge r s else none
  | .trace s => if Known r s then trace r s else none
  | .wedge s t => if Known r s ∧ Known r t then wedge r s t else none
  | .tensor s t => if Known r s ∧ Known r t then tensorProduct r s t else none
  | .cross1 s t => if Known r s ∧ Known r t then cross crossTable r s t else none
  | .cross2 s t => if Known r s ∧ Known r t then cross crossTable2 r s t else none
  | .cross3 s t => if Known r s ∧ Known r t then cross crossTable3 r s t else none

/-- The registry after a call; a raising call changes nothing. -/
def step (r : Reg) (op : Op) : Reg :=
  match call r op with
  | none => r
  | some p => p.1

/-- The registry after a history of calls. -/
def run (ops : List Op) : Reg := ops.foldl step []

end Phyem.Spaces
