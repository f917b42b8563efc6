import Mathlib.Data.List.Basic
import Mathlib.Logic.Function.Basic

/-!
The adaptive setting: meshes, spaces and forms have generations, which `renew` replaces together
(`msehtt/adaptive/{main,___func___}.py`, `msehtt/adaptive/{mesh,space,form}/main.py`), and linear and nonlinear systems that
are made for the current generation (`msehtt/adaptive/tools/{linear_system,nonlinear_system}.py`).

Meshes, spaces and forms are known by numbers. A great mesh is the number of the great mesh that it is. An object of a
generation is what it refers to. `none` is an exception.

Not modelled here: what a great mesh, a space or a form consists of; how cochains get from one generation to the next (see
`Adaptive/Cochains.lean`); several ranks (all of them do the same); meshes that are configured with `including=None`, which
have no generations; the field `0`.
-/

namespace Phyem.Adaptive

/-! ### Generations -/

/-- `_generations_` and `_total_generation_`. -/
structure Top (A : Type) where
  gens : List A := []
  total : ℕ := 0

/-- `___MAX_GENERATIONS____` (`msehtt/adaptive/main.py:52`). -/
def maxGenerations : ℕ := 2

/-- `current` (`_generations_[-1]`, `mesh/main.py:50-52`, `space/main.py:29-31`, `form/main.py:44-46`). -/
def Top.current {A : Type} (t : Top A) : Option A := t.gens.getLast?

/-- `_generations_[-2]`. -/
def Top.previous {A : Type} (t : Top A) : Option A := if 2 ≤ t.gens.length then t.gens[t.gens.length - 2]? else none

/-- A new generation (`mesh/main.py:54-60, 76-77`, `space/main.py:33-41`, `form/main.py:53-61`). -/
def Top.renew {A : Type} (t : Top A) (x : A) : Top A :=
  ⟨(if maxGenerations ≤ t.gens.length then t.gens.drop (t.gens.length - (maxGenerations - 1)) else t.gens) ++ [x],
    t.total + 1⟩

/-- A change of the current object. -/
def Top.modify {A : Type} (t : Top A) (f : A → A) : Top A :=
  match t.current with
  | none => t
  | some x => { t with gens := t.gens.dropLast ++ [f x] }

/-! ### The setting -/

/-- A configured mesh and the meshes it includes. -/
structure MeshOf where
  key : ℕ
  including : List ℕ

/-- A space, its mesh and whether its orientation is unknown. -/
structure SpaceOf where
  key : ℕ
  mesh : ℕ
  isUnknown : Bool

/-- A root-form, its mesh, its space and, if it is a form at a time instant, the form it is one of. -/
structure FormOf where
  key : ℕ
  mesh : ℕ
  space : ℕ
  base : Option ℕ

/-- What is configured: meshes in the order in which they are (`___config_meshes___`), spaces and forms. -/
structure Setup where
  meshes : List MeshOf
  spaces : List SpaceOf
  forms : List FormOf

/-- A partial mesh: its great mesh, and the meshes it was made of with the great meshes of these. -/
structure PMesh where
  tgm : ℕ
  including : List (ℕ × ℕ)
  deriving DecidableEq

/-- A space: its mesh and the great mesh of that. -/
structure PSpace where
  tpm : ℕ × ℕ
  deriving DecidableEq

/-- A form: the number of its generation, its great mesh, its mesh and its space with their great meshes, its analytic
field, the form it is one of with its generation, the forms at time instants of it, and its cochain. -/
structure PForm where
  birth : ℕ
  tgm : Option ℕ
  tpm : Option (ℕ × ℕ)
  space : Option (ℕ × ℕ)
  cf : Option ℕ
  base : Option (ℕ × ℕ)
  ats : List ℕ
  cochain : Option ℕ
  deriving DecidableEq

/-- What `current_base` returns: the great mesh and the current objects, known by what they are of and their great mesh or
generation. -/
structure Base where
  tgm : ℕ
  meshes : List (ℕ × ℕ)
  spaces : List (ℕ × ℕ)
  forms : List (ℕ × ℕ)
  deriving DecidableEq

/-- `base` (`msehtt/adaptive/main.py:4-17`). -/
structure State where
  next : ℕ := 0
  stamp : Option ℕ := none
  mesh : ℕ → Top PMesh := fun _ => {}
  space : ℕ → Top PSpace := fun _ => {}
  form : ℕ → Top PForm := fun _ => {}
  curGen : Option ℕ := none
  curBase : Option Base := none

/-! ### Renewing -/

/-- `MseHtt_Adaptive_TopMesh.___renew___` (`mesh/main.py:54-77`). -/
def renewMesh (g : ℕ) (st : ℕ → Top PMesh) (m : MeshOf) : Option (ℕ → Top PMesh) :=
  (m.including.mapM fun k => (st k).current.map fun o => (k, o.tgm)).map fun inc =>
    Function.update st m.key ((st m.key).renew ⟨g, inc⟩)

/-- Spaces (`___func___.py:24-45`, `space/main.py:33-41`): a space of unknown orientation is left as it is. -/
def renewSpace (mesh : ℕ → Top PMesh) (st : ℕ → Top PSpace) (s : SpaceOf) : Option (ℕ → Top PSpace) :=
  if s.isUnknown then some st
  else if (mesh s.mesh).total = (st s.key).total + 1 then
    (mesh s.mesh).current.map fun o => Function.update st s.key ((st s.key).renew ⟨(s.mesh, o.tgm)⟩)
  else none

/-- `MseHtt_Adaptive_TopForm.___renew___` (`form/main.py:53-71`): the analytic field is taken from the generation before. -/
def renewForm (t : Top PForm) : Top PForm :=
  let t' := t.renew ⟨t.total + 1, none, none, none, none, none, [], none⟩
  if t'.gens.length > 1 then
    match t'.previous with
    | none => t'
    | some old => if old.cf = none then t' else t'.modify fun f => { f with cf := old.cf }
  else t'

/-- Forms that are not at a time instant (`___func___.py:50-57`). -/
def renewGeneral (st : ℕ → Top PForm) (f : FormOf) : ℕ → Top PForm :=
  if f.base = none then Function.update st f.key (renewForm (st f.key)) else st

/-- Forms at time instants (`___func___.py:61-79`). -/
def renewInstant (st : ℕ → Top PForm) (f : FormOf) : Option (ℕ → Top PForm) :=
  match f.base with
  | none => some st
  | some b =>
    (st b).current.bind fun bf =>
      if f.key ∈ bf.ats then none
      else
        let st := Function.update st f.key ((renewForm (st f.key)).modify fun o => { o with base := some (b, bf.birth) })
        some (Function.update st b ((st b).modify fun o => { o with ats := o.ats ++ [f.key] }))

/-- `___link_all_forms____` (`___func___.py:127-144`). -/
def linkForm (g : ℕ) (mesh : ℕ → Top PMesh) (space : ℕ → Top PSpace) (st : ℕ → Top PForm) (f : FormOf) :
    Option (ℕ → Top PForm) :=
  (mesh f.mesh).current.bind fun m => (space f.space).current.bind fun s => (st f.key).current.map fun _ =>
    Function.update st f.key ((st f.key).modify fun o =>
      { o with tgm := some g, tpm := some (f.mesh, m.tgm), space := some (f.space, s.tpm.2) })

/-- `___renew___` (`msehtt/adaptive/main.py:229-251`, `___func___.py:8-86, 149-151`): `initialize`, the first part of `renew`,
and `__update_base___` (`form/main.py:161-174`). -/
def renew (S : Setup) (stamp : ℕ) (st : State) : Option State :=
  (S.meshes.foldlM (renewMesh st.next) st.mesh).bind fun mesh =>
    (S.spaces.foldlM (renewSpace mesh) st.space).bind fun space =>
      (S.forms.foldlM renewInstant (S.forms.foldl renewGeneral st.form)).bind fun form =>
        (S.forms.foldlM (linkForm st.next mesh space) form).map fun form =>
          { st with next := st.next + 1, stamp := some stamp, mesh := mesh, space := space, form := form }

/-- `current_base` (`msehtt/adaptive/main.py:302-365`): the number of generations and what is current. -/
def currentBase (S : Setup) (st : State) : Option (State × ℕ × Base) :=
  match S.meshes with
  | [] => none
  | m0 :: _ =>
    (st.mesh m0.key).current.bind fun o0 =>
      let tgm := o0.tgm
      let gens := (st.mesh m0.key).total
      if (S.meshes.all fun m => (st.mesh m.key).current.map (fun o => o.tgm) == some tgm && (st.mesh m.key).total == gens) &&
          (S.spaces.all fun s => (st.space s.key).current.map (fun o => o.tpm.2) == some tgm && (st.space s.key).total == gens) &&
          (S.forms.all fun f => (st.form f.key).current.map (fun o => o.tgm) == some (some tgm) && (st.form f.key).total == gens)
      then
        if st.curGen = some gens then st.curBase.map fun b => (st, gens, b)
        else
          let b : Base := ⟨tgm, S.meshes.map fun m => (m.key, ((st.mesh m.key).current.map fun o => o.tgm).getD 0),
            S.spaces.map fun s => (s.key, ((st.space s.key).current.map fun o => o.tpm.2).getD 0),
            S.forms.map fun f => (f.key, ((st.form f.key).current.map fun o => o.birth).getD 0)⟩
          some ({ st with curGen := some gens, curBase := some b }, gens, b)
      else none

/-- `form.cf = …` (`form/main.py:92-98`, `static/form/main.py:213-219`): a form at a time instant sets the field of the form
it is one of. -/
def setCf (st : State) (k v : ℕ) : Option State :=
  (st.form k).current.map fun o =>
    match o.base with
    | none => { st with form := Function.update st.form k ((st.form k).modify fun o => { o with cf := some v }) }
    | some (b, n) =>
      let t : Top PForm :=
        ⟨(st.form b).gens.map fun o => if o.birth = n then { o with cf := some v } else o, (st.form b).total⟩
      { st with form := Function.update st.form b t }

/-- `form.cf` (`form/main.py:88-90`, `static/form/main.py:203-211`). -/
def getCf (st : State) (k : ℕ) : Option ℕ :=
  (st.form k).current.bind fun o =>
    match o.base with
    | none => o.cf
    | some (b, n) => ((st.form b).gens.find? fun o => o.birth = n).bind fun o => o.cf

/-- `_read_cache_data` (`form/main.py:137-159`), of a form that is not at a time instant: what was saved with another stamp
than the current one makes a new generation of everything. -/
def read (S : Setup) (st : State) (k stamp d : ℕ) : Option State :=
  if st.next = 0 then none
  else
    (if st.stamp = some stamp then some st else renew S stamp st).bind fun st =>
      (st.form k).current.map fun _ =>
        { st with form := Function.update st.form k ((st.form k).modify fun o => { o with cochain := some d }) }

/-- What a user does. -/
inductive Op where
  | renew (stamp : ℕ)
  | read (k stamp d : ℕ)
  | setCf (k v : ℕ)
  | base

/-- One call. -/
def step (S : Setup) (st : State) : Op → Option State
  | .renew s => renew S s st
  | .read k s d => read S st k s d
  | .setCf k v => setCf st k v
  | .base => (currentBase S st).map fun r => r.1

/-- Some calls. -/
def run (S : Setup) (ops : List Op) (st : State) : Option State := ops.foldlM (step S) st

/-! ### Systems -/

/-- A condition on a mesh for a form. -/
structure Cond where
  place : ℕ
  form : ℕ
  condition : ℕ
  deriving DecidableEq

/-- A system of a generation: what it was made with, and its conditions, with the great mesh of the place and the generation
of the form. -/
structure System where
  base : Base
  conds : List (Cond × ℕ × ℕ)
  deriving DecidableEq

/-- `MseHtt_Adaptive_Linear_System`, `MseHtt_Adaptive_NonLinear_System`. -/
structure Adaptive where
  conds : List Cond := []
  genCache : Option ℕ := none
  dynCache : Option System := none

/-- `config` (`tools/linear_system.py:76-122`). -/
def Adaptive.config (a : Adaptive) (c : Cond) : Adaptive := { a with conds := a.conds ++ [c] }

/-- `apply` (`tools/linear_system.py:25-60`). -/
def Adaptive.apply (S : Setup) (st : State) (a : Adaptive) : Option (State × Adaptive × System) :=
  (currentBase S st).bind fun r =>
    if a.genCache = some r.2.1 then a.dynCache.map fun d => (r.1, a, d)
    else
      (a.conds.mapM fun c => (st.mesh c.place).current.bind fun m => (st.form c.form).current.map fun f =>
        (c, m.tgm, f.birth)).map fun cs =>
          (r.1, { a with genCache := some r.2.1, dynCache := some ⟨r.2.2, cs⟩ }, ⟨r.2.2, cs⟩)

/-- What a user does with a system in the setting. -/
inductive SOp where
  | op (o : Op)
  | config (c : Cond)
  | apply

/-- One call. -/
def sstep (S : Setup) (x : State × Adaptive) : SOp → Option (State × Adaptive)
  | .op o => (step S x.1 o).map fun st => (st, x.2)
  | .config c => some (x.1, x.2.config c)
  | .apply => (x.2.apply S x.1).map fun r => (r.1, r.2.1)

/-- Some calls from the beginning. -/
def srun (S : Setup) (l : List SOp) : Option (State × Adaptive) := l.foldlM (sstep S) ({}, {})

/-- What `apply` returns after some calls. -/
def applyAfter (S : Setup) (l : List SOp) : Option System :=
  (srun S l).bind fun x => (x.2.apply S x.1).map fun r => r.2.2

end Phyem.Adaptive
