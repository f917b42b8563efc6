import Verif.Adaptive.Model

/-!
What the adaptive setting should do, without its objects: how often it was renewed, what the analytic fields are and what was
read.
-/

namespace Phyem.Adaptive

/-- Setups that are right: a mesh includes meshes that are configured before it, orientations are known, the meshes and spaces
that are used exist, and a form at a time instant is one of a form that is not. -/
structure Right (S : Setup) : Prop where
  some_mesh : S.meshes ≠ []
  meshes : (S.meshes.map fun m => m.key).Nodup
  before : ∀ pre m post, S.meshes = pre ++ m :: post → ∀ k ∈ m.including, k ∈ pre.map fun m => m.key
  spaces : (S.spaces.map fun s => s.key).Nodup
  known : ∀ s ∈ S.spaces, s.isUnknown = false
  space_mesh : ∀ s ∈ S.spaces, s.mesh ∈ S.meshes.map fun m => m.key
  forms : (S.forms.map fun f => f.key).Nodup
  form_mesh : ∀ f ∈ S.forms, f.mesh ∈ S.meshes.map fun m => m.key
  form_space : ∀ f ∈ S.forms, f.space ∈ S.spaces.map fun s => s.key
  form_base : ∀ f ∈ S.forms, ∀ b, f.base = some b → ∃ g ∈ S.forms, g.key = b ∧ g.base = none

/-- How often everything was renewed, the stamp of the last time, the analytic fields of the forms that are not at a time
instant, and what was read since then. -/
structure Seen where
  count : ℕ := 0
  stamp : Option ℕ := none
  cf : ℕ → Option ℕ := fun _ => none
  data : ℕ → Option ℕ := fun _ => none

/-- A renewal keeps the fields and starts without cochains. -/
def Seen.renew (a : Seen) (s : ℕ) : Seen := { a with count := a.count + 1, stamp := some s, data := fun _ => none }

/-- The form of which `k` is one. -/
def rootOf (S : Setup) (k : ℕ) : ℕ := ((S.forms.find? fun f => f.key = k).bind fun f => f.base).getD k

/-- What a call does. Before the first renewal the others raise. -/
def Seen.step (S : Setup) (a : Seen) : Op → Option Seen
  | .renew s => some (a.renew s)
  | .read k s d =>
    if a.count = 0 then none
    else
      let a := if a.stamp = some s then a else a.renew s
      some { a with data := fun j => if j = k then some d else a.data j }
  | .setCf k v => if a.count = 0 then none else some { a with cf := fun j => if j = rootOf S k then some v else a.cf j }
  | .base => if a.count = 0 then none else some a

/-- What some calls do. -/
def Seen.run (S : Setup) (ops : List Op) (a : Seen) : Option Seen := ops.foldlM (Seen.step S) a

/-- Calls are about forms that there are; what is read is not at a time instant. -/
def Op.Fits (S : Setup) : Op → Prop
  | .renew _ => True
  | .read k _ _ => ∃ f ∈ S.forms, f.key = k ∧ f.base = none
  | .setCf k _ => ∃ f ∈ S.forms, f.key = k
  | .base => True

/-- The last two of `n` generations, counted from 0. -/
def lastTwo (n : ℕ) : List ℕ := (List.range n).drop (n - 2)

/-- What `current_base` should return after `n` renewals, `n` positive. -/
def newest (S : Setup) (n : ℕ) : Base :=
  ⟨n - 1, S.meshes.map fun m => (m.key, n - 1), S.spaces.map fun s => (s.key, n - 1), S.forms.map fun f => (f.key, n)⟩

/-- A form of the generation `g` (counted from 0), up to its field and its cochain: everything it refers to is of that
generation, and it knows the forms at time instants of it. -/
structure OfGeneration (S : Setup) (f : FormOf) (g : ℕ) (o : PForm) : Prop where
  birth : o.birth = g + 1
  tgm : o.tgm = some g
  tpm : o.tpm = some (f.mesh, g)
  space : o.space = some (f.space, g)
  base : o.base = f.base.map fun b => (b, g + 1)
  ats : f.base = none → o.ats = (S.forms.filter fun i => i.base = some f.key).map fun i => i.key

/-- Everything is as it should be: the last two generations are kept, each on the great mesh of its own, and the current forms
have the fields and cochains that were given. -/
structure Fresh (S : Setup) (st : State) (a : Seen) : Prop where
  next : st.next = a.count
  stamp : st.stamp = a.stamp
  mesh : ∀ m ∈ S.meshes, st.mesh m.key = ⟨(lastTwo a.count).map fun g => ⟨g, m.including.map fun k => (k, g)⟩, a.count⟩
  space : ∀ s ∈ S.spaces, st.space s.key = ⟨(lastTwo a.count).map fun g => ⟨(s.mesh, g)⟩, a.count⟩
  form : ∀ f ∈ S.forms, (st.form f.key).total = a.count ∧
    List.Forall₂ (OfGeneration S f) (lastTwo a.count) (st.form f.key).gens
  cf : ∀ f ∈ S.forms, getCf st f.key = a.cf (rootOf S f.key)
  data : ∀ f ∈ S.forms, f.base = none → (st.form f.key).current.bind (fun o => o.cochain) = a.data f.key

/-! ### Systems -/

/-- What the setting is asked by calls; `apply` asks for what is current. -/
def opsOf : List SOp → List Op
  | [] => []
  | .op o :: l => o :: opsOf l
  | .config _ :: l => opsOf l
  | .apply :: l => .base :: opsOf l

/-- The conditions that were configured. -/
def condsOf : List SOp → List Cond
  | [] => []
  | .config c :: l => c :: condsOf l
  | _ :: l => condsOf l

/-- Calls are about meshes and forms that there are. -/
def SOp.Fits (S : Setup) : SOp → Prop
  | .op o => o.Fits S
  | .config c => (∃ m ∈ S.meshes, m.key = c.place) ∧ ∃ f ∈ S.forms, f.key = c.form
  | .apply => True

/-- How often everything was renewed by some calls, if they do not raise. -/
def renewals (S : Setup) (l : List SOp) : Option ℕ := (Seen.run S (opsOf l) {}).map fun a => a.count

/-- The system after `n` renewals, with these conditions. -/
def systemAt (S : Setup) (n : ℕ) (cs : List Cond) : System := ⟨newest S n, cs.map fun c => (c, n - 1, n)⟩

end Phyem.Adaptive
