import Verif.Tools.Frozen

/-!
Property C58: frozen objects do not grow.
-/

namespace Phyem.Frozen

/-- Does the history leave the object frozen?  Specification: the last of the freeze / melt /
direct assignments to the flag decides; deleting the flag melts. -/
def frozenAfter (start : Bool) : List Op → Bool
  | [] => start
  | .freeze :: l => frozenAfter true l
  | .melt :: l => frozenAfter false l
  | .set k v :: l => frozenAfter (if k = flag then v.truthy else start) l
  | .del k :: l => frozenAfter (if k = flag then false else start) l
  | .ask :: l => frozenAfter start l

/-- A class whose own names do not include the flag (true for every class of the library: the flag is
only ever an instance attribute). -/
def Cls.ok (c : Cls) : Prop := flag ∉ c.plain ∧ flag ∉ c.readonly

theorem frozen_fst_put_flag (o : Obj) (v : Val) : (frozen (put o flag v)).1 = v.truthy := by
  simp [frozen, get_put]

theorem frozen_fst_put_ne (o : Obj) (k : String) (v : Val) (h : k ≠ flag) :
    (frozen (put o k v)).1 = (frozen o).1 := by
  simp only [frozen, get_put, if_neg (Ne.symm h)]
  cases get o flag <;> rfl

theorem frozen_fst_frozen (o : Obj) : (frozen (frozen o).2).1 = (frozen o).1 := by
  rw [frozen_frozen]

theorem get_flag_frozen (o : Obj) : ∃ v, get (frozen o).2 flag = some v := by
  unfold frozen
  cases h : get o flag with
  | none => exact ⟨.bool false, by simp [get_put]⟩
  | some v => exact ⟨v, h⟩

theorem setattr_flag (c : Cls) (hc : c.ok) (o : Obj) (v : Val) :
    setattr c o flag v = ⟨false, put (frozen o).2 flag v⟩ := by
  obtain ⟨w, hw⟩ := get_flag_frozen o
  have hr : c.readonly.contains flag = false := by simpa using hc.2
  simp only [setattr, inDir, hw, hr]
  simp

theorem step_frozen (c : Cls) (hc : c.ok) (o : Obj) (x : Op) :
    (frozen (step c o x).obj).1 = frozenAfter (frozen o).1 [x] := by
  cases x with
  | freeze => simp [step, freeze, setattr_flag c hc, frozen_fst_put_flag, frozenAfter, Val.truthy]
  | melt => simp [step, melt, setattr_flag c hc, frozen_fst_put_flag, frozenAfter, Val.truthy]
  | ask => simp [step, isFrozen, frozen_fst_frozen, frozenAfter]
  | set k v =>
    by_cases hk : k = flag
    · subst hk
      simp [step, setattr_flag c hc, frozen_fst_put_flag, frozenAfter]
    · simp only [step, setattr, frozenAfter, if_neg hk]
      split_ifs
      · exact frozen_fst_frozen o
      · exact frozen_fst_frozen o
      · rw [frozen_fst_put_ne _ _ _ hk, frozen_fst_frozen]
  | del k =>
    simp only [step, frozenAfter]
    by_cases hk : k = flag
    · subst hk
      rw [if_pos rfl]
      split_ifs with h
      · simp only [frozen, get_del, if_true]
      · simp only [Bool.not_eq_true, Option.isSome_eq_false_iff, Option.isNone_iff_eq_none] at h
        simp [frozen, h]
    · rw [if_neg hk]
      split_ifs with h
      · have : flag ≠ k := Ne.symm hk
        simp only [frozen, get_del, if_neg this]
        cases get o flag <;> rfl
      · rfl

theorem frozenAfter_cons (b : Bool) (x : Op) (xs : List Op) :
    frozenAfter b (x :: xs) = frozenAfter (frozenAfter b [x]) xs := by
  cases x <;> simp [frozenAfter]

theorem run_frozen (c : Cls) (hc : c.ok) (ops : List Op) (o : Obj) :
    (frozen (run c ops o)).1 = frozenAfter (frozen o).1 ops := by
  induction ops generalizing o with
  | nil => rfl
  | cons x xs ih => rw [run, ih, step_frozen c hc, ← frozenAfter_cons]

/-- **C58, status.** After any history on a fresh object, `_is_frozen()` answers whether the last
freeze/melt was a freeze. -/
theorem is_frozen_spec (c : Cls) (hc : c.ok) (ops : List Op) :
    (isFrozen (run c ops [])).1 = frozenAfter false ops :=
  run_frozen c hc ops []

/-- **C58, no growth.** After any history that leaves the object frozen, assigning a name that exists
neither in the instance nor in its class raises and changes no attribute. -/
theorem frozen_rejects_new (c : Cls) (hc : c.ok) (ops : List Op)
    (hf : frozenAfter false ops = true) (k : String) (v : Val)
    (hk : get (run c ops []) k = none) (hck : k ∉ c.plain ∧ k ∉ c.readonly) :
    (step c (run c ops []) (.set k v)).raised = true ∧
    ∀ k', get (step c (run c ops []) (.set k v)).obj k' = get (run c ops []) k' := by
  have h1 := run_frozen c hc ops []
  have h0 : (frozen ([] : Obj)).1 = false := rfl
  rw [h0, hf] at h1
  have hsnd : (frozen (run c ops [])).2 = run c ops [] := by
    unfold frozen at h1 ⊢
    cases h : get (run c ops []) flag with
    | none => rw [h] at h1; simp at h1
    | some w => rfl
  have hd : inDir c (run c ops []) k = false := by
    simp [inDir, hk, hck.1, hck.2]
  simp only [step, setattr, h1, hsnd, hd]
  simp

/-- **C58, class attributes.** A name that the class shows and that is not read-only can be assigned at any time, frozen or
not; the instance then has it, and no other attribute changes. -/
theorem class_attribute_updates (c : Cls) (o : Obj) (k : String) (v : Val)
    (hk : k ∈ c.plain) (hck : k ∉ c.readonly) (hkf : k ≠ flag) :
    (step c o (.set k v)).raised = false ∧ get (step c o (.set k v)).obj k = some v ∧
    ∀ k', k' ≠ k → k' ≠ flag → get (step c o (.set k v)).obj k' = get o k' := by
  have hd : inDir c (frozen o).2 k = true := by simp [inDir, hk]
  have hr : c.readonly.contains k = false := by simpa using hck
  simp only [step, setattr, hd, hr]
  refine ⟨by simp, by simp [get_put], ?_⟩
  intro k' h1 h2
  simp [get_put, h1, get_frozen o k' h2]

/-- **C58, read-only names.** Assigning a property without setter raises, frozen or not, and changes no attribute. -/
theorem readonly_raises (c : Cls) (o : Obj) (k : String) (v : Val) (hk : k ∈ c.readonly) :
    (step c o (.set k v)).raised = true ∧ ∀ k', k' ≠ flag → get (step c o (.set k v)).obj k' = get o k' := by
  have hr : c.readonly.contains k = true := by simpa using hk
  have hd : inDir c (frozen o).2 k = true := by simp [inDir, hk]
  simp only [step, setattr, hd, hr]
  refine ⟨by simp, ?_⟩
  intro k' h2
  simp [get_frozen o k' h2]

/-- **C58, updates.** At any time (frozen or not) an existing attribute can be updated; the update
reads back, and no other attribute changes. -/
theorem existing_updates (c : Cls) (o : Obj) (k : String) (v : Val)
    (hk : (get o k).isSome) (hck : k ∉ c.readonly) (hkf : k ≠ flag) :
    (step c o (.set k v)).raised = false ∧ get (step c o (.set k v)).obj k = some v ∧
    ∀ k', k' ≠ k → k' ≠ flag → get (step c o (.set k v)).obj k' = get o k' := by
  have hk' : (get (frozen o).2 k).isSome := by rw [get_frozen o k hkf]; exact hk
  have hd : inDir c (frozen o).2 k = true := by simp [inDir, hk']
  have hr : c.readonly.contains k = false := by simpa using hck
  simp only [step, setattr, hd, hr]
  refine ⟨by simp, by simp [get_put], ?_⟩
  intro k' h1 h2
  simp [get_put, h1, get_frozen o k' h2]

/-- **C58, melting.** An object that is not frozen accepts new names. -/
theorem melted_accepts_new (c : Cls) (hc : c.ok) (ops : List Op)
    (hf : frozenAfter false ops = false) (k : String) (v : Val) (hck : k ∉ c.readonly) :
    (step c (run c ops []) (.set k v)).raised = false ∧
    get (step c (run c ops []) (.set k v)).obj k = some v := by
  have h1 := run_frozen c hc ops []
  have h0 : (frozen ([] : Obj)).1 = false := rfl
  rw [h0, hf] at h1
  have hr : c.readonly.contains k = false := by simpa using hck
  simp only [step, setattr, h1, hr]
  refine ⟨by simp, by simp [get_put]⟩

/-- **C58, over a whole frozen period.** Between a freeze and the next melt, whatever is assigned or
deleted, no attribute appears that the instance or its class did not have. -/
theorem frozen_period_no_growth (c : Cls) (hc : c.ok) (o : Obj) (hf : (frozen o).1 = true)
    (ops : List Op) (hops : ∀ x ∈ ops, x ≠ .melt ∧ (∀ v, x ≠ .set flag v) ∧ x ≠ .del flag)
    (k : String) (hck : k ∉ c.plain ∧ k ∉ c.readonly) (hkf : k ≠ flag) (hk : get o k = none) :
    get (run c ops o) k = none := by
  induction ops generalizing o with
  | nil => exact hk
  | cons x xs ih =>
    rw [run]
    have hx := hops x (by simp)
    apply ih
    · rw [step_frozen c hc]
      cases x with
      | freeze => simp [frozenAfter]
      | melt => exact absurd rfl hx.1
      | ask => simpa [frozenAfter] using hf
      | set k v =>
        have : k ≠ flag := fun h => hx.2.1 v (by rw [h])
        simp [frozenAfter, this, hf]
      | del k =>
        have : k ≠ flag := fun h => hx.2.2 (by rw [h])
        simp [frozenAfter, this, hf]
    · intro y hy; exact hops y (by simp [hy])
    · cases x with
      | freeze => simp [step, freeze, setattr_flag c hc, get_put, hkf, get_frozen, hk]
      | melt => exact absurd rfl hx.1
      | ask => simp [step, isFrozen, get_frozen, hkf, hk]
      | set k' v =>
        simp only [step, setattr]
        split_ifs with h1 h2
        · rw [get_frozen o k hkf]; exact hk
        · rw [get_frozen o k hkf]; exact hk
        · rw [get_put]
          split_ifs with h3
          · subst h3
            have : inDir c (frozen o).2 k = false := by
              simp [inDir, get_frozen o k hkf, hk, hck.1, hck.2]
            simp [hf, this] at h1
          · rw [get_frozen o k hkf]; exact hk
      | del k' =>
        simp only [step]
        split_ifs
        · rw [get_del, hk]; simp
        · exact hk

/-- A typical history: constructor assignments, freeze, an update, and then a new name. -/
example :
    let c : Cls := ⟨["_freeze", "_melt", "pr"], ["___frozen___"]⟩
    let ops : List Op := [.set "_a" (.other 1 true), .freeze, .set "_a" (.other 2 false)]
    c.ok ∧ frozenAfter false ops = true ∧ get (run c ops []) "_b" = none ∧
    get (run c ops []) "_a" = some (.other 2 false) ∧
    (step c (run c ops []) (.set "_b" (.bool true))).raised = true ∧
    (step c (run c (ops ++ [.melt]) []) (.set "_b" (.bool true))).raised = false := by
  simp only [Cls.ok]
  decide +kernel

end Phyem.Frozen
