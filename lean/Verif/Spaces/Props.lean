import Verif.Spaces.Model
import Mathlib.Data.List.Induction
import Mathlib.Tactic.Linarith
import Mathlib.Tactic.IntervalCases

/-!
Properties C13 (degrees and orientations of the operators) and C63 (cross products).
-/

namespace Phyem.Spaces

/-! ### Invariants of the registry -/

/-- What holds after every history. -/
def Sound (r : Reg) : Prop :=
  ∀ mesh sym s, Dict.get r (mesh, sym) = some s →
    s.mesh = mesh ∧ s.kind = sym.kind ∧ s.k = sym.k ∧ degreeOk s.kind s.mesh.ndim s.k = true

/-- What holds as long as no space of mixed orientation is made. -/
def Tidy (r : Reg) : Prop :=
  ∀ mesh sym s, Dict.get r (mesh, sym) = some s → s.ori = if sym.tilde then Ori.outer else Ori.inner

theorem known_iff {r : Reg} (hn : (Dict.keys r).Nodup) (s : Space) :
    Known r s ↔ ∃ key, Dict.get r key = some s := by
  unfold Known
  rw [List.mem_map]
  constructor
  · rintro ⟨p, hp, rfl⟩
    exact ⟨p.1, Dict.get_of_mem _ hn _ _ (by simpa using hp)⟩
  · rintro ⟨key, h⟩
    exact ⟨(key, s), Dict.get_mem _ _ _ h, rfl⟩

theorem new_cases {r : Reg} {kind : Kind} {k : ℤ} {mesh : Mesh} {o : OArg} {r' : Reg} {s : Space}
    (h : new r kind k mesh o = some (r', s)) :
    ∃ ori, parseOri o = some ori ∧ degreeOk kind mesh.ndim k = true ∧
      ((Dict.get r (mesh, mkSym kind k o) = some s ∧ r' = r) ∨
       (Dict.get r (mesh, mkSym kind k o) = none ∧ s = ⟨kind, mesh, k, ori⟩ ∧
        r' = Dict.put r (mesh, mkSym kind k o) s)) := by
  unfold new at h
  cases ho : parseOri o with
  | none => simp [ho] at h
  | some ori =>
    simp only [ho] at h
    split_ifs at h with hd
    refine ⟨ori, rfl, hd, ?_⟩
    cases hg : Dict.get r (mesh, mkSym kind k o) with
    | none =>
      simp only [hg, Option.some.injEq, Prod.mk.injEq] at h
      exact Or.inr ⟨rfl, h.2.symm, by rw [← h.1, h.2]⟩
    | some s' =>
      simp only [hg, Option.some.injEq, Prod.mk.injEq] at h
      exact Or.inl ⟨by rw [h.2], h.1.symm⟩

theorem new_get {r : Reg} {kind : Kind} {k : ℤ} {mesh : Mesh} {o : OArg} {r' : Reg} {s : Space}
    (h : new r kind k mesh o = some (r', s)) : Dict.get r' (mesh, mkSym kind k o) = some s := by
  obtain ⟨ori, _, _, h | h⟩ := new_cases h
  · rw [h.2]; exact h.1
  · rw [h.2.2, Dict.get_put]; simp

theorem new_mono {r : Reg} {kind : Kind} {k : ℤ} {mesh : Mesh} {o : OArg} {r' : Reg} {s : Space}
    (h : new r kind k mesh o = some (r', s)) {key} {t : Space} (ht : Dict.get r key = some t) :
    Dict.get r' key = some t := by
  obtain ⟨ori, _, _, h | h⟩ := new_cases h
  · rw [h.2]; exact ht
  · rw [h.2.2, Dict.get_put]
    split_ifs with e
    · subst e; rw [h.1] at ht; simp at ht
    · exact ht

theorem new_nodup {r : Reg} {kind : Kind} {k : ℤ} {mesh : Mesh} {o : OArg} {r' : Reg} {s : Space}
    (h : new r kind k mesh o = some (r', s)) (hn : (Dict.keys r).Nodup) : (Dict.keys r').Nodup := by
  obtain ⟨ori, _, _, h | h⟩ := new_cases h
  · rw [h.2]; exact hn
  · rw [h.2.2]; exact Dict.nodup_put _ _ _ hn

theorem new_sound {r : Reg} {kind : Kind} {k : ℤ} {mesh : Mesh} {o : OArg} {r' : Reg} {s : Space}
    (h : new r kind k mesh o = some (r', s)) (hs : Sound r) : Sound r' := by
  obtain ⟨ori, _, hd, h | h⟩ := new_cases h
  · rw [h.2]; exact hs
  · intro mesh' sym' s' hg
    rw [h.2.2, Dict.get_put] at hg
    split_ifs at hg with e
    · simp only [Prod.mk.injEq] at e
      simp only [Option.some.injEq] at hg
      obtain ⟨e1, e2⟩ := e
      subst e1 e2 hg
      rw [h.2.1]
      exact ⟨rfl, rfl, rfl, hd⟩
    · exact hs _ _ _ hg

theorem new_fields {r : Reg} {kind : Kind} {k : ℤ} {mesh : Mesh} {o : OArg} {r' : Reg} {s : Space}
    (h : new r kind k mesh o = some (r', s)) (hs : Sound r) :
    s.mesh = mesh ∧ s.kind = kind ∧ s.k = k := by
  have := new_sound h hs _ _ _ (new_get h)
  exact ⟨this.1, this.2.1, this.2.2.1⟩

/-- The argument is one of the two full names or the short name of the inner orientation. -/
def Plain (o : OArg) : Prop := o = .inner ∨ o = .outer ∨ o = .i

instance (o : OArg) : Decidable (Plain o) := by unfold Plain; infer_instance

theorem new_tidy {r : Reg} {kind : Kind} {k : ℤ} {mesh : Mesh} {o : OArg} {r' : Reg} {s : Space}
    (h : new r kind k mesh o = some (r', s)) (ho : Plain o) (hs : Tidy r) : Tidy r' := by
  obtain ⟨ori, hp, hd, h | h⟩ := new_cases h
  · rw [h.2]; exact hs
  · intro mesh' sym' s' hg
    rw [h.2.2, Dict.get_put] at hg
    split_ifs at hg with e
    · simp only [Prod.mk.injEq] at e
      simp only [Option.some.injEq] at hg
      obtain ⟨e1, e2⟩ := e
      subst e1 e2 hg
      rw [h.2.1]
      rcases ho with rfl | rfl | rfl <;> simp [parseOri] at hp <;> simp [mkSym, hp]
    · exact hs _ _ _ hg

theorem new_none_iff (r : Reg) (kind : Kind) (k : ℤ) (mesh : Mesh) (o : OArg) :
    (∃ p, new r kind k mesh o = some p) ↔
      (∃ ori, parseOri o = some ori) ∧ degreeOk kind mesh.ndim k = true := by
  unfold new
  cases ho : parseOri o with
  | none => simp
  | some ori =>
    simp only [Option.some.injEq, exists_eq', true_and]
    split_ifs with hd
    · cases hg : Dict.get r (mesh, mkSym kind k o) <;> simp [hd]
    · simp [hd]

/-- A call of `new` behind each operator. -/
theorem call_new {r : Reg} {op : Op} {p : Reg × Space} (h : call r op = some p) :
    ∃ kind k mesh o, new r kind k mesh o = some p := by
  cases op with
  | make kind k mesh o => exact ⟨kind, k, mesh, o, h⟩
  | d s => simp only [call, d] at h; split_ifs at h; exact ⟨_, _, _, _, h⟩
  | codifferential s => simp only [call, codifferential] at h; split_ifs at h; exact ⟨_, _, _, _, h⟩
  | hodge s => simp only [call, hodge] at h; split_ifs at h; exact ⟨_, _, _, _, h⟩
  | trace s =>
    simp only [call, trace] at h; split_ifs at h
    cases hb : s.mesh.boundary with
    | none => simp [hb] at h
    | some b => simp only [hb] at h; exact ⟨_, _, _, _, h⟩
  | wedge s t => simp only [call, wedge] at h; split_ifs at h <;> exact ⟨_, _, _, _, h⟩
  | tensor s t => simp only [call, tensorProduct] at h; split_ifs at h; exact ⟨_, _, _, _, h⟩
  | cross1 s t =>
    simp only [call, cross] at h; split_ifs at h
    cases hb : crossTable s.mesh.ndim s.k s.ori t.k t.ori with
    | none => simp [hb] at h
    | some b => simp only [hb] at h; exact ⟨_, _, _, _, h⟩
  | cross2 s t =>
    simp only [call, cross] at h; split_ifs at h
    cases hb : crossTable2 s.mesh.ndim s.k s.ori t.k t.ori with
    | none => simp [hb] at h
    | some b => simp only [hb] at h; exact ⟨_, _, _, _, h⟩
  | cross3 s t =>
    simp only [call, cross] at h; split_ifs at h
    cases hb : crossTable3 s.mesh.ndim s.k s.ori t.k t.ori with
    | none => simp [hb] at h
    | some b => simp only [hb] at h; exact ⟨_, _, _, _, h⟩

theorem run_snoc (ops : List Op) (op : Op) : run (ops ++ [op]) = step (run ops) op := by
  simp [run]

/-- After every history the registry is sound. -/
theorem run_sound (ops : List Op) : Sound (run ops) ∧ (Dict.keys (run ops)).Nodup := by
  induction ops using List.reverseRecOn with
  | nil => exact ⟨by intro m s t h; simp [run, Dict.get] at h, by simp [run, Dict.keys]⟩
  | append_singleton ops op ih =>
    rw [run_snoc]
    unfold step
    cases h : call (run ops) op with
    | none => exact ih
    | some p =>
      obtain ⟨kind, k, mesh, o, hn⟩ := call_new h
      exact ⟨new_sound hn ih.1, new_nodup hn ih.2⟩

theorem known_sound {ops : List Op} {s : Space} (h : Known (run ops) s) :
    Dict.get (run ops) (s.mesh, ⟨s.kind, (Dict.get (run ops) (s.mesh, ⟨s.kind, true, s.k⟩)) = some s, s.k⟩)
      = some s ∧ degreeOk s.kind s.mesh.ndim s.k = true := by
  obtain ⟨hs, hn⟩ := run_sound ops
  obtain ⟨⟨mesh, sym⟩, hk⟩ := (known_iff hn s).mp h
  obtain ⟨h1, h2, h3, h4⟩ := hs _ _ _ hk
  refine ⟨?_, h4⟩
  obtain ⟨kind, tilde, k⟩ := sym
  simp only at h2 h3
  subst h1 h2 h3
  cases tilde with
  | true => simp [hk]
  | false =>
    by_cases e : Dict.get (run ops) (s.mesh, ⟨s.kind, true, s.k⟩) = some s
    · simp [e]
    · simp [e, hk]

/-! ### C13: degrees, for every history -/

/-- **C13, degrees.** After every history, whatever an operator returns has the degree, the class and the
mesh that exterior calculus asks for. -/
theorem degrees (ops : List Op) (s t : Space) (r' : Reg) (u : Space) :
    (d (run ops) s = some (r', u) → u.kind = s.kind ∧ u.mesh = s.mesh ∧ u.k = s.k + 1) ∧
    (codifferential (run ops) s = some (r', u) → u.kind = s.kind ∧ u.mesh = s.mesh ∧ u.k = s.k - 1) ∧
    (hodge (run ops) s = some (r', u) → u.kind = s.kind ∧ u.mesh = s.mesh ∧ u.k = s.mesh.ndim - s.k) ∧
    (wedge (run ops) s t = some (r', u) →
      u.kind = s.kind ∧ u.kind = t.kind ∧ u.mesh = s.mesh ∧ u.mesh = t.mesh ∧ u.k = s.k + t.k) ∧
    (trace (run ops) s = some (r', u) →
      u.kind = s.kind ∧ s.mesh.boundary = some u.mesh ∧ u.mesh.ndim + 1 = s.mesh.ndim ∧ u.k = s.k) := by
  obtain ⟨hs, -⟩ := run_sound ops
  refine ⟨fun h => ?_, fun h => ?_, fun h => ?_, fun h => ?_, fun h => ?_⟩
  · unfold d at h; split_ifs at h
    obtain ⟨a, b, c⟩ := new_fields h hs; exact ⟨b, a, c⟩
  · unfold codifferential at h; split_ifs at h
    obtain ⟨a, b, c⟩ := new_fields h hs; exact ⟨b, a, c⟩
  · unfold hodge at h; split_ifs at h
    obtain ⟨a, b, c⟩ := new_fields h hs; exact ⟨b, a, c⟩
  · unfold wedge at h; split_ifs at h with h1 h2 h3 h4
    all_goals
      obtain ⟨a, b, c⟩ := new_fields h hs
      exact ⟨b, b.trans h2.1, a, a.trans h1, c⟩
  · unfold trace at h; split_ifs at h with h1 h2
    cases hb : s.mesh.boundary with
    | none => simp [hb] at h
    | some b =>
      simp only [hb] at h
      obtain ⟨x, y, z⟩ := new_fields h hs
      refine ⟨y.trans h1.symm, by rw [x], ?_, z⟩
      rw [x]
      unfold Mesh.boundary at hb
      split_ifs at hb with g1 g2
      simp only [Option.some.injEq] at hb
      rw [← hb]
      simp only
      omega

theorem parse_asArg (o : Ori) : (∃ x, parseOri (asArg o) = some x) ↔ o ≠ .unknown := by
  cases o <;> simp [asArg, parseOri]

/-- **C13, refusals.** For a scalar- or bundle-valued space of definite orientation, `d` is refused exactly on
top forms, the codifferential exactly on 0-forms, the star never, the wedge exactly when the degrees add up
to more than the dimension, and the trace exactly on top forms and on meshes without boundary. -/
theorem refusals (ops : List Op) (s t : Space) (hs : Known (run ops) s) (ht : Known (run ops) t)
    (hk : s.kind ≠ .diagonal) (ho : s.ori ≠ .unknown) :
    ((∃ p, d (run ops) s = some p) ↔ s.k < s.mesh.ndim) ∧
    ((∃ p, codifferential (run ops) s = some p) ↔ 0 < s.k) ∧
    (∃ p, hodge (run ops) s = some p) ∧
    (s.kind = t.kind → s.mesh = t.mesh →
      ((∃ p, wedge (run ops) s t = some p) ↔ s.k + t.k ≤ s.mesh.ndim)) ∧
    (s.kind = .lambda → ((∃ p, trace (run ops) s = some p) ↔
      s.k < s.mesh.ndim ∧ s.mesh.periodic = false)) := by
  have hd := (known_sound hs).2
  have hdt := (known_sound ht).2
  have hb : 0 ≤ s.k ∧ s.k ≤ s.mesh.ndim := by
    revert hd hk; cases s.kind <;> simp [degreeOk]
  have key : ∀ k : ℤ, degreeOk s.kind s.mesh.ndim k = true ↔ 0 ≤ k ∧ k ≤ s.mesh.ndim := by
    intro k; revert hk; cases s.kind <;> simp [degreeOk]
  refine ⟨?_, ?_, ?_, ?_, ?_⟩
  · unfold d
    rw [if_pos hk]
    split_ifs with h
    · rw [new_none_iff, parse_asArg, key]; simp [ho, h]; omega
    · simp [h]
  · unfold codifferential
    rw [if_pos hk]
    split_ifs with h
    · rw [new_none_iff, parse_asArg, key]; simp [ho]; omega
    · simp; omega
  · unfold hodge
    rw [if_pos hk, new_none_iff, parse_asArg, key]
    refine ⟨?_, by omega, by omega⟩
    revert ho; cases s.ori <;> simp [opp]
  · intro e1 e2
    have hbt : 0 ≤ t.k ∧ t.k ≤ t.mesh.ndim := by
      rw [e1] at hk
      revert hdt hk; cases t.kind <;> simp [degreeOk]
    unfold wedge
    rw [if_pos e2, if_pos ⟨e1, hk⟩]
    split_ifs with h h'
    · rw [new_none_iff, parse_asArg, key]; simp [ho, h]; omega
    · rw [new_none_iff, key]; simp [parseOri, h]; omega
    · simp [h]
  · intro e
    unfold trace
    rw [if_pos e]
    split_ifs with h
    · unfold Mesh.boundary
      have h0 : ¬ s.mesh.ndim = 0 := by omega
      simp only [if_neg h0]
      cases hp : s.mesh.periodic with
      | true => simp
      | false =>
        simp only [Bool.false_eq_true, if_false, and_true]
        rw [new_none_iff, parse_asArg]
        simp only [ho, ne_eq, not_false_eq_true, true_and, degreeOk, decide_eq_true_eq]
        omega
    · simp; omega

/-! ### C13: orientations -/

/-- A call that names its orientation in full (or `'i'`), and that does not multiply forms of different
orientation. -/
def PlainOp : Op → Prop
  | .make _ _ _ o => Plain o
  | .wedge s t => s.ori = t.ori
  | _ => True

instance (op : Op) : Decidable (PlainOp op) := by
  cases op <;> unfold PlainOp <;> infer_instance

theorem plain_asArg {o : Ori} {x : Ori} (h : parseOri (asArg o) = some x) : Plain (asArg o) ∧ x = o := by
  cases o <;> simp [asArg, parseOri, Plain] at * <;> exact h.symm

theorem table_plain {o : Ori} (h : ∃ p, parseOri (asArg o) = some p) : Plain (asArg o) := by
  obtain ⟨x, hx⟩ := h; exact (plain_asArg hx).1

theorem call_new_plain {r : Reg} {op : Op} {p : Reg × Space} (hp : PlainOp op) (h : call r op = some p) :
    ∃ kind k mesh o, new r kind k mesh o = some p ∧ Plain o := by
  have aux : ∀ {kind k mesh o}, new r kind k mesh (asArg o) = some p →
      ∃ kind k mesh o, new r kind k mesh o = some p ∧ Plain o := by
    intro kind k mesh o hn
    exact ⟨_, _, _, _, hn, table_plain ((new_none_iff r kind k mesh (asArg o)).mp ⟨p, hn⟩).1⟩
  cases op with
  | make kind k mesh o => exact ⟨kind, k, mesh, o, h, hp⟩
  | d s => simp only [call, d] at h; split_ifs at h; exact aux h
  | codifferential s => simp only [call, codifferential] at h; split_ifs at h; exact aux h
  | hodge s => simp only [call, hodge] at h; split_ifs at h; exact aux h
  | trace s =>
    simp only [call, trace] at h; split_ifs at h
    cases hb : s.mesh.boundary with
    | none => simp [hb] at h
    | some b => simp only [hb] at h; exact aux h
  | wedge s t =>
    simp only [PlainOp] at hp
    simp only [call, wedge, if_pos hp] at h; split_ifs at h; exact aux h
  | tensor s t =>
    simp only [call, tensorProduct] at h; split_ifs at h; exact ⟨_, _, _, _, h, Or.inl rfl⟩
  | cross1 s t =>
    simp only [call, cross] at h; split_ifs at h
    cases hb : crossTable s.mesh.ndim s.k s.ori t.k t.ori with
    | none => simp [hb] at h
    | some b => simp only [hb] at h; exact aux h
  | cross2 s t =>
    simp only [call, cross] at h; split_ifs at h
    cases hb : crossTable2 s.mesh.ndim s.k s.ori t.k t.ori with
    | none => simp [hb] at h
    | some b => simp only [hb] at h; exact aux h
  | cross3 s t =>
    simp only [call, cross] at h; split_ifs at h
    cases hb : crossTable3 s.mesh.ndim s.k s.ori t.k t.ori with
    | none => simp [hb] at h
    | some b => simp only [hb] at h; exact aux h

theorem run_tidy (ops : List Op) (hp : ∀ op ∈ ops, PlainOp op) : Tidy (run ops) := by
  induction ops using List.reverseRecOn with
  | nil => intro m s t h; simp [run, Dict.get] at h
  | append_singleton ops op ih =>
    rw [run_snoc]
    have ih := ih fun x hx => hp x (by simp [hx])
    unfold step
    cases h : call (run ops) op with
    | none => exact ih
    | some p =>
      obtain ⟨kind, k, mesh, o, hn, ho⟩ := call_new_plain (hp op (by simp)) h
      exact new_tidy hn ho ih

/-- In a tidy registry `new` returns exactly the space asked for. -/
theorem new_exact {r : Reg} (hs : Sound r) (ht : Tidy r) {kind : Kind} {k : ℤ} {mesh : Mesh} {o : Ori}
    {r' : Reg} {u : Space} (h : new r kind k mesh (asArg o) = some (r', u)) : u = ⟨kind, mesh, k, o⟩ := by
  obtain ⟨ori, hp, -, -⟩ := new_cases h
  obtain ⟨hpl, rfl⟩ := plain_asArg hp
  have h1 := new_fields h hs
  have h2 := new_tidy h hpl ht _ _ _ (new_get h)
  have h3 : u.ori = ori := by
    rw [h2]; cases ori <;> simp [mkSym, asArg] ; simp [asArg, parseOri] at hp
  obtain ⟨a, b, c, e⟩ := u
  simp only at h1 h3
  obtain ⟨x, y, z⟩ := h1
  subst x y z h3; rfl

/-- **C13, orientations.** As long as no space of mixed orientation and none with the short name `'o'` was
asked for, the result of each operator is exactly the space of exterior calculus: `d`, `d*` and the trace
keep the orientation, the star turns it around, a wedge of two equally oriented forms keeps it. -/
theorem orientations_partial (ops : List Op) (hp : ∀ op ∈ ops, PlainOp op) (s t : Space) (r' : Reg)
    (u : Space) :
    (d (run ops) s = some (r', u) → u = ⟨s.kind, s.mesh, s.k + 1, s.ori⟩) ∧
    (codifferential (run ops) s = some (r', u) → u = ⟨s.kind, s.mesh, s.k - 1, s.ori⟩) ∧
    (hodge (run ops) s = some (r', u) → u = ⟨s.kind, s.mesh, s.mesh.ndim - s.k, opp s.ori⟩) ∧
    (s.ori = t.ori → wedge (run ops) s t = some (r', u) → u = ⟨s.kind, s.mesh, s.k + t.k, s.ori⟩) ∧
    (∀ b, s.mesh.boundary = some b → trace (run ops) s = some (r', u) → u = ⟨.lambda, b, s.k, s.ori⟩) := by
  obtain ⟨hs, -⟩ := run_sound ops
  have ht := run_tidy ops hp
  refine ⟨fun h => ?_, fun h => ?_, fun h => ?_, fun e h => ?_, fun b hb h => ?_⟩
  · unfold d at h; split_ifs at h; exact new_exact hs ht h
  · unfold codifferential at h; split_ifs at h; exact new_exact hs ht h
  · unfold hodge at h; split_ifs at h; exact new_exact hs ht h
  · unfold wedge at h; simp only [if_pos e] at h; split_ifs at h; exact new_exact hs ht h
  · unfold trace at h; split_ifs at h; simp only [hb] at h; exact new_exact hs ht h

/-- A registered space is found again by asking for it. -/
theorem new_known {r : Reg} (hs : Sound r) (ht : Tidy r) (hn : (Dict.keys r).Nodup) {s : Space}
    (h : Known r s) : new r s.kind s.k s.mesh (asArg s.ori) = some (r, s) := by
  obtain ⟨⟨mesh, sym⟩, hk⟩ := (known_iff hn s).mp h
  obtain ⟨h1, h2, h3, h4⟩ := hs _ _ _ hk
  have h5 := ht _ _ _ hk
  obtain ⟨kind, tilde, k⟩ := sym
  obtain ⟨kind', mesh', k', ori'⟩ := s
  simp only at h1 h2 h3 h4 h5
  subst h1 h2 h3
  unfold new
  cases tilde with
  | true =>
    have e : ori' = .outer := by simpa using h5
    subst e
    have hk' : Dict.get r (mesh', mkSym kind' k' OArg.outer) = some ⟨kind', mesh', k', .outer⟩ := hk
    simp [asArg, parseOri, h4, hk']
  | false =>
    have e : ori' = .inner := by simpa using h5
    subst e
    have hk' : Dict.get r (mesh', mkSym kind' k' OArg.inner) = some ⟨kind', mesh', k', .inner⟩ := hk
    simp [asArg, parseOri, h4, hk']

theorem known_mono {r : Reg} (hn : (Dict.keys r).Nodup) {kind : Kind} {k : ℤ} {mesh : Mesh} {o : OArg}
    {r' : Reg} {u s : Space} (h : new r kind k mesh o = some (r', u)) (hk : Known r s) : Known r' s := by
  obtain ⟨key, he⟩ := (known_iff hn s).mp hk
  exact (known_iff (new_nodup h hn) s).mpr ⟨key, new_mono h he⟩

theorem opp_opp (o : Ori) : opp (opp o) = o := by cases o <;> rfl

/-- **C13, involution.** Applying the star twice gives back the very same space object, and the second
application registers nothing. -/
theorem star_star_partial (ops : List Op) (hp : ∀ op ∈ ops, PlainOp op) (s : Space)
    (hs : Known (run ops) s) (hk : s.kind ≠ .diagonal) :
    ∃ r1 u, hodge (run ops) s = some (r1, u) ∧ hodge r1 u = some (r1, s) := by
  obtain ⟨h1, h2⟩ := run_sound ops
  have h3 := run_tidy ops hp
  obtain ⟨key, he⟩ := (known_iff h2 s).mp hs
  have ho : s.ori ≠ .unknown := by
    rw [h3 _ _ _ he]; split_ifs <;> simp
  obtain ⟨p, hpp⟩ := (refusals ops s s hs hs hk ho).2.2.1
  obtain ⟨r1, u⟩ := p
  refine ⟨r1, u, hpp, ?_⟩
  have e := (orientations_partial ops hp s s r1 u).2.2.1 hpp
  have hn : new (run ops) s.kind (s.mesh.ndim - s.k) s.mesh (asArg (opp s.ori)) = some (r1, u) := by
    unfold hodge at hpp; split_ifs at hpp; exact hpp
  have hpl : Plain (asArg (opp s.ori)) := table_plain ((new_none_iff _ _ _ _ _).mp ⟨_, hn⟩).1
  have := new_known (new_sound hn h1) (new_tidy hn hpl h3) (new_nodup hn h2) (known_mono h2 hn hs)
  subst e
  unfold hodge
  rw [if_pos hk]
  simp only [opp_opp, sub_sub_cancel]
  exact this

/-- **C13, adjoint.** Star, then `d`, then star leads to the same space as the codifferential, whenever the
codifferential exists. -/
theorem star_d_star_partial (ops : List Op) (hp : ∀ op ∈ ops, PlainOp op) (s : Space)
    (hs : Known (run ops) s) (hk : s.kind ≠ .diagonal) (h0 : 0 < s.k) :
    ∃ r1 a r2 b r3 c r4, hodge (run ops) s = some (r1, a) ∧ d r1 a = some (r2, b) ∧
      hodge r2 b = some (r3, c) ∧ codifferential (run ops) s = some (r4, c) := by
  have step1 : ∀ (ops : List Op) (op : Op) (r1 : Reg) (a : Space),
      call (run ops) op = some (r1, a) → run (ops ++ [op]) = r1 ∧ Known r1 a := by
    intro ops op r1 a h
    have e : run (ops ++ [op]) = r1 := by rw [run_snoc, step, h]
    refine ⟨e, ?_⟩
    obtain ⟨kind, k, mesh, o, hn⟩ := call_new h
    exact (known_iff (new_nodup hn (run_sound ops).2) a).mpr ⟨_, new_get hn⟩
  have ori : ∀ (ops : List Op), (∀ op ∈ ops, PlainOp op) → ∀ s, Known (run ops) s → s.ori ≠ .unknown := by
    intro ops hp s hs
    obtain ⟨key, he⟩ := (known_iff (run_sound ops).2 s).mp hs
    rw [run_tidy ops hp _ _ _ he]; split_ifs <;> simp
  -- star
  obtain ⟨⟨r1, a⟩, h1⟩ := (refusals ops s s hs hs hk (ori ops hp s hs)).2.2.1
  have c1 : call (run ops) (.hodge s) = some (r1, a) := by simp only [call, if_pos hs]; exact h1
  obtain ⟨e1, k1⟩ := step1 _ _ _ _ c1
  have p1 : ∀ op ∈ ops ++ [Op.hodge s], PlainOp op := by
    intro op ho
    rcases List.mem_append.mp ho with h | h
    · exact hp op h
    · simp only [List.mem_singleton] at h; subst h; trivial
  have f1 := (orientations_partial ops hp s s r1 a).2.2.1 h1
  rw [← e1] at k1
  -- d
  have hd2 : ∃ p, d (run (ops ++ [Op.hodge s])) a = some p := by
    refine (refusals _ a a k1 k1 (by rw [f1]; exact hk) (ori _ p1 a k1)).1.mpr ?_
    rw [f1]; simp only; omega
  obtain ⟨⟨r2, b⟩, h2⟩ := hd2
  have c2 : call (run (ops ++ [Op.hodge s])) (.d a) = some (r2, b) := by simp only [call, if_pos k1]; exact h2
  obtain ⟨e2, k2⟩ := step1 _ _ _ _ c2
  have p2 : ∀ op ∈ (ops ++ [Op.hodge s]) ++ [Op.d a], PlainOp op := by
    intro op ho
    rcases List.mem_append.mp ho with h | h
    · exact p1 op h
    · simp only [List.mem_singleton] at h; subst h; trivial
  have f2 := (orientations_partial _ p1 a a r2 b).1 h2
  rw [← e2] at k2
  -- star
  obtain ⟨⟨r3, c⟩, h3⟩ := (refusals _ b b k2 k2 (by rw [f2, f1]; exact hk) (ori _ p2 b k2)).2.2.1
  have f3 := (orientations_partial _ p2 b b r3 c).2.2.1 h3
  -- codifferential
  obtain ⟨⟨r4, c'⟩, h4⟩ := (refusals ops s s hs hs hk (ori ops hp s hs)).2.1.mpr h0
  have f4 := (orientations_partial ops hp s s r4 c').2.1 h4
  have : c = c' := by
    rw [f3, f4, f2, f1]
    simp only [opp_opp, Space.mk.injEq, true_and, and_true]
    omega
  subst this
  exact ⟨r1, a, r2, b, r3, c, r4, h1, by rw [← e1]; exact h2, by rw [← e2]; exact h3, h4⟩

/-- A two-dimensional mesh. -/
def plane : Mesh := ⟨0, 0, 2, 2, false⟩

/-- A history meeting the hypotheses of the theorems above. -/
def someOps : List Op := [.make .lambda 1 plane .inner, .make .lambda 0 plane .outer]

example : (∀ op ∈ someOps, PlainOp op) ∧ Known (run someOps) ⟨.lambda, plane, 1, .inner⟩ ∧
    hodge (run someOps) ⟨.lambda, plane, 1, .inner⟩ =
      some (Dict.put (run someOps) (plane, ⟨.lambda, true, 1⟩) ⟨.lambda, plane, 1, .outer⟩,
        ⟨.lambda, plane, 1, .outer⟩) ∧
    codifferential (run someOps) ⟨.lambda, plane, 1, .inner⟩ ≠ none ∧
    trace (run someOps) ⟨.lambda, plane, 0, .outer⟩ ≠ none ∧
    wedge (run someOps) ⟨.lambda, plane, 1, .inner⟩ ⟨.lambda, plane, 0, .outer⟩ ≠ none := by decide +kernel

/-- **C13 is violated when orientations are mixed.** The wedge of an inner 1-form and an outer 0-form has no
orientation when it is the first space of its symbolic representation, and is inner-oriented when an inner
1-form space exists already; afterwards a request for an inner space returns one without orientation. -/
theorem mixed_orientation_refuted :
    ∃ (ops ops' : List Op) (s t : Space),
      Known (run ops) s ∧ Known (run ops) t ∧ Known (run ops') s ∧ Known (run ops') t ∧
      (wedge (run ops) s t).map (fun p => p.2.ori) = some .inner ∧
      (wedge (run ops') s t).map (fun p => p.2.ori) = some .unknown ∧
      (new (run (ops' ++ [Op.wedge s t])) .lambda 2 plane .inner).map (fun p => p.2.ori) = some .unknown := by
  refine ⟨[.make .lambda 1 plane .inner, .make .lambda 1 plane .outer, .make .lambda 2 plane .inner],
    [.make .lambda 1 plane .inner, .make .lambda 1 plane .outer],
    ⟨.lambda, plane, 1, .inner⟩, ⟨.lambda, plane, 1, .outer⟩, ?_⟩
  decide +kernel

/-- **C13 is violated for a space of unknown orientation**: the star, `d` and the codifferential of the wedge
of an inner and an outer form are refused although their degrees are legal. -/
theorem unknown_orientation_refuted :
    ∃ (ops : List Op) (s : Space), Known (run ops) s ∧ 0 < s.k ∧ s.k < s.mesh.ndim ∧
      hodge (run ops) s = none ∧ d (run ops) s = none ∧ codifferential (run ops) s = none := by
  refine ⟨[.make .lambda 0 plane .inner, .make .lambda 1 plane .outer,
    .wedge ⟨.lambda, plane, 0, .inner⟩ ⟨.lambda, plane, 1, .outer⟩], ⟨.lambda, plane, 1, .unknown⟩, ?_⟩
  decide +kernel

/-- **C13 is violated for the short name `'o'`**: asking for an outer space by `'o'` returns the inner space
when that exists. -/
theorem short_name_refuted :
    ∃ ops : List Op, (new (run ops) .lambda 1 plane .o).map (fun p => p.2.ori) = some .inner := by
  refine ⟨[.make .lambda 1 plane .inner], ?_⟩
  decide +kernel

/-! ### The names of vector calculus -/

/-- **C13, names.** On an `n`-dimensional mesh in `n`-dimensional space (`n = 1, 2, 3`), `d` of a `k`-form has
a vector calculus name exactly for `0 ≤ k < n`, and the codifferential of a `k`-form has the name of `d` on
the starred side, degree `n - k` and opposite orientation. -/
theorem vc_names (m n : ℕ) (k : ℤ) (o : Ori) (ho : o ≠ .unknown) :
    ((∃ v, dToVc m n k o = some v) ↔ m = n ∧ 1 ≤ n ∧ n ≤ 3 ∧ 0 ≤ k ∧ k < n) ∧
    (1 ≤ k → k ≤ n → (dAstToVc m n k o).map Prod.snd = dToVc m n (n - k) (opp o)) := by
  by_cases hm : m = n
  · subst hm
    by_cases h3 : m ≤ 3
    · interval_cases m
      · constructor
        · simp [dToVc]
        · intro a b; simp at b; omega
      all_goals
        constructor
        · constructor
          · rintro ⟨v, hv⟩
            unfold dToVc at hv
            simp at hv
            refine ⟨rfl, by norm_num, by norm_num, ?_⟩
            cases o <;> simp at ho hv <;> (try split_ifs at hv) <;> omega
          · rintro ⟨-, -, -, a, b⟩
            simp only [Nat.cast_ofNat, Nat.cast_one] at b
            interval_cases k <;> cases o <;> simp_all [dToVc]
        · intro a b
          simp only [Nat.cast_ofNat, Nat.cast_one] at b
          interval_cases k <;> cases o <;> simp_all [dToVc, dAstToVc, opp]
    · constructor
      · constructor
        · rintro ⟨v, hv⟩
          have : m ≠ 1 ∧ m ≠ 2 ∧ m ≠ 3 := by omega
          simp [dToVc, this] at hv
        · rintro ⟨-, -, a, -⟩; omega
      · intro a b
        have : m ≠ 1 ∧ m ≠ 2 ∧ m ≠ 3 := by omega
        simp [dToVc, dAstToVc, this]
  · simp [dToVc, dAstToVc, hm]

example : dToVc 2 2 1 .outer = some .divergence ∧ dAstToVc 2 2 1 .inner = some (true, .divergence) := by decide

/-- **C13, signs.** The codifferential carries no minus exactly when its name is curl or rot: these are adjoint to each other,
while gradient and divergence (in one dimension, the derivative) are adjoint up to sign. -/
theorem vc_sign (m n : ℕ) (k : ℤ) (o : Ori) (neg : Bool) (v : VC) (h : dAstToVc m n k o = some (neg, v)) :
    neg = false ↔ v = .curl ∨ v = .rot := by
  unfold dAstToVc at h
  split_ifs at h <;> (try cases o) <;> simp_all <;> obtain ⟨rfl, rfl⟩ := h <;> simp

/-- **C13, names of orientations.** A space asked for the first time has the orientation asked for, by its full or its short
name; without a name it is unknown; every other value is refused. -/
theorem new_orientation (kind : Kind) (k : ℤ) (mesh : Mesh) (hk : degreeOk kind mesh.ndim k = true) :
    (new [] kind k mesh .inner).map (fun p => p.2.ori) = some .inner ∧
    (new [] kind k mesh .i).map (fun p => p.2.ori) = some .inner ∧
    (new [] kind k mesh .outer).map (fun p => p.2.ori) = some .outer ∧
    (new [] kind k mesh .o).map (fun p => p.2.ori) = some .outer ∧
    (new [] kind k mesh .none).map (fun p => p.2.ori) = some .unknown ∧
    (new [] kind k mesh .noneStr).map (fun p => p.2.ori) = some .unknown ∧
    new [] kind k mesh .unknownStr = none ∧ new [] kind k mesh .other = none := by
  simp [new, parseOri, hk, Dict.get]

/-! ### C63: cross products -/

/-- The vector proxy of a form: in three dimensions 0- and 3-forms are scalars, 1- and 2-forms vectors; in
the plane 1-forms are vectors in the plane, inner 0-forms and outer 2-forms are scalars, outer 0-forms and
inner 2-forms stand for vectors normal to the plane. -/
inductive Proxy | scalar | vector | normal
deriving DecidableEq

def proxy (n : ℕ) (k : ℤ) (o : Ori) : Option Proxy :=
  if n = 3 then
    if k = 0 ∨ k = 3 then some .scalar else if k = 1 ∨ k = 2 then some .vector else none
  else if n = 2 then
    if k = 1 then some .vector
    else if (k = 0 ∧ o = .inner) ∨ (k = 2 ∧ o = .outer) then some .scalar
    else if (k = 0 ∧ o = .outer) ∨ (k = 2 ∧ o = .inner) then some .normal
    else none
  else none

/-- The cross product of two proxies: vectors of space give a vector of space; in the plane two vectors give
a normal one, a normal and a plane one a plane one. -/
def proxyCross (n : ℕ) : Proxy → Proxy → Option Proxy
  | .vector, .vector => if n = 3 then some .vector else if n = 2 then some .normal else none
  | .normal, .vector => if n = 2 then some .vector else none
  | .vector, .normal => if n = 2 then some .vector else none
  | _, _ => none

/-- **C63.** Whenever one of the three cross products of spaces exists, its vector proxy is the cross product
of the vector proxies of the factors. -/
theorem cross_proxies (n : ℕ) (k1 k2 k : ℤ) (o1 o2 o : Ori)
    (h : crossTable n k1 o1 k2 o2 = some (k, o) ∨ crossTable2 n k1 o1 k2 o2 = some (k, o) ∨
      crossTable3 n k1 o1 k2 o2 = some (k, o)) :
    ∃ a b c, proxy n k1 o1 = some a ∧ proxy n k2 o2 = some b ∧ proxyCross n a b = some c ∧
      proxy n k o = some c := by
  rcases h with h | h | h
  · unfold crossTable at h
    split at h
    · split_ifs at h <;> simp only [Option.some.injEq, Prod.mk.injEq] at h <;>
        (obtain ⟨rfl, rfl⟩ := h; simp_all [proxy, proxyCross])
    · split_ifs at h <;> simp only [Option.some.injEq, Prod.mk.injEq] at h <;>
        (obtain ⟨rfl, rfl⟩ := h; simp_all [proxy, proxyCross])
    · simp at h
  · unfold crossTable2 at h
    split at h
    · split_ifs at h <;> simp only [Option.some.injEq, Prod.mk.injEq] at h <;>
        (obtain ⟨rfl, rfl⟩ := h; simp_all [proxy, proxyCross])
    · split_ifs at h <;> simp only [Option.some.injEq, Prod.mk.injEq] at h <;>
        (obtain ⟨rfl, rfl⟩ := h; simp_all [proxy, proxyCross])
    · simp at h
  · unfold crossTable3 at h
    split at h
    · split_ifs at h <;> simp only [Option.some.injEq, Prod.mk.injEq] at h <;>
        (obtain ⟨rfl, rfl⟩ := h; simp_all [proxy, proxyCross])
    · simp at h

/-- The same for the space objects, after every history of calls without mixed orientations. -/
theorem cross_spaces (ops : List Op) (hp : ∀ op ∈ ops, PlainOp op) (s t : Space)
    (table) (htab : table = crossTable ∨ table = crossTable2 ∨ table = crossTable3)
    (r' : Reg) (u : Space) (h : cross table (run ops) s t = some (r', u)) :
    u.mesh = s.mesh ∧ u.mesh = t.mesh ∧ u.kind = .lambda ∧
    ∃ a b c, proxy s.mesh.ndim s.k s.ori = some a ∧ proxy s.mesh.ndim t.k t.ori = some b ∧
      proxyCross s.mesh.ndim a b = some c ∧ proxy s.mesh.ndim u.k u.ori = some c := by
  unfold cross at h
  split_ifs at h with hc
  cases hb : table s.mesh.ndim s.k s.ori t.k t.ori with
  | none => simp [hb] at h
  | some ko =>
    simp only [hb] at h
    have e := new_exact (run_sound ops).1 (run_tidy ops hp) h
    subst e
    refine ⟨rfl, hc.2.2.1, rfl, ?_⟩
    refine cross_proxies _ _ _ _ _ _ _ ?_
    rcases htab with rfl | rfl | rfl
    · exact Or.inl hb
    · exact Or.inr (Or.inl hb)
    · exact Or.inr (Or.inr hb)

/-- **C63, the space of the product.** A vector normal to the plane, or in space an outer 1-form or inner 2-form (the
vorticities), times a vector is in the very space of that vector. -/
theorem cross_keeps_second (n : ℕ) (k1 k2 k : ℤ) (o1 o2 o : Ori) (h : crossTable n k1 o1 k2 o2 = some (k, o))
    (h1 : n = 2 ∧ proxy n k1 o1 = some .normal ∨ n = 3 ∧ (k1 = 1 ∧ o1 = .outer ∨ k1 = 2 ∧ o1 = .inner)) :
    k = k2 ∧ o = o2 := by
  unfold crossTable at h
  split at h
  · split_ifs at h <;> simp only [Option.some.injEq, Prod.mk.injEq] at h <;> simp_all [proxy]
  · split_ifs at h <;> simp only [Option.some.injEq, Prod.mk.injEq] at h <;> simp_all
  · simp at h

example : crossTable 2 1 .outer 1 .inner = some (2, .inner) ∧ crossTable2 3 2 .inner 2 .outer = some (2, .inner) ∧
    crossTable3 3 1 .outer 1 .inner = some (1, .outer) := by decide

end Phyem.Spaces
