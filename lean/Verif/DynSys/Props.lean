import Verif.DynSys.Session
import Mathlib.Algebra.Field.Rat
import Mathlib.Data.Rat.Defs

/-!
C105: evaluated systems are the abstract ones.
C106: which boundary conditions are imposed.
C107: evaluations do not disturb one another.
-/

namespace Phyem.DynSys

open Phyem OpCache

section
variable {T τ C K : Type} [Field K] [DecidableEq K]

/-- C105.  A system evaluated after any history, and read after any further history, is the abstract system
at the arguments of the evaluation with the boundary conditions configured when it was evaluated - if no
history makes a system that imposes essential conditions on a row with a bare block. -/
theorem evaluated_system (w : World T τ C K) (h h' : List (UserOp T τ C K)) (hs : SafeHistory (h ++ h'))
    (k : ℕ) (t : T) (d : Dls T τ C K) (hd : (session w h).systems[k]? = some d) (S : SLS τ K)
    (hS : (call w k t (session w h)).2 = some S) :
    IsEvaluation w d.configs d.src t (session w (h ++ .call k t :: h')).heap S := by
  have h1 : SafeHistory h := fun sys hsys => hs sys (List.mem_append_left _ hsys)
  have h2 : SafeHistory h' := fun sys hsys => hs sys (List.mem_append_right _ hsys)
  obtain ⟨-, hi⟩ := foldl_inv w h h1 _ (init_inv w)
  have hc := call_spec w k t (session w h) hi.wf hi.ready
  obtain ⟨d', hd', he⟩ := hc.2 S hS
  obtain rfl := Option.some.inj (hd.symm.trans hd')
  obtain ⟨-, hi'⟩ := step_inv w (.call k t) (fun sys hsys => by cases hsys) (session w h) hi
  obtain ⟨hp, -⟩ := foldl_inv w h' h2 _ hi'
  have hfold : session w (h ++ .call k t :: h') =
      h'.foldl (userStep w) (userStep w (session w h) (.call k t)) := by
    unfold session
    rw [List.foldl_append, List.foldl_cons]
  rw [hfold]
  exact (he.mono hp hi'.wf).is

/-- C105.  What the systems of a session are: applying a system adds it without configurations or, if it
raises, adds nothing; a configuration is added at the end of those of its system; evaluations change
neither. -/
theorem systems_step (w : World T τ C K) (h : List (UserOp T τ C K)) (hs : SafeHistory h) (o : UserOp T τ C K)
    (ho : ∀ sys, o = .apply sys → Safe sys) :
    let before := (session w h).systems.map fun d => (d.src, d.configs)
    let after := (session w (h ++ [o])).systems.map fun d => (d.src, d.configs)
    match o with
    | .apply sys => after = before ++ [(sys, [])] ∨ after = before
    | .config k c => after = before.modify k fun d => (d.1, d.2 ++ [c])
    | .call _ _ => after = before := by
  obtain ⟨-, hi⟩ := foldl_inv w h hs _ (init_inv w)
  have hfold : session w (h ++ [o]) = userStep w (session w h) o := by
    unfold session
    rw [List.foldl_append]
    rfl
  rw [hfold]
  cases o with
  | apply sys =>
    obtain ⟨-, -, h1, h2⟩ := apply_inv w sys (ho sys rfl) (session w h) hi
    change (apply w sys (session w h)).1.systems.map _ = _ ∨ (apply w sys (session w h)).1.systems.map _ = _
    cases hr : (apply w sys (session w h)).2 with
    | none => exact .inr (by rw [h2 hr])
    | some u =>
      obtain ⟨A, b, h3⟩ := h1 u hr
      exact .inl (by rw [h3]; simp)
  | config k c =>
    change ((session w h).systems.modify k _).map _ = _
    apply List.ext_getElem?
    intro n
    rw [List.getElem?_map, List.getElem?_modify, List.getElem?_modify, List.getElem?_map]
    cases (session w h).systems[n]? with
    | none => rfl
    | some d => by_cases hk : k = n <;> simp [hk]
  | call k t =>
    obtain ⟨-, -, h3⟩ := (call_spec w k t (session w h) hi.wf hi.ready).1
    change (call w k t (session w h)).1.systems.map _ = _
    rw [h3]

/-- C107 for safe histories.  Evaluating a system again with the same arguments and configurations gives the
same entries, whatever was done in between, and the first result still reads the same. -/
theorem evaluations_agree_partial (w : World T τ C K) (h h' : List (UserOp T τ C K))
    (hs : SafeHistory (h ++ h')) (k k' : ℕ) (t : T) (d d' : Dls T τ C K)
    (hd : (session w h).systems[k]? = some d)
    (hd' : (session w (h ++ .call k t :: h')).systems[k']? = some d')
    (hsrc : d'.src = d.src) (hcf : d'.configs = d.configs) (S S' : SLS τ K)
    (hS : (call w k t (session w h)).2 = some S)
    (hS' : (call w k' t (session w (h ++ .call k t :: h'))).2 = some S')
    (i j : ℕ) (row : List (List (Term T τ K))) (l : List (Term T τ K)) (hrow : d.src.A[i]? = some row)
    (hl : row[j]? = some l) (hl0 : l ≠ []) :
    ∃ m m' : MRef, (S.A[i]?.bind (·[j]?)) = some m ∧ (S'.A[i]?.bind (·[j]?)) = some m' ∧
      ∀ e, readM (call w k' t (session w (h ++ .call k t :: h'))).1.heap m.id e =
        readM (call w k' t (session w (h ++ .call k t :: h'))).1.heap m'.id e := by
  have e1 := evaluated_system w h (h' ++ [.call k' t]) (fun sys hsys => by
    rcases List.mem_append.mp hsys with h1 | h1
    · exact hs sys (List.mem_append_left _ h1)
    · rcases List.mem_append.mp h1 with h1 | h1
      · exact hs sys (List.mem_append_right _ h1)
      · cases List.mem_singleton.mp h1) k t d hd S hS
  have hs2 : SafeHistory ((h ++ .call k t :: h') ++ []) := fun sys hsys => by
    rw [List.append_nil] at hsys
    rcases List.mem_append.mp hsys with h1 | h1
    · exact hs sys (List.mem_append_left _ h1)
    · rcases List.mem_cons.mp h1 with h1 | h1
      · cases h1
      · exact hs sys (List.mem_append_right _ h1)
  have e2 := evaluated_system w (h ++ .call k t :: h') [] hs2 k' t d' hd' S' hS'
  rw [hsrc, hcf] at e2
  have hheap : session w (h ++ .call k t :: (h' ++ [.call k' t])) =
      (call w k' t (session w (h ++ .call k t :: h'))).1 := by
    unfold session
    rw [← List.cons_append, ← List.append_assoc, List.foldl_append]
    rfl
  have hheap' : session w ((h ++ .call k t :: h') ++ [.call k' t]) =
      (call w k' t (session w (h ++ .call k t :: h'))).1 := by
    unfold session
    rw [List.foldl_append]
    rfl
  rw [hheap] at e1
  rw [hheap'] at e2
  have hx : S'.x = S.x := by
    apply List.ext_getElem?
    intro n
    cases hn : d.src.x[n]? with
    | none =>
      have h1 := List.getElem?_eq_none_iff.mp hn
      rw [List.getElem?_eq_none (by rw [← e2.x.length_eq]; exact h1),
        List.getElem?_eq_none (by rw [← e1.x.length_eq]; exact h1)]
    | some f =>
      obtain ⟨u, h1, h2, h3⟩ := forall₂_get e1.x hn
      obtain ⟨u', h1', h2', h3'⟩ := forall₂_get e2.x hn
      rw [h1, h1']
      rw [h3] at h3'
      cases u
      cases u'
      simp_all
  obtain ⟨ρ, r1, -⟩ := e1.row i row hrow
  obtain ⟨ρ', r2, -⟩ := e2.row i row hrow
  obtain ⟨f, ms, m, a1, a2, a3, -, -, a4, a5⟩ := r1 j l hl
  obtain ⟨f', ms', m', b1, b2, b3, -, -, b4, b5⟩ := r2 j l hl
  obtain rfl := Option.some.inj (a1.symm.trans b1)
  have hρ := (a4 hl0).symm.trans (b4 hl0)
  simp only [Option.some.injEq, Prod.mk.injEq, and_true] at hρ
  refine ⟨m, m', by rw [a2]; exact a3, by rw [b2]; exact b3, fun e => ?_⟩
  rw [a5 e, b5 e, hρ, hx]

/-! ### C106 -/

/-- C106.  The condition imposed for an essential condition is the one configured last among those on this
section for the base form of the unknown. -/
theorem essential_latest (w : World T τ C K) (cf : List (Config C)) (sec base : ℕ) (c : Config C) :
    findEssential w cf sec base = some c ↔
      ∃ pre post, cf = pre ++ c :: post ∧
        (c.essential = true ∧ w.manifold c.place = sec ∧ c.root = base) ∧
        ∀ c' ∈ post, ¬ (c'.essential = true ∧ w.manifold c'.place = sec ∧ c'.root = base) := by
  unfold findEssential
  rw [List.find?_eq_some_iff_append]
  constructor
  · rintro ⟨h1, as, bs, h2, h3⟩
    refine ⟨bs.reverse, as.reverse, ?_, by simpa [and_assoc] using h1, fun c' hc' => ?_⟩
    · have := congrArg List.reverse h2
      simpa using this
    · have := h3 c' (List.mem_reverse.mp hc')
      revert this
      cases c'.essential <;> simp <;> tauto
  · rintro ⟨pre, post, rfl, h1, h2⟩
    refine ⟨by simpa [and_assoc] using h1, post.reverse, pre.reverse, by simp, fun c' hc' => ?_⟩
    have := h2 c' (List.mem_reverse.mp hc')
    revert this
    cases c'.essential <;> simp <;> tauto

/-- C106.  The same for natural conditions, by place. -/
theorem natural_latest (cf : List (Config C)) (place f0 : ℕ) (c : Config C) :
    findNatural cf place f0 = some c ↔
      ∃ pre post, cf = pre ++ c :: post ∧
        (c.essential = false ∧ c.place = place ∧ c.root = f0) ∧
        ∀ c' ∈ post, ¬ (c'.essential = false ∧ c'.place = place ∧ c'.root = f0) := by
  unfold findNatural
  rw [List.find?_eq_some_iff_append]
  constructor
  · rintro ⟨h1, as, bs, h2, h3⟩
    refine ⟨bs.reverse, as.reverse, ?_, by simpa [and_assoc] using h1, fun c' hc' => ?_⟩
    · have := congrArg List.reverse h2
      simpa using this
    · have := h3 c' (List.mem_reverse.mp hc')
      revert this
      cases c'.essential <;> simp <;> tauto
  · rintro ⟨pre, post, rfl, h1, h2⟩
    refine ⟨by simpa [and_assoc] using h1, post.reverse, pre.reverse, by simp, fun c' hc' => ?_⟩
    have := h2 c' (List.mem_reverse.mp hc')
    revert this
    cases c'.essential <;> simp <;> tauto

/-- C106.  A system with an essential condition for which nothing is configured cannot be evaluated. -/
theorem missing_condition_raises (w : World T τ C K) (h : List (UserOp T τ C K)) (hs : SafeHistory h)
    (k : ℕ) (t : T) (d : Dls T τ C K) (hd : (session w h).systems[k]? = some d)
    (bc : List (ℕ × List BC)) (hbc : d.src.bc = some bc) (sec : ℕ) (cs : List BC) (hsec : (sec, cs) ∈ bc)
    (i f : ℕ) (hi : .essential i ∈ cs) (hf : d.src.x[i]? = some f)
    (hno : ∀ c ∈ d.configs, ¬ (c.essential = true ∧ w.manifold c.place = sec ∧ c.root = (w.form f).base)) :
    (call w k t (session w h)).2 = none := by
  cases hc : (call w k t (session w h)).2 with
  | none => rfl
  | some S =>
    have e := evaluated_system w h [] (by rw [List.append_nil]; exact hs) k t d hd S hc
    have hp : (sec, BC.essential i) ∈ (d.src.bc.map flat).getD [] := by
      rw [hbc]
      exact List.mem_flatMap.mpr ⟨(sec, cs), hsec, List.mem_map.mpr ⟨_, hi, rfl⟩⟩
    obtain ⟨u, c, l, h1, h2, -⟩ := e.found _ hp i rfl
    obtain ⟨u', h3, h4, -⟩ := forall₂_get e.x hf
    obtain rfl := Option.some.inj (h1.symm.trans h3)
    obtain ⟨pre, post, h5, h6, -⟩ := (essential_latest w d.configs sec _ c).mp h2
    refine absurd h6 ?_
    rw [h4]
    exact hno c (by rw [h5]; simp)

/-- C106 in part.  A natural condition that is on one section only is taken from this section. -/
theorem natural_section_partial (bc : List (ℕ × List BC)) (f0 sec : ℕ) (pre post : List (ℕ × List BC))
    (cs : List BC) (hbc : bc = pre ++ (sec, cs) :: post) (hc : .natural f0 ∈ cs)
    (hpost : ∀ p ∈ post, .natural f0 ∉ p.2) : naturalSection bc f0 = some sec := by
  subst hbc
  unfold naturalSection
  rw [List.foldl_append, List.foldl_cons]
  have hany : ∀ cs : List BC, (cs.any (BC.naturalOf f0)) = true ↔
      .natural f0 ∈ cs := by
    intro cs
    rw [List.any_eq_true]
    constructor
    · rintro ⟨c, h1, h2⟩
      cases c with
      | natural g =>
        obtain rfl : g = f0 := by simpa [BC.naturalOf] using h2
        exact h1
      | essential i => cases h2
      | manual => cases h2
    · intro h1
      exact ⟨_, h1, by simp [BC.naturalOf]⟩
  have hrest : ∀ (l : List (ℕ × List BC)) (o : Option ℕ), (∀ p ∈ l, BC.natural f0 ∉ p.2) →
      l.foldl (fun found sb =>
        if sb.2.any (BC.naturalOf f0) then some sb.1 else found) o =
        o := by
    intro l
    induction l with
    | nil => intro o _; rfl
    | cons p l ih =>
      intro o hl
      rw [List.foldl_cons, if_neg (by
        rw [hany]
        exact hl p (List.mem_cons_self ..))]
      exact ih o fun q hq => hl q (List.mem_cons_of_mem _ hq)
  rw [hrest post _ hpost, if_pos ((hany cs).mpr hc)]

end

/-! ### A concrete case -/

namespace Ex

/-- Two elements with two dofs each, one form and one mass matrix. -/
def world : World ℚ ℚ ℚ ℚ where
  elems := [0, 1]
  size _ _ := 2
  mass _ := ⟨fun e => if e < 2 then some ⟨2, 2, fun r c => if r = c then 2 else 1⟩ else none, fun _ => [], 0, 0⟩
  inc _ := ⟨fun _ => some ⟨2, 2, fun r c => r + 2 * c⟩, fun _ => [], 0, 0⟩
  form _ := ⟨0, 0, fun t => some t, fun t e => some ⟨2, fun r => t + e + r⟩⟩
  manifold p := p
  meshOf s := some s
  boundary c _ _ place := some fun _ => some ⟨2, fun _ => c * (place + 1)⟩
  edits _ c _ _ := some [⟨0, 0, true, c⟩]

/-- A term with a constant factor. -/
def term (minus : Bool) (f : ℚ) (l : List (Comp ℚ ℚ ℚ)) : Term ℚ ℚ ℚ :=
  ⟨minus, fun _ => some f, l.map fun c => ⟨c, false⟩⟩

/-- `(-M + 3 M E) u = M u`, with an essential condition on section 0. -/
def sys : Sys ℚ ℚ ℚ :=
  ⟨[[[term true 1 [.mass 0], term false 3 [.mass 0, .d 0]]]], [0], [[term false 1 [.mass 0, .form 0]]],
    some [(0, [.essential 0])]⟩

def hist : List (UserOp ℚ ℚ ℚ ℚ) := [.apply sys, .config 0 ⟨true, 0, 7, 0⟩]

lemma safe : SafeHistory hist := by
  rintro s hs bc hbc p hp i hi row hrow l hl t ⟨m, hm, hm', -⟩
  obtain rfl : s = sys := by
    simp only [hist, List.mem_cons, UserOp.apply.injEq, List.not_mem_nil, or_false, reduceCtorEq] at hs
    exact hs
  have hrow' : row ∈ sys.A := List.mem_of_getElem? hrow
  simp only [sys, List.mem_singleton] at hrow'
  subst hrow'
  simp only [List.mem_singleton] at hl
  subst hl
  simp at hm

/-- The evaluation succeeds. -/
example : ((call world 0 5 (session world hist)).2).isSome = true := by decide +kernel

/-- Element 0: the first row is prescribed, the second is `-M + 3 M E`. -/
example : ((call world 0 5 (session world hist)).2.bind fun S => (S.A[0]?.bind (·[0]?)).bind fun m =>
    (readM (call world 0 5 (session world hist)).1.heap m.id 0).map fun A =>
      (A.ent 0 0, A.ent 0 1, A.ent 1 0, A.ent 1 1)) = some (1, 0, 5, 22) := by decide +kernel

/-- The right-hand side `M u` with the prescribed value. -/
example : ((call world 0 5 (session world hist)).2.bind fun S => (S.b[0]?).bind fun v =>
    (v.read (call world 0 5 (session world hist)).1.heap 0).map fun A => (A.ent 0, A.ent 1)) =
    some (7, 17) := by decide +kernel

/-- `evaluated_system` applies. -/
example (S : SLS ℚ ℚ) (hS : (call world 0 5 (session world hist)).2 = some S) (d : Dls ℚ ℚ ℚ ℚ)
    (hd : (session world hist).systems[0]? = some d) (h' : List (UserOp ℚ ℚ ℚ ℚ))
    (hs : SafeHistory (hist ++ h')) :
    IsEvaluation world d.configs d.src 5 (session world (hist ++ .call 0 5 :: h')).heap S :=
  evaluated_system world hist h' hs 0 5 d hd S hS

end Ex

/-! ### Where the code disagrees -/

namespace Bad

/-- `M u = u` with an essential condition: the block is the cached mass matrix itself. -/
def bare : Sys ℚ ℚ ℚ :=
  ⟨[[[Ex.term false 1 [.mass 0]]]], [0], [[Ex.term false 1 [.form 0]]], some [(0, [.essential 0])]⟩

/-- `2 M u = u` without conditions. -/
def other : Sys ℚ ℚ ℚ := ⟨[[[Ex.term false 2 [.mass 0]]]], [0], [[Ex.term false 1 [.form 0]]], none⟩

def hist : List (UserOp ℚ ℚ ℚ ℚ) := [.apply bare, .apply other, .config 0 ⟨true, 0, 7, 0⟩]

/-- The first entries of block `(0, 0)` in element 0 of system 1 evaluated after a history. -/
def entries (h : List (UserOp ℚ ℚ ℚ ℚ)) : Option (ℚ × ℚ) :=
  (call Ex.world 1 5 (session Ex.world h)).2.bind fun S => (S.A[0]?.bind (·[0]?)).bind fun m =>
    (readM (call Ex.world 1 5 (session Ex.world h)).1.heap m.id 0).map fun A => (A.ent 0 0, A.ent 0 1)

/-- C107 fails.  Evaluating one system changes another: the conditions of the first one are imposed on the
mass matrix that both share. -/
theorem other_evaluations_refuted : entries hist = some (4, 2) ∧ entries (hist ++ [.call 0 5]) = some (2, 0) := by
  constructor <;> decide +kernel

/-- C105 without the restriction to safe histories fails: the block is not the sum of its terms. -/
theorem evaluated_system_refuted : ¬ ∀ (h : List (UserOp ℚ ℚ ℚ ℚ)) (d : Dls ℚ ℚ ℚ ℚ) (S : SLS ℚ ℚ),
    (session Ex.world h).systems[1]? = some d → (call Ex.world 1 5 (session Ex.world h)).2 = some S →
    IsEvaluation Ex.world d.configs d.src 5 (call Ex.world 1 5 (session Ex.world h)).1.heap S := by
  intro hall
  have hent := other_evaluations_refuted.2
  obtain ⟨d, hd⟩ : ∃ d, (session Ex.world (hist ++ [.call 0 5])).systems[1]? = some d := by
    have : ((session Ex.world (hist ++ [.call 0 5])).systems[1]?).isSome = true := by decide +kernel
    exact Option.isSome_iff_exists.mp this
  have hsrc : d.src = other := by
    have : ((session Ex.world (hist ++ [.call 0 5])).systems[1]?).map (fun d => d.src) = some other := rfl
    rw [hd] at this
    exact Option.some.inj this
  have hcf : d.configs = [] := by
    have : ((session Ex.world (hist ++ [.call 0 5])).systems[1]?).map (fun d => d.configs) = some [] := rfl
    rw [hd] at this
    exact Option.some.inj this
  unfold entries at hent
  obtain ⟨S, hS, hent⟩ := Option.bind_eq_some_iff.mp hent
  obtain ⟨m, hm, hent⟩ := Option.bind_eq_some_iff.mp hent
  have he := hall _ d S hd hS
  rw [hsrc, hcf] at he
  obtain ⟨ρ, h1, -⟩ := he.row 0 _ rfl
  obtain ⟨f, ms, m', a1, a2, a3, -, -, -, a4⟩ := h1 0 _ rfl
  obtain rfl : m = m' := by
    rw [a2] at hm
    exact Option.some.inj (hm.symm.trans a3)
  have h2 := a4 0
  rw [h2] at hent
  have h3 : (Option.map (fun A : LM ℚ => (A.ent 0 0, A.ent 0 1)) (Option.map
      (withRows (0 == 0) (prescribed Ex.world [] S.x 0 ((other.bc.map flat).getD [])) 0)
      (blockSpec Ex.world 5 ρ (Ex.world.form f).gm [Ex.term false 2 [.mass 0]] 0))) = some (4, 2) := by
    have h4 : Option.map (fun A : LM ℚ => (A.ent 0 0, A.ent 0 1))
        (blockSpec Ex.world 5 0 0 [Ex.term false 2 [.mass 0]] 0) = some (4, 2) := by decide +kernel
    exact h4
  rw [h3] at hent
  exact absurd hent (by decide +kernel)

/-- A natural condition of one form on two sections. -/
def natural : Sys ℚ ℚ ℚ :=
  ⟨[[[Ex.term true 1 [.mass 0]]]], [0], [[Ex.term false 1 [.natural 0 0 fun t => some t]]],
    some [(0, [.natural 0]), (1, [.natural 0])]⟩

def histN : List (UserOp ℚ ℚ ℚ ℚ) :=
  [.apply natural, .config 0 ⟨false, 0, 10, 0⟩, .config 0 ⟨false, 1, 100, 0⟩]

/-- C106 fails.  With a natural condition of one form on two sections the right-hand side should have both
boundary integrals, 10 and 200; only that over the last section is there. -/
theorem natural_sections_refuted :
    ((call Ex.world 0 5 (session Ex.world histN)).2.bind fun S => (S.b[0]?).bind fun v =>
      (v.read (call Ex.world 0 5 (session Ex.world histN)).1.heap 0).map fun A => A.ent 0) = some 200 ∧
    ((Ex.world.boundary 10 5 0 0).bind fun a => (Ex.world.boundary 100 5 0 1).bind fun b =>
      (a 0).bind fun u => (b 0).bind fun v => (u.add v).map fun s => s.ent 0) = some 210 := by
  constructor <;> decide +kernel

end Bad

end Phyem.DynSys
