import Verif.Registry.Model
import Mathlib.Data.List.Induction
import Mathlib.Data.List.TakeWhile

/-!
Properties C16 (unknowns) and C17 (boundary conditions).
-/

namespace Phyem.Registry

/-- **C16, weak formulations.** Once unknowns are set, every further assignment (of anything) raises,
and after any further history the unknowns are the ones chosen first. -/
theorem wf_unknowns_fixed (e : Eqs) (l : List F) (h : e.unknowns = some l) :
    (∀ a, (setWf e a).1 = true) ∧ ∀ as, (runWf e as).unknowns = some l := by
  have h1 : ∀ a, setWf e a = (true, e) := by intro a; simp [setWf, h]
  refine ⟨fun a => by rw [h1], ?_⟩
  intro as
  have : runWf e as = e := by
    unfold runWf
    induction as with
    | nil => rfl
    | cons a as ih => rw [List.foldl_cons, h1]; exact ih
  rw [this, h]

/-- **C16, the first accepted assignment decides**, and what is stored satisfies the documented
conditions: one unknown per equation, all of them root forms among the elementary forms. -/
theorem wf_unknowns_valid (e : Eqs) (h0 : e.unknowns = none) (as : List Arg) (l : List F)
    (h : (runWf e as).unknowns = some l) :
    l.length = e.n ∧ (∀ f ∈ l, f.isRoot = true ∧ f ∈ e.efs) ∧
    ∃ pre a post, as = pre ++ a :: post ∧ (runWf e pre).unknowns = none ∧
      (setWf (runWf e pre) a).1 = false ∧
      (a = .list l ∨ ∃ f, a = .single f ∧ l = [f]) := by
  have key : ∀ (as : List Arg) (e' : Eqs), e'.unknowns = none → (runWf e' as).unknowns = some l →
      l.length = e'.n ∧ (∀ f ∈ l, f.isRoot = true ∧ f ∈ e'.efs) ∧
      ∃ pre a post, as = pre ++ a :: post ∧ (runWf e' pre).unknowns = none ∧
        (setWf (runWf e' pre) a).1 = false ∧ (a = .list l ∨ ∃ f, a = .single f ∧ l = [f]) := by
    intro as
    induction as with
    | nil => intro e' h0 h; simp [runWf, h0] at h
    | cons a as ih =>
      intro e' h0 h
      have hr : runWf e' (a :: as) = runWf (setWf e' a).2 as := rfl
      rw [hr] at h
      by_cases hn : a = .none
      · have hs : (setWf e' a).2 = e' := by
          subst hn; simp [setWf, h0]; cases e'; simp at h0 ⊢; exact h0.symm
        rw [hs] at h
        obtain ⟨g1, g2, pre, b, post, g3, g4, g5, g6⟩ := ih e' h0 h
        refine ⟨g1, g2, a :: pre, b, post, by rw [g3]; rfl, ?_, ?_, g6⟩
        · show (runWf (setWf e' a).2 pre).unknowns = none
          rw [hs]; exact g4
        · show (setWf (runWf (setWf e' a).2 pre) b).1 = false
          rw [hs]; exact g5
      · cases hv : validate e' a with
        | none =>
          have hs : (setWf e' a).2 = e' := by simp [setWf, h0, hn, hv]
          rw [hs] at h
          obtain ⟨g1, g2, pre, b, post, g3, g4, g5, g6⟩ := ih e' h0 h
          refine ⟨g1, g2, a :: pre, b, post, by rw [g3]; rfl, ?_, ?_, g6⟩
          · show (runWf (setWf e' a).2 pre).unknowns = none
            rw [hs]; exact g4
          · show (setWf (runWf (setWf e' a).2 pre) b).1 = false
            rw [hs]; exact g5
        | some l' =>
          have hs : setWf e' a = (false, { e' with unknowns := some l' }) := by
            simp [setWf, h0, hn, hv]
          rw [hs] at h
          have := (wf_unknowns_fixed { e' with unknowns := some l' } l' rfl).2 as
          rw [this] at h
          cases h
          have hval : l.length = e'.n ∧ (∀ f ∈ l, f.isRoot = true ∧ f ∈ e'.efs) ∧
              (a = .list l ∨ ∃ f, a = .single f ∧ l = [f]) := by
            unfold validate at hv
            cases a with
            | none => simp at hv
            | junk => simp at hv
            | list m =>
              simp at hv
              obtain ⟨⟨g1, g2⟩, rfl⟩ := hv
              exact ⟨g1, g2, Or.inl rfl⟩
            | single f =>
              by_cases h1 : e'.n = 1
              · simp [h1] at hv
                obtain ⟨g2, rfl⟩ := hv
                exact ⟨by simp [h1], by simpa using g2, Or.inr ⟨f, rfl, rfl⟩⟩
              · simp [h1] at hv
          exact ⟨hval.1, hval.2.1, [], a, as, rfl, h0, by simp [runWf, hs], hval.2.2⟩
  exact key as e h0 h

example : let e : Eqs := ⟨2, [⟨1, true⟩, ⟨2, true⟩, ⟨3, true⟩], none⟩
    (runWf e [.list [⟨1, true⟩], .list [⟨1, true⟩, ⟨3, true⟩], .list [⟨1, true⟩, ⟨2, true⟩]]).unknowns
      = some [⟨1, true⟩, ⟨3, true⟩] := by decide +kernel

/-- **C16 refuted for pde objects**: a second assignment is accepted and replaces the unknowns (the
message of src/pde.py:793-794 is built but not raised). -/
theorem pde_unknowns_refuted : ∃ e a b, (setPde e a).1 = false ∧
    (setPde (setPde e a).2 b).1 = false ∧
    (setPde (setPde e a).2 b).2.unknowns ≠ (setPde e a).2.unknowns :=
  ⟨⟨1, [⟨1, true⟩, ⟨2, true⟩], none⟩, .single ⟨1, true⟩, .single ⟨2, true⟩, by decide +kernel,
    by decide +kernel, by decide +kernel⟩

/-- What holds for pde objects: a rejected assignment leaves the unknowns, and the stored unknowns are
always valid. -/
theorem pde_unknowns_partial (e : Eqs) (a : Arg) :
    ((setPde e a).1 = true → (setPde e a).2 = e) ∧
    ((setPde e a).1 = false → ∃ l, (setPde e a).2.unknowns = some l ∧ l.length = e.n ∧
      ∀ f ∈ l, f.isRoot = true ∧ f ∈ e.efs) := by
  unfold setPde
  cases hv : validate e a with
  | none => simp
  | some l =>
    simp only [Bool.false_eq_true, false_implies, true_and, forall_const, Option.some.injEq,
      exists_eq_left']
    unfold validate at hv
    cases a with
    | none => simp at hv
    | junk => simp at hv
    | list m =>
      simp at hv
      obtain ⟨⟨g1, g2⟩, rfl⟩ := hv
      exact ⟨g1, g2⟩
    | single f =>
      by_cases h1 : e.n = 1
      · simp [h1] at hv
        obtain ⟨g2, rfl⟩ := hv
        exact ⟨by simp [h1], by simpa using g2⟩
      · simp [h1] at hv

/-! ### Boundary conditions -/

/-- The conditions a call gives before it stops: the pairs (section, condition) up to the first
unknown section or invalid condition. -/
def given (secs : List String) : List (String × BcArg) → List (String × Nat)
  | [] => []
  | (k, v) :: items =>
    if k ∈ secs then
      let good := v.toList.takeWhile Option.isSome
      (good.filterMap id).map (fun f => (k, f)) ++
        (if good.length = v.toList.length then given secs items else [])
    else []

/-- Is the call accepted: all sections exist and all conditions are forms? -/
def valid (secs : List String) (items : List (String × BcArg)) : Prop :=
  ∀ p ∈ items, p.1 ∈ secs ∧ ∀ c ∈ p.2.toList, c.isSome

theorem conditions_add (d : Bcs) (k k' : String) (f : Nat) :
    conditions (add d k f) k' = conditions d k' ++ (if k' = k then [f] else []) := by
  unfold conditions
  induction d with
  | nil =>
    simp only [add, List.lookup]
    by_cases h : k' = k
    · simp [h]
    · have : (k' == k) = false := by simpa using h
      simp [this, h]
  | cons p d ih =>
    obtain ⟨a, l⟩ := p
    simp only [add]
    by_cases h : a = k
    · subst h
      by_cases h' : k' = a
      · subst h'; simp [List.lookup]
      · have : (k' == a) = false := by simpa using h'
        simp [List.lookup, this, h']
    · rw [if_neg h]
      by_cases h' : k' = a
      · subst h'; simp [List.lookup, h]
      · have : (k' == a) = false := by simpa using h'
        simp only [List.lookup, this, ih]

theorem keys_add (d : Bcs) (k k' : String) (f : Nat) :
    k' ∈ (add d k f).map Prod.fst ↔ k' = k ∨ k' ∈ d.map Prod.fst := by
  induction d with
  | nil => simp [add]
  | cons p d ih =>
    obtain ⟨a, l⟩ := p
    simp only [add]
    split_ifs with h
    · subst h; simp
    · simp only [List.map_cons, List.mem_cons, ih]; tauto

theorem addAll_spec (k : String) (l : List (Option Nat)) (d : Bcs) :
    (addAll d k l).1 = !decide ((l.takeWhile Option.isSome).length = l.length) ∧
    (∀ k', conditions (addAll d k l).2 k' = conditions d k' ++
      (if k' = k then (l.takeWhile Option.isSome).filterMap id else [])) ∧
    (∀ k', k' ∈ (addAll d k l).2.map Prod.fst ↔
      k' ∈ d.map Prod.fst ∨ (k' = k ∧ (l.takeWhile Option.isSome).filterMap id ≠ [])) := by
  induction l generalizing d with
  | nil => simp [addAll]
  | cons c l ih =>
    cases c with
    | none => simp [addAll]
    | some f =>
      simp only [addAll]
      obtain ⟨h1, h2, h3⟩ := ih (add d k f)
      refine ⟨?_, ?_, ?_⟩
      · rw [h1]; simp
      · intro k'
        rw [h2, conditions_add]
        by_cases h : k' = k <;> simp [h]
      · intro k'
        rw [h3, keys_add]
        simp; tauto

theorem defineBc_spec (secs : List String) (items : List (String × BcArg)) (d : Bcs) :
    ((defineBc secs d items).1 = false ↔ valid secs items) ∧
    (∀ k, conditions (defineBc secs d items).2 k = conditions d k ++
      ((given secs items).filter (fun p => p.1 = k)).map Prod.snd) ∧
    (∀ k, k ∈ (defineBc secs d items).2.map Prod.fst ↔
      k ∈ d.map Prod.fst ∨ ∃ f, (k, f) ∈ given secs items) := by
  induction items generalizing d with
  | nil => simp [defineBc, given, valid]
  | cons p items ih =>
    obtain ⟨k, v⟩ := p
    obtain ⟨a1, a2, a3⟩ := addAll_spec k v.toList d
    obtain ⟨i1, i2, i3⟩ := ih (addAll d k v.toList).2
    have htw : (v.toList.takeWhile Option.isSome).length = v.toList.length ↔
        ∀ c ∈ v.toList, c.isSome := by
      generalize v.toList = l
      induction l with
      | nil => simp
      | cons c l ih => cases c <;> simp_all
    have hfil : ∀ (l : List Nat) (k' : String),
        ((l.map (fun f => (k, f))).filter (fun p => decide (p.1 = k'))).map Prod.snd =
          if k' = k then l else [] := by
      intro l k'
      by_cases h : k' = k
      · subst h
        rw [if_pos rfl, List.filter_eq_self.2]
        · simp [List.map_map, Function.comp_def]
        · intro p hp; obtain ⟨f, _, rfl⟩ := List.mem_map.1 hp; simp
      · rw [if_neg h, List.filter_eq_nil_iff.2]
        · rfl
        · intro p hp; obtain ⟨f, _, rfl⟩ := List.mem_map.1 hp; simpa using Ne.symm h
    have hmem : ∀ (l : List Nat) (k' : String),
        (∃ f, (k', f) ∈ l.map (fun f => (k, f))) ↔ k' = k ∧ l ≠ [] := by
      intro l k'
      cases l with
      | nil => simp
      | cons x l => 
        simp only [ne_eq, reduceCtorEq, not_false_eq_true, and_true]
        constructor
        · rintro ⟨f, hf⟩
          obtain ⟨g, _, hg⟩ := List.mem_map.1 hf
          simp only [Prod.mk.injEq] at hg
          exact hg.1.symm
        · rintro rfl; exact ⟨x, by simp⟩
    by_cases hk : k ∈ secs
    · by_cases hall : (v.toList.takeWhile Option.isSome).length = v.toList.length
      · have hf : (addAll d k v.toList).1 = false := by rw [a1]; simp [hall]
        have hd : defineBc secs d ((k, v) :: items) =
            defineBc secs (addAll d k v.toList).2 items := by
          simp [defineBc, hk, hf]
        have hgv : given secs ((k, v) :: items) =
            ((v.toList.takeWhile Option.isSome).filterMap id).map (fun f => (k, f)) ++
              given secs items := by
          simp only [given, if_pos hk, if_pos hall]
        rw [hd, hgv]
        refine ⟨?_, ?_, ?_⟩
        · rw [i1]
          unfold valid
          simp only [List.forall_mem_cons]
          exact ⟨fun h => ⟨⟨hk, htw.1 hall⟩, h⟩, fun h => h.2⟩
        · intro k'
          rw [i2, a2, List.filter_append, List.map_append, hfil, List.append_assoc]
        · intro k'
          rw [i3, a3]
          simp only [List.mem_append, exists_or, hmem]
          tauto
      · have hf : (addAll d k v.toList).1 = true := by rw [a1]; simp [hall]
        have hd : defineBc secs d ((k, v) :: items) = (true, (addAll d k v.toList).2) := by
          simp [defineBc, hk, hf]
        have hgv : given secs ((k, v) :: items) =
            ((v.toList.takeWhile Option.isSome).filterMap id).map (fun f => (k, f)) := by
          simp only [given, if_pos hk, if_neg hall, List.append_nil]
        rw [hd, hgv]
        refine ⟨?_, ?_, ?_⟩
        · simp only [Bool.true_eq_false, false_iff]
          intro h
          exact hall (htw.2 (h (k, v) (by simp)).2)
        · intro k'
          rw [hfil]
          exact a2 k'
        · intro k'
          rw [hmem]
          exact a3 k'
    · have hd : defineBc secs d ((k, v) :: items) = (true, d) := by simp [defineBc, hk]
      have hgv : given secs ((k, v) :: items) = [] := by simp only [given, if_neg hk]
      rw [hd, hgv]
      refine ⟨?_, by simp, by simp⟩
      simp only [Bool.true_eq_false, false_iff]
      intro h
      exact hk (h (k, v) (by simp)).1

/-- **C17.** After any history of `define_bc` calls, the conditions on a section are exactly the ones
given for it over all calls, in the order in which they were given; and a section is listed exactly
when some condition was given for it. -/
theorem bc_accumulate (secs : List String) (calls : List (List (String × BcArg))) (k : String) :
    conditions (runBc secs calls) k =
      ((calls.flatMap (given secs)).filter (fun p => p.1 = k)).map Prod.snd ∧
    (k ∈ (runBc secs calls).map Prod.fst ↔ ∃ f, (k, f) ∈ calls.flatMap (given secs)) := by
  induction calls using List.reverseRecOn with
  | nil => simp [runBc, conditions]
  | append_singleton calls c ih =>
    have e : runBc secs (calls ++ [c]) = (defineBc secs (runBc secs calls) c).2 := by
      simp [runBc]
    obtain ⟨_, h2, h3⟩ := defineBc_spec secs c (runBc secs calls)
    rw [e]
    constructor
    · rw [h2, ih.1, List.flatMap_append, List.filter_append, List.map_append]; simp
    · rw [h3, ih.2, List.flatMap_append]
      simp only [List.mem_append, exists_or]
      simp

/-- **C17, acceptance.** A call is accepted exactly when all its sections exist and all its
conditions are forms, and an accepted call gives all its conditions. -/
theorem bc_accepted (secs : List String) (d : Bcs) (items : List (String × BcArg)) :
    ((defineBc secs d items).1 = false ↔ valid secs items) ∧
    (valid secs items → given secs items =
      items.flatMap fun p => (p.2.toList.filterMap id).map (fun f => (p.1, f))) := by
  refine ⟨(defineBc_spec secs items d).1, ?_⟩
  intro h
  induction items with
  | nil => rfl
  | cons p items ih =>
    obtain ⟨k, v⟩ := p
    have hp := h (k, v) (by simp)
    have htw : v.toList.takeWhile Option.isSome = v.toList := by
      rw [List.takeWhile_eq_self_iff]; exact hp.2
    have ih := ih (fun q hq => h q (by simp [hq]))
    simp only [given, if_pos hp.1, htw, if_true, List.flatMap_cons, ih]

example : let secs := ["A", "B"]
    runBc secs [[("A", .form 1), ("B", .list [some 2, some 3])], [("B", .form 4)],
      [("A", .list [some 5, none, some 6]), ("B", .form 7)]] =
      [("A", [1, 5]), ("B", [2, 3, 4])] := by decide +kernel

end Phyem.Registry
