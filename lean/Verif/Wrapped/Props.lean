import Verif.Wrapped.Model
import Mathlib.Data.List.Nodup
import Mathlib.Tactic.Ring
import Mathlib.Tactic.Linarith

/-! What wrapped operators give. -/

namespace Phyem.Wrapped

lemma noRepeat_iff (l : List ℕ) : noRepeat l = true ↔ l.Nodup := by
  unfold noRepeat
  rw [List.nodup_iff_injective_getElem]
  simp only [List.all_eq_true, List.mem_range, Function.Injective]
  constructor
  · intro h a b e
    by_contra hne
    have := h a.1 a.2 b.1 b.2
    rw [if_neg (fun h => hne (Fin.ext h))] at this
    simp only [decide_eq_true_eq] at this
    exact this (by rw [List.getElem?_eq_getElem a.2, List.getElem?_eq_getElem b.2]; exact congrArg some e)
  · intro h i hi j hj
    split
    · rfl
    · rename_i hne
      simp only [decide_eq_true_eq]
      intro e
      rw [List.getElem?_eq_getElem hi, List.getElem?_eq_getElem hj, Option.some.injEq] at e
      exact hne (congrArg Fin.val (h (a₁ := ⟨i, hi⟩) (a₂ := ⟨j, hj⟩) e))

/-- The cochain that is given last for a form. -/
def last {C : Type} (ps : List (Option ℕ × Option C)) (f : ℕ) : Option C := (ps.reverse.find? fun p => p.1 = some f).bind (·.2)

/-- All pairs have a form and a cochain. -/
def Whole {C : Type} (ps : List (Option ℕ × Option C)) : Prop := ∀ p ∈ ps, p.1 ≠ none ∧ p.2 ≠ none

lemma fill_spec {C : Type} (forms : List ℕ) (hn : forms.Nodup) : ∀ (ps : List (Option ℕ × Option C)) (given : List (Option C)), given.length = forms.length →
    (¬ Whole ps → fill forms ps given = none) ∧
    (Whole ps → ∃ r, fill forms ps given = some r ∧ r.length = forms.length ∧
      ∀ (i f : ℕ), forms[i]? = some f → r[i]? = some (((last ps f).map some).getD ((given[i]?).getD none)))
  | [], given, hl => by
    refine ⟨fun h => absurd (by intro p hp; cases hp) h, fun _ => ⟨given, rfl, hl, fun i f hf => ?_⟩⟩
    obtain ⟨hi, -⟩ := List.getElem?_eq_some_iff.1 hf
    rw [← hl] at hi
    simp [last, List.getElem?_eq_getElem hi]
  | (a, b) :: ps, given, hl => by
    cases a with
    | none => exact ⟨fun _ => by cases b <;> rfl, fun h => absurd rfl (h _ List.mem_cons_self).1⟩
    | some g =>
      cases b with
      | none => exact ⟨fun _ => rfl, fun h => absurd rfl (h _ List.mem_cons_self).2⟩
      | some c =>
        have hw : Whole ((some g, some c) :: ps) ↔ Whole ps := by
          simp only [Whole, List.mem_cons, forall_eq_or_imp]; simp
        rw [hw]
        have hlast : ∀ f, last ((some g, some c) :: ps) f = ((last ps f).map some).getD (if g = f then some c else none) ∨ ¬ Whole ps := by
          intro f
          by_cases hW : Whole ps
          · left
            unfold last
            rw [List.reverse_cons, List.find?_append]
            cases hx : ps.reverse.find? (fun p => decide (p.1 = some f)) with
            | none => by_cases e : g = f <;> simp [e]
            | some p =>
              have hp := hW p (List.mem_reverse.1 (List.mem_of_find?_eq_some hx))
              cases hq : p.2 with
              | none => exact absurd hq hp.2
              | some y => simp [hq]
          · exact Or.inr hW
        rw [fill]
        by_cases hg : g ∈ forms
        · rw [if_pos hg]
          obtain ⟨h1, h2⟩ := fill_spec forms hn ps (given.set (forms.idxOf g) (some c)) (by simpa using hl)
          refine ⟨h1, fun hW => ?_⟩
          obtain ⟨r, hr, hrl, hri⟩ := h2 hW
          refine ⟨r, hr, hrl, fun i f hf => ?_⟩
          rw [hri i f hf]
          have hL := (hlast f).resolve_right (fun h => h hW)
          rw [hL]
          cases hlp : last ps f with
          | some y => simp
          | none =>
            obtain ⟨hi, hfi⟩ := List.getElem?_eq_some_iff.1 hf
            have hix : forms.idxOf f = i := by rw [← hfi]; exact hn.idxOf_getElem i hi
            by_cases e : g = f
            · subst e
              rw [hix]
              simp [hl, hi]
            · have hne : forms.idxOf g ≠ i := by
                intro h
                apply e
                have := List.getElem_idxOf (List.idxOf_lt_length_of_mem hg)
                rw [← this, ← hfi]
                congr 1
              simp [e, List.getElem?_set_ne hne]
        · rw [if_neg hg]
          obtain ⟨h1, h2⟩ := fill_spec forms hn ps given hl
          refine ⟨h1, fun hW => ?_⟩
          obtain ⟨r, hr, hrl, hri⟩ := h2 hW
          refine ⟨r, hr, hrl, fun i f hf => ?_⟩
          rw [hri i f hf]
          have hL := (hlast f).resolve_right (fun h => h hW)
          rw [hL]
          have e : g ≠ f := fun e => hg (e ▸ List.mem_of_getElem? hf)
          cases hlp : last ps f <;> simp [e]

lemma fill_last {C : Type} (forms : List ℕ) (hn : forms.Nodup) (ps : List (Option ℕ × Option C)) (hW : Whole ps) :
    fill forms ps (List.replicate forms.length none) = some (forms.map (last ps)) := by
  obtain ⟨r, hr, hrl, hri⟩ := (fill_spec forms hn ps (List.replicate forms.length none) (by simp)).2 hW
  rw [hr, Option.some.injEq]
  apply List.ext_getElem?
  intro i
  by_cases hi : i < forms.length
  · rw [hri i forms[i] (List.getElem?_eq_getElem hi), List.getElem?_map, List.getElem?_eq_getElem hi]
    cases h : last ps forms[i] <;> simp [h, hi]
  · rw [List.getElem?_eq_none (by omega), List.getElem?_eq_none (by simp; omega)]

/-- C200: an operator is made iff no form is repeated. -/
theorem make_iff {C : Type} (d : Maker C) (forms : List ℕ) (o : Op C) : Op.make d forms = some o ↔ forms.Nodup ∧ o = ⟨d, forms⟩ := by
  unfold Op.make
  by_cases h : noRepeat forms = true
  · rw [if_pos h, Option.some.injEq]
    exact ⟨fun e => ⟨(noRepeat_iff _).1 h, e.symm⟩, fun e => e.2.symm⟩
  · rw [if_neg h]
    exact ⟨fun e => (by cases e), fun e => absurd ((noRepeat_iff _).2 e.1) h⟩

/-- C200: a value is given iff all pairs have a form and a cochain and exactly one form of the operator has no cochain. Then the maker gets for each form
the cochain that was given last for it. -/
theorem evaluate_iff {C : Type} (o : Op C) (hn : o.forms.Nodup) (ps : List (Option ℕ × Option C)) (v : List ℚ) :
    o.evaluate ps = some v ↔ Whole ps ∧ o.forms.length = o.maker.forms.length ∧ (∃ f ∈ o.forms, ∀ g ∈ o.forms, last ps g = none ↔ g = f) ∧
      v = o.maker.toVector (o.forms.map (last ps)) := by
  unfold Op.evaluate
  by_cases hW : Whole ps
  · rw [fill_last _ hn _ hW, Option.bind_some, Maker.reduce, List.length_map, List.countP_map]
    have hone : o.forms.countP ((·.isNone) ∘ last ps) = 1 ↔ ∃ f ∈ o.forms, ∀ g ∈ o.forms, last ps g = none ↔ g = f := by
      rw [List.countP_eq_length_filter, List.length_eq_one_iff]
      constructor
      · rintro ⟨f, hf⟩
        have hmem : ∀ g, g ∈ o.forms ∧ last ps g = none ↔ g = f := by
          intro g
          have : g ∈ o.forms.filter ((·.isNone) ∘ last ps) ↔ g = f := by rw [hf]; simp
          rw [← this, List.mem_filter]; simp
        exact ⟨f, ((hmem f).2 rfl).1, fun g hg => ⟨fun h => (hmem g).1 ⟨hg, h⟩, fun h => ((hmem g).2 h).2⟩⟩
      · rintro ⟨f, hf, h⟩
        refine ⟨f, ?_⟩
        have hnd := hn.filter ((·.isNone) ∘ last ps)
        have hall : ∀ g, g ∈ o.forms.filter ((·.isNone) ∘ last ps) ↔ g = f := by
          intro g
          rw [List.mem_filter]
          constructor
          · rintro ⟨hg, h1⟩; exact (h g hg).1 (by simpa using h1)
          · rintro rfl; exact ⟨hf, by simpa using (h g hf).2 rfl⟩
        exact List.perm_singleton.1 ((List.perm_ext_iff_of_nodup hnd (List.nodup_singleton f)).2 (by simpa using hall))
    constructor
    · intro h
      split at h
      · rename_i hlen
        split at h
        · rename_i hc
          exact ⟨hW, hlen, hone.1 hc, (Option.some.inj h).symm⟩
        · cases h
      · cases h
    · rintro ⟨-, h1, h2, rfl⟩
      rw [if_pos h1, if_pos (hone.2 h2)]
  · rw [(fill_spec o.forms hn ps _ (by simp)).1 hW]
    constructor
    · intro h; cases h
    · intro h; exact absurd h.1 hW

lemma last_perm {C : Type} (ps qs : List (Option ℕ × Option C)) (hp : ps.Perm qs) (hd : (ps.map (·.1)).Nodup) (f : ℕ) : last ps f = last qs f := by
  have key : ∀ (l : List (Option ℕ × Option C)), (l.map (·.1)).Nodup → ∀ p ∈ l, p.1 = some f → l.reverse.find? (fun p => decide (p.1 = some f)) = some p := by
    intro l hl p hpl hpf
    cases hx : l.reverse.find? (fun p => decide (p.1 = some f)) with
    | none => exact absurd hpf (by simpa using List.find?_eq_none.1 hx p (List.mem_reverse.2 hpl))
    | some q =>
      have hq := List.mem_reverse.1 (List.mem_of_find?_eq_some hx)
      have hqf : q.1 = some f := by simpa using List.find?_some hx
      rw [List.inj_on_of_nodup_map hl hq hpl (hqf.trans hpf.symm)]
  unfold last
  by_cases h : ∃ p ∈ ps, p.1 = some f
  · obtain ⟨p, hm, hf⟩ := h
    rw [key ps hd p hm hf, key qs ((hp.map _).nodup_iff.1 hd) p (hp.mem_iff.1 hm) hf]
  · have h1 : ps.reverse.find? (fun p => decide (p.1 = some f)) = none := by
      rw [List.find?_eq_none]
      intro p hp' hc
      exact h ⟨p, List.mem_reverse.1 hp', by simpa using hc⟩
    have h2 : qs.reverse.find? (fun p => decide (p.1 = some f)) = none := by
      rw [List.find?_eq_none]
      intro p hp' hc
      exact h ⟨p, hp.mem_iff.2 (List.mem_reverse.1 hp'), by simpa using hc⟩
    rw [h1, h2]

/-- C200: the order of the pairs makes no difference when each form is given once, and neither do pairs of other forms. -/
theorem evaluate_order {C : Type} (o : Op C) (hn : o.forms.Nodup) (ps qs : List (Option ℕ × Option C)) :
    (ps.Perm qs → (ps.map (·.1)).Nodup → o.evaluate ps = o.evaluate qs) ∧
    (∀ g c, g ∉ o.forms → o.evaluate ((some g, some c) :: ps) = o.evaluate ps) := by
  constructor
  · intro hp hd
    apply Option.ext
    intro v
    have hW : Whole ps ↔ Whole qs := ⟨fun h p hq => h p (hp.mem_iff.2 hq), fun h p hq => h p (hp.mem_iff.1 hq)⟩
    have hl : last ps = last qs := funext fun f => last_perm ps qs hp hd f
    rw [evaluate_iff o hn, evaluate_iff o hn, hW, hl]
  · intro g c hg
    simp only [Op.evaluate, fill, if_neg hg]

/-- C200: a number times an operator gives the number times what the operator gives, and errors are the same. -/
theorem rmul_spec {C : Type} (k : ℚ) (o : Op C) (hm : o.maker.forms.Nodup) (hn : o.forms.Nodup) :
    ∃ p, Op.rmul k o = some p ∧ p.forms = o.forms ∧ p.maker.forms = o.maker.forms ∧ ∀ ps, p.evaluate ps = (o.evaluate ps).map (List.map (k * ·)) := by
  refine ⟨⟨⟨o.maker.forms, fun given => (o.maker.toVector given).map (k * ·)⟩, o.forms⟩, ?_, rfl, rfl, ?_⟩
  · simp only [Op.rmul, Maker.make, if_pos ((noRepeat_iff _).2 hm), Option.bind_some, Op.make, if_pos ((noRepeat_iff _).2 hn)]
  · intro ps
    unfold Op.evaluate
    cases fill o.forms ps (List.replicate o.forms.length none) with
    | none => rfl
    | some r =>
      simp only [Option.bind_some, Maker.reduce]
      split
      · split <;> rfl
      · rfl

/-- C200: numbers are multiplied with each other. -/
theorem rmul_rmul {C : Type} (j k : ℚ) (o : Op C) (hm : o.maker.forms.Nodup) (hn : o.forms.Nodup) :
    ∃ p q r, Op.rmul k o = some p ∧ Op.rmul j p = some q ∧ Op.rmul (j * k) o = some r ∧ ∀ ps, q.evaluate ps = r.evaluate ps := by
  obtain ⟨p, hp, h1, h2, h3⟩ := rmul_spec k o hm hn
  obtain ⟨q, hq, -, -, h4⟩ := rmul_spec j p (h2 ▸ hm) (h1 ▸ hn)
  obtain ⟨r, hr, -, -, h5⟩ := rmul_spec (j * k) o hm hn
  refine ⟨p, q, r, hp, hq, hr, fun ps => ?_⟩
  rw [h4, h3, h5, Option.map_map]
  congr 1
  funext l
  simp only [Function.comp, List.map_map]
  apply List.map_congr_left
  intro x _
  simp only [Function.comp]
  ring

/-- C201: a scalar of dimension `n` is made iff it is given a function of time and `n` coordinates, a method of these beside `self`, or the number 0 in a space
of dimension `n`; in one dimension the number 0 is refused. -/
theorem scalar_iff (dim : ℕ) (a : Arg) (n : ℕ) :
    scalar dim a = some n ↔ (1 ≤ n ∧ n ≤ 3) ∧ (a = .function (n + 1) ∨ a = .method (n + 2) ∨ a = .zero ∧ n = dim ∧ n ≠ 1) := by
  have hp : ∀ m : ℤ, scalar.pick m = some n ↔ (1 ≤ n ∧ n ≤ 3) ∧ m = n := by
    intro m
    unfold scalar.pick
    split
    · rw [Option.some.injEq]; omega
    · split
      · rw [Option.some.injEq]; omega
      · split
        · rw [Option.some.injEq]; omega
        · simp only [reduceCtorEq, false_iff]; omega
  cases a with
  | function k => simp only [scalar, hp, Arg.function.injEq, reduceCtorEq, false_and, or_false]; omega
  | method k => simp only [scalar, hp, Arg.method.injEq, reduceCtorEq, false_and, or_false, false_or]; omega
  | zero =>
    simp only [scalar, reduceCtorEq, false_or, true_and]
    split
    · rw [hp]; omega
    · simp only [reduceCtorEq, false_iff]; omega
  | callable => simp [scalar]
  | other => simp [scalar]

/-- C201: a vector of dimension `n` is made of `n` functions and a tensor of `n * n`, in two and three dimensions. -/
theorem vector_tensor_iff (k n : ℕ) : (vector k = some n ↔ (n = 2 ∨ n = 3) ∧ k = n) ∧ (tensor k = some n ↔ (n = 2 ∨ n = 3) ∧ k = n * n) := by
  unfold vector tensor
  constructor
  · split
    · rw [Option.some.injEq]; omega
    · split
      · rw [Option.some.injEq]; omega
      · simp only [reduceCtorEq, false_iff]; omega
  · constructor
    · intro h
      split at h
      · cases h; exact ⟨Or.inl rfl, by assumption⟩
      · split at h
        · cases h; exact ⟨Or.inr rfl, by assumption⟩
        · cases h
    · rintro ⟨rfl | rfl, rfl⟩ <;> rfl

end Phyem.Wrapped
