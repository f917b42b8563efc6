import Verif.LinRepr.Unique
import Mathlib.Algebra.Group.Int.Defs

/-!
C10 (forms are identified by their linguistic representation), C11 (elementary forms) and C12
(substitution in forms).
-/

namespace Phyem.LinRepr

/-! ### C10 -/

/-- C10. Two plain expressions (no operator with an output space, root scalars only) in which no sum
is subtracted as a whole, and which have the same text, have the same value under every
interpretation of root forms, scalars and operators. Missing: the excluded expressions, for which
the claim is false (`grouped_minus_refuted`, `output_space_refuted`, `compound_scalar_refuted`). -/
theorem same_text_same_value_partial {f g : Form} (hf : f.wf) (hg : g.wf) (pf : f.plain)
    (pg : g.plain) (mf : f.noGroupedMinus) (mg : g.noGroupedMinus) (h : f.lin = g.lin)
    {V : Type} [AddCommGroup V] (I : Interp V) : f.eval I = g.eval I := by
  rw [← norm_eval I f mf, ← norm_eval I g mg, lin_norm hf hg pf pg h]

/-- Without sums nested to the right, the text determines how the form was built. -/
theorem same_text_same_form {f g : Form} (hf : f.wf) (hg : g.wf) (nf : f.nice) (ng : g.nice)
    (h : f.lin = g.lin) : f = g := by
  rw [Form.lin_eq, Form.lin_eq] at h
  exact tk_inj nf ng (render_inj (f.tk_wf hf) (g.tk_wf hg) h)

/-- `a + (b + c)` and `(a + b) + c` meet the hypotheses and have the same text. -/
example :
    let a := Form.root ['a']; let b := Form.un .hodge (.root ['b']); let c := Form.root ['c']
    (a.add (b.add c)).wf ∧ ((a.add b).add c).wf ∧ (a.add (b.add c)).plain ∧
      (a.add (b.add c)).noGroupedMinus ∧ (a.add (b.add c)).lin = ((a.add b).add c).lin ∧
      a.add (b.add c) ≠ (a.add b).add c := by
  refine ⟨by simp [Form.wf, Scalar.names, validName], by simp [Form.wf, Scalar.names, validName], ?_, ?_, by decide, by decide⟩
  · simp [Form.plain, Un.hasSpace]
  · simp [Form.noGroupedMinus]

/-- `a - (b - c)` and `(a - b) - c` have the same text and different values. -/
theorem grouped_minus_refuted :
    ∃ f g : Form, f.wf ∧ g.wf ∧ f.plain ∧ g.plain ∧ f.lin = g.lin ∧
      ∃ I : Interp ℤ, f.eval I ≠ g.eval I := by
  refine ⟨.sub (.root ['a']) (.sub (.root ['b']) (.root ['c'])),
    .sub (.sub (.root ['a']) (.root ['b'])) (.root ['c']), by simp [Form.wf, Scalar.names, validName], by simp [Form.wf, Scalar.names, validName],
    ⟨trivial, trivial, trivial⟩, ⟨⟨trivial, trivial⟩, trivial⟩, by decide, ?_⟩
  exact ⟨⟨fun _ => 1, fun _ x => x, fun _ x _ => x, fun _ x => x, fun x _ => x⟩, by decide⟩

/-- The same form projected to two different spaces has the same text. -/
theorem output_space_refuted :
    ∃ f g : Form, f.wf ∧ g.wf ∧ f.noGroupedMinus ∧ g.noGroupedMinus ∧ f.lin = g.lin ∧
      ∃ I : Interp ℤ, f.eval I ≠ g.eval I := by
  refine ⟨.un (.projection 0) (.root ['a']), .un (.projection 1) (.root ['a']), by simp [Form.wf, Scalar.names, validName],
    by simp [Form.wf, Scalar.names, validName], trivial, trivial, by decide, ?_⟩
  exact ⟨⟨fun _ => 1, fun u x => if u = .projection 0 then x else 2 * x, fun _ x _ => x,
    fun _ x => x, fun x _ => x⟩, by decide⟩

/-- `f / p + (q + r) * g` and `f / (p + q) + r * g` have the same text. -/
theorem compound_scalar_refuted :
    ∃ f g : Form, f.wf ∧ g.wf ∧ f.noGroupedMinus ∧ g.noGroupedMinus ∧ f.lin = g.lin ∧
      ∃ I : Interp ℤ, f.eval I ≠ g.eval I := by
  refine ⟨.add (.sdiv (.root ['f']) (.root ['p']))
      (.smul (.add (.root ['q']) (.root ['r'])) (.root ['g'])),
    .add (.sdiv (.root ['f']) (.add (.root ['p']) (.root ['q'])))
      (.smul (.root ['r']) (.root ['g'])),
    by simp [Form.wf, Scalar.names, validName], by simp [Form.wf, Scalar.names, validName], ⟨trivial, trivial⟩, ⟨trivial, trivial⟩, by decide, ?_⟩
  exact ⟨⟨fun n => if n = ['f'] then 1 else 0, fun _ x => x, fun _ x _ => x, fun _ x => x,
    fun x c => if c = .root ['p'] then x else 2 * x⟩, by decide⟩

theorem Scalar.form_notMem (c : Scalar) (n : Str) : Tok.form n ∉ c.tk := by
  induction c with
  | root m => simp [Scalar.tk]
  | add a b iha ihb => simp [Scalar.tk, iha, ihb]
  | div a b iha ihb => simp [Scalar.tk, iha, ihb]

theorem form_mem_brk (n : Str) (b : Bool) (s : List Tok) : Tok.form n ∈ brk b s ↔ Tok.form n ∈ s := by
  cases b <;> simp [brk]

theorem form_mem_tk (f : Form) (n : Str) : Tok.form n ∈ f.tk ↔ n ∈ f.roots := by
  induction f with
  | root m => simp [Form.tk, Form.roots]
  | un u f ih => simp [Form.tk, Form.roots, form_mem_brk, ih]
  | bin b f g ihf ihg => simp [Form.tk, Form.roots, form_mem_brk, ihf, ihg]
  | add f g ihf ihg => simp [Form.tk, Form.roots, ihf, ihg]
  | sub f g ihf ihg => simp [Form.tk, Form.roots, ihf, ihg]
  | smul c f ih =>
    simp only [Form.tk, Form.roots]
    split_ifs <;> simp [ih, c.form_notMem]
  | sdiv f c ih => simp [Form.tk, Form.roots, form_mem_brk, ih, c.form_notMem]

theorem roots_ne_nil (f : Form) : ∃ n, n ∈ f.roots := by
  induction f with
  | root n => exact ⟨n, by simp [Form.roots]⟩
  | un u f ih => exact ih
  | bin b f g ihf _ => obtain ⟨n, h⟩ := ihf; exact ⟨n, by simp [Form.roots, h]⟩
  | add f g ihf _ => obtain ⟨n, h⟩ := ihf; exact ⟨n, by simp [Form.roots, h]⟩
  | sub f g ihf _ => obtain ⟨n, h⟩ := ihf; exact ⟨n, by simp [Form.roots, h]⟩
  | smul c f ih => exact ih
  | sdiv f c ih => exact ih

theorem lin_ne_name {f : Form} {n : Str} (hn : validName n = true) : n ≠ f.lin := by
  intro h
  obtain ⟨m, hm⟩ := roots_ne_nil f
  have : '\\' ∈ f.lin := by
    rw [Form.lin_eq]
    exact List.mem_flatMap.2 ⟨_, (form_mem_tk f m).2 hm, by simp [Tok.chars, formText]⟩
  rw [← h] at this
  exact (validName_close hn).2 this

/-- All registered forms are plain, without subtracted sums, and have accepted names. -/
def Ok (f : Form) : Prop := f.wf ∧ f.plain ∧ f.noGroupedMinus

/-- Looking a registered form up by its text succeeds, and the form found has the value of the
form looked up, whatever other plain forms are registered. -/
theorem find_form_partial (G : Registry) (hG : ∀ f ∈ G, Ok f) (f : Form) (hf : f ∈ G) :
    ∃ g ∈ G, findForm G f.lin = some g ∧
      ∀ {V : Type} [AddCommGroup V] (I : Interp V), g.eval I = f.eval I := by
  have hex : (findForm G f.lin).isSome = true := by
    unfold findForm
    rw [List.find?_isSome]
    exact ⟨f, hf, by simp⟩
  obtain ⟨g, hg⟩ := Option.isSome_iff_exists.1 hex
  have hmem : g ∈ G := List.mem_of_find?_eq_some hg
  have hp := List.find?_some hg
  have hlin : g.lin = f.lin := by
    simp only [Bool.or_eq_true, decide_eq_true_eq] at hp
    rcases hp with hp | hp
    · exact hp
    · exfalso
      cases g with
      | root n =>
        simp only [decide_eq_true_eq] at hp
        exact lin_ne_name (hG _ hmem).1 hp
      | _ => simp at hp
  refine ⟨g, hmem, hg, fun I => ?_⟩
  obtain ⟨a1, a2, a3⟩ := hG g hmem
  obtain ⟨b1, b2, b3⟩ := hG f hf
  exact same_text_same_value_partial a1 b1 a2 b2 a3 b3 hlin I

/-- The form found "upon" an operator (`_find_form(text, upon=d)`): applying the operator to it
gives the value of the form whose text was given; and a form is found whenever the operand is
registered. -/
theorem find_upon_partial (G : Registry) (hG : ∀ f ∈ G, Ok f) (u : Un) (hu : u.hasSpace = false)
    (h : Form) (hh : Ok h) :
    (∀ g, findUpon G u h.lin = some g → g ∈ G ∧
      ∀ {V : Type} [AddCommGroup V] (I : Interp V), I.un u (g.eval I) = h.eval I) ∧
    (∀ f ∈ G, h = .un u f → (findUpon G u h.lin).isSome = true) := by
  constructor
  · intro g hg
    have hmem : g ∈ G := List.mem_of_find?_eq_some hg
    have hp := List.find?_some hg
    simp only [decide_eq_true_eq] at hp
    refine ⟨hmem, fun I => ?_⟩
    obtain ⟨a1, a2, a3⟩ := hG g hmem
    obtain ⟨b1, b2, b3⟩ := hh
    exact same_text_same_value_partial (f := .un u g) a1 b1 ⟨hu, a2⟩ b2 a3 b3 hp I
  · rintro f hf rfl
    unfold findUpon
    rw [List.find?_isSome]
    exact ⟨f, hf, by simp⟩

/-- The form found under a Hodge operator. -/
theorem under_hodge_partial (G : Registry) (hG : ∀ f ∈ G, Ok f) (h : Form) (hh : Ok h) :
    (∀ g, underHodge G h.lin = some g → g ∈ G ∧
      ∀ {V : Type} [AddCommGroup V] (I : Interp V), I.un .hodge (g.eval I) = h.eval I) ∧
    (∀ f ∈ G, h = .un .hodge f → (underHodge G h.lin).isSome = true) := by
  constructor
  · intro g hg
    unfold underHodge at hg
    by_cases hpre : Op.hodge.chars.isPrefixOf h.lin = true
    · rw [if_pos hpre] at hg
      have hmem : g ∈ G := List.mem_of_find?_eq_some hg
      have hp := List.find?_some hg
      simp only [decide_eq_true_eq] at hp
      refine ⟨hmem, fun I => ?_⟩
      obtain ⟨a1, a2, a3⟩ := hG g hmem
      obtain ⟨b1, b2, b3⟩ := hh
      have e : (Form.un .hodge g).lin = h.lin := by
        rw [Form.lin, hp]
        obtain ⟨t, ht⟩ := List.isPrefixOf_iff_prefix.1 hpre
        rw [← ht]
        simp [Un.op]
      exact same_text_same_value_partial (f := .un .hodge g) a1 b1 ⟨rfl, a2⟩ b2 a3 b3 e I
    · rw [if_neg hpre] at hg; simp at hg
  · rintro f hf rfl
    unfold underHodge
    have hpre : Op.hodge.chars.isPrefixOf (Form.un .hodge f).lin = true :=
      List.isPrefixOf_iff_prefix.2 ⟨_, rfl⟩
    rw [if_pos hpre, List.find?_isSome]
    exact ⟨f, hf, by simp [Form.lin, Un.op]⟩

def lastStep {α β : Type} (step : α → Option β) (acc : Option β) (x : α) : Option β :=
  match step x with | some y => some y | none => acc

theorem foldl_last {α β : Type} (step : α → Option β) (l : List α) (b : Option β) :
    (l.foldl (lastStep step) b = b ∧
      ∀ x ∈ l, step x = none) ∨
    ∃ x ∈ l, ∃ y, step x = some y ∧
      l.foldl (lastStep step) b = some y := by
  induction l generalizing b with
  | nil => left; exact ⟨rfl, by simp⟩
  | cons a l ih =>
    simp only [List.foldl_cons]
    rcases ih (lastStep step b a) with ⟨h1, h2⟩ | ⟨x, hx, y, hy, h⟩
    · cases ha : step a with
      | none =>
        left
        rw [lastStep, ha] at h1
        exact ⟨by rw [lastStep, ha]; exact h1, by simpa [ha] using h2⟩
      | some y =>
        right
        rw [lastStep, ha] at h1
        exact ⟨a, by simp, y, ha, by rw [lastStep, ha]; exact h1⟩
    · right; exact ⟨x, by simp [hx], y, hy, h⟩

/-- The two forms found for a cross product: their cross product has the value of the form whose
text was given, and they are found whenever both factors are registered. -/
theorem split_cross_partial (G : Registry) (hG : ∀ f ∈ G, Ok f) (h : Form) (hh : Ok h) :
    (∀ B C, splitCross G h.lin = some (B, C) → B ∈ G ∧ C ∈ G ∧
      ∀ {V : Type} [AddCommGroup V] (I : Interp V),
        I.bin .cross_product (B.eval I) (C.eval I) = h.eval I) ∧
    (∀ B ∈ G, ∀ C ∈ G, h = .bin .cross_product B C → (splitCross G h.lin).isSome = true) := by
  let step : Form → Option (Str × Str) := fun f1 =>
    (G.find? (fun f2 => decide (bracket f1.isRoot f1.lin ++ Op.cross_product.chars ++
      bracket f2.isRoot f2.lin = h.lin))).map fun f2 => (f1.lin, f2.lin)
  have hstep : splitCross G h.lin =
      (G.foldl (lastStep step) none).bind
        fun p => (findForm G p.1).bind fun B => (findForm G p.2).map fun C => (B, C) := by
    unfold splitCross
    simp only
    congr 1
    congr 1
    funext acc f1
    simp only [step, lastStep]
    cases G.find? (fun f2 => decide (bracket f1.isRoot f1.lin ++ Op.cross_product.chars ++
      bracket f2.isRoot f2.lin = h.lin)) <;> rfl
  have hst : ∀ f1 p, step f1 = some p → ∃ f2 ∈ G, p = (f1.lin, f2.lin) ∧
      (Form.bin .cross_product f1 f2).lin = h.lin := by
    intro f1 p hp
    simp only [step, Option.map_eq_some_iff] at hp
    obtain ⟨f2, h2, rfl⟩ := hp
    have := List.find?_some h2
    simp only [decide_eq_true_eq] at this
    exact ⟨f2, List.mem_of_find?_eq_some h2, rfl, this⟩
  constructor
  · intro B C hBC
    rw [hstep] at hBC
    rcases foldl_last step G none with ⟨h1, _⟩ | ⟨f1, hf1, p, hp, h1⟩
    · rw [h1] at hBC; simp at hBC
    · rw [h1] at hBC
      obtain ⟨f2, hf2, rfl, hlin⟩ := hst f1 p hp
      simp only [Option.bind_some, Option.bind_eq_some_iff, Option.map_eq_some_iff,
        Prod.mk.injEq] at hBC
      obtain ⟨B', hB', C', hC', rfl, rfl⟩ := hBC
      obtain ⟨b, hbm, hb1, hb2⟩ := find_form_partial G hG f1 hf1
      obtain ⟨c, hcm, hc1, hc2⟩ := find_form_partial G hG f2 hf2
      rw [hb1] at hB'; rw [hc1] at hC'
      simp only [Option.some.injEq] at hB' hC'
      subst hB'; subst hC'
      refine ⟨hbm, hcm, fun I => ?_⟩
      obtain ⟨p1, p2, p3⟩ := hG f1 hf1
      obtain ⟨q1, q2, q3⟩ := hG f2 hf2
      obtain ⟨b1, b2, b3⟩ := hh
      have := same_text_same_value_partial (f := .bin .cross_product f1 f2) ⟨p1, q1⟩ b1
        ⟨rfl, p2, q2⟩ b2 ⟨p3, q3⟩ b3 hlin I
      rw [hb2 I, hc2 I, ← this]; rfl
  · rintro B hB C hC rfl
    rw [hstep]
    have hsB : (step B).isSome = true := by
      simp only [step, Option.isSome_map]
      rw [List.find?_isSome]
      exact ⟨C, hC, by simp [Form.lin, Bin.op]⟩
    rcases foldl_last step G none with ⟨_, h2⟩ | ⟨f1, hf1, p, hp, h1⟩
    · rw [h2 B hB] at hsB; simp at hsB
    · rw [h1]
      obtain ⟨f2, hf2, rfl, _⟩ := hst f1 p hp
      obtain ⟨b, _, hb1, _⟩ := find_form_partial G hG f1 hf1
      obtain ⟨c, _, hc1, _⟩ := find_form_partial G hG f2 hf2
      simp [hb1, hc1]

/-- A registry that meets the hypotheses; `⋆(a x b)` is registered, its operand is found, and
`a x b` is split. -/
def exG : Registry := [.root ['a'], .root ['b'], .bin .cross_product (.root ['a']) (.root ['b']),
  .un .hodge (.bin .cross_product (.root ['a']) (.root ['b']))]

example : (∀ f ∈ exG, Ok f) ∧
    underHodge exG (Form.un .hodge (.bin .cross_product (.root ['a']) (.root ['b']))).lin =
      some (.bin .cross_product (.root ['a']) (.root ['b'])) ∧
    splitCross exG (Form.bin .cross_product (.root ['a']) (.root ['b'])).lin =
      some (.root ['a'], .root ['b']) := by
  refine ⟨?_, by decide, by decide⟩
  intro f hf
  simp only [exG, List.mem_cons, List.not_mem_nil, or_false] at hf
  rcases hf with rfl | rfl | rfl | rfl <;>
    simp [Ok, Form.wf, Form.plain, Form.noGroupedMinus, validName, Bin.hasSpace, Un.hasSpace]

/-! ### C11 -/

/-- C11. The elementary forms of an expression are exactly the registered root forms that occur in
it, whatever the (accepted) names are. -/
theorem elementary_forms_exact (registry : List Str) (hr : ∀ n ∈ registry, validName n = true)
    (f : Form) (hf : f.wf) (n : Str) :
    n ∈ elementaryForms registry f.lin ↔ n ∈ registry ∧ n ∈ f.roots := by
  unfold elementaryForms
  rw [List.mem_filter]
  constructor
  · rintro ⟨h1, h2⟩
    rw [Form.lin_eq, isIn_render (hr n h1) _ (f.tk_wf hf), form_mem_tk] at h2
    exact ⟨h1, h2⟩
  · rintro ⟨h1, h2⟩
    refine ⟨h1, ?_⟩
    rw [Form.lin_eq, isIn_render (hr n h1) _ (f.tk_wf hf), form_mem_tk]
    exact h2

/-- Names that are parts of each other (`a`, `ab`, `b`, `textsf`) are told apart. -/
example : elementaryForms [['a'], ['a', 'b'], ['b'], ['t', 'e', 'x', 't', 's', 'f']]
    (Form.bin .wedge (.root ['a', 'b']) (.un .d (.root ['b']))).lin = [['a', 'b'], ['b']] := by
  decide

/-! ### C12 -/

theorem eval_subst {V : Type} [AddCommGroup V] (I : Interp V) (n : Str) (by' f : Form) :
    (f.subst n by').eval I =
      f.eval ⟨fun m => if m = n then by'.eval I else I.root m, I.un, I.bin, I.smul, I.sdiv⟩ := by
  induction f with
  | root m => by_cases h : m = n <;> simp [Form.subst, Form.eval, h]
  | un u f ih => simp [Form.subst, Form.eval, ih]
  | bin b f g ihf ihg => simp [Form.subst, Form.eval, ihf, ihg]
  | add f g ihf ihg => simp [Form.subst, Form.eval, ihf, ihg]
  | sub f g ihf ihg => simp [Form.subst, Form.eval, ihf, ihg]
  | smul c f ih => simp [Form.subst, Form.eval, ih]
  | sdiv f c ih => simp [Form.subst, Form.eval, ih]

/-- The replacement on tokens. -/
def repl (n : Str) (by' : List Tok) (ts : List Tok) : List Tok :=
  ts.flatMap fun t => if t = .form n then by' else [t]

theorem repl_append (n : Str) (b s t : List Tok) : repl n b (s ++ t) = repl n b s ++ repl n b t := by
  simp [repl]

theorem repl_cons_op (n : Str) (b : List Tok) (o : Op) (t : List Tok) :
    repl n b (.op o :: t) = .op o :: repl n b t := by
  simp [repl]

theorem repl_scalar (n : Str) (b : List Tok) (c : Scalar) : repl n b c.tk = c.tk := by
  have : ∀ ts : List Tok, Tok.form n ∉ ts → repl n b ts = ts := by
    intro ts h
    induction ts with
    | nil => rfl
    | cons t ts ih =>
      simp only [List.mem_cons, not_or] at h
      have h1 : t ≠ .form n := fun e => h.1 e.symm
      have : repl n b (t :: ts) = [t] ++ repl n b ts := by simp [repl, h1]
      rw [this, ih h.2]; rfl
  exact this _ (c.form_notMem n)

theorem repl_brk (n : Str) (b : List Tok) (r : Bool) (t : List Tok) :
    repl n b (brk r t) = brk r (repl n b t) := by
  cases r with
  | true => rfl
  | false =>
    simp only [brk, Bool.false_eq_true, if_false, repl_cons_op, repl_append]
    rfl

theorem subst_isRoot (n : Str) (by' f : Form) (h : by'.isRoot = true ∨ f ≠ .root n) :
    (f.subst n by').isRoot = f.isRoot := by
  cases f with
  | root m =>
    by_cases hm : m = n
    · subst hm
      rcases h with h | h
      · simp [Form.subst, Form.isRoot, h] at h ⊢; exact h
      · exact absurd rfl h
    · simp [Form.subst, hm]
  | _ => rfl

theorem subst_tk (n : Str) (by' f : Form) (h : by'.isRoot = true ∨ f.onlySummand n) :
    (f.subst n by').tk = repl n by'.tk f.tk := by
  induction f with
  | root m => by_cases hm : m = n <;> simp [Form.subst, Form.tk, repl, hm]
  | un u f ih =>
    have hr : (f.subst n by').isRoot = f.isRoot := subst_isRoot n by' f (h.imp_right fun h => h.1)
    simp only [Form.subst, Form.tk, repl_cons_op, repl_brk, hr, ih (h.imp_right fun h => h.2)]
  | bin b f g ihf ihg =>
    have hr : (f.subst n by').isRoot = f.isRoot := subst_isRoot n by' f (h.imp_right fun h => h.1)
    have hr' : (g.subst n by').isRoot = g.isRoot :=
      subst_isRoot n by' g (h.imp_right fun h => h.2.1)
    simp only [Form.subst, Form.tk, repl_append, repl_cons_op, repl_brk, hr, hr',
      ihf (h.imp_right fun h => h.2.2.1), ihg (h.imp_right fun h => h.2.2.2)]
  | add f g ihf ihg =>
    simp only [Form.subst, Form.tk, repl_append, repl_cons_op, ihf (h.imp_right fun h => h.1),
      ihg (h.imp_right fun h => h.2)]
  | sub f g ihf ihg =>
    simp only [Form.subst, Form.tk, repl_append, repl_cons_op, ihf (h.imp_right fun h => h.1),
      ihg (h.imp_right fun h => h.2)]
  | smul c f ih =>
    have hr : (f.subst n by').isRoot = f.isRoot := subst_isRoot n by' f (h.imp_right fun h => h.1)
    have ih' := ih (h.imp_right fun h => h.2)
    have hnil : repl n by'.tk [] = [] := rfl
    simp only [Form.subst, Form.tk, hr]
    split_ifs <;> simp only [repl_append, repl_cons_op, repl_scalar, ih', hnil]
  | sdiv f c ih =>
    have hr : (f.subst n by').isRoot = f.isRoot := subst_isRoot n by' f (h.imp_right fun h => h.1)
    simp only [Form.subst, Form.tk, repl_append, repl_cons_op, repl_brk, repl_scalar, hr,
      ih (h.imp_right fun h => h.2)]

theorem repl_id (n : Str) (b ts : List Tok) (h : Tok.form n ∉ ts) : repl n b ts = ts := by
  induction ts with
  | nil => rfl
  | cons t ts ih =>
    simp only [List.mem_cons, not_or] at h
    have h1 : t ≠ .form n := fun e => h.1 e.symm
    have : repl n b (t :: ts) = [t] ++ repl n b ts := by simp [repl, h1]
    rw [this, ih h.2]; rfl

theorem replaceText_eq (f by' : Form) (n : Str) (hn : validName n = true) (hf : f.wf) :
    replaceText f.lin (formText n) by'.lin = render (repl n by'.tk f.tk) := by
  unfold replaceText
  by_cases h : isIn (formText n) f.lin = false
  · rw [if_pos h]
    have : Tok.form n ∉ f.tk := by
      intro hm
      rw [Form.lin_eq, (isIn_render hn _ (f.tk_wf hf)).2 hm] at h
      simp at h
    rw [repl_id n _ _ this, Form.lin_eq]
  · rw [if_neg h]
    by_cases h2 : f.lin = formText n
    · rw [if_pos h2]
      have : f.tk = [.form n] := by
        apply render_inj (f.tk_wf hf) (b := [.form n])
        · intro t ht; simp at ht; subst ht; exact hn
        · rw [← Form.lin_eq, h2]; simp [render, Tok.chars]
      rw [this, Form.lin_eq]
      simp [repl]
    · rw [if_neg h2, Form.lin_eq, Form.lin_eq]
      exact strReplace_render hn _ _ (f.tk_wf hf)

/-- C12 for a root form replaced by a root form: the text of the result is the text of the
expression with the substitution made. -/
theorem replace_root (f : Form) (hf : f.wf) (n m : Str) (hn : validName n = true) :
    replaceText f.lin (formText n) (formText m) = (f.subst n (.root m)).lin := by
  rw [show formText m = (Form.root m).lin from rfl, replaceText_eq f _ n hn hf,
    Form.lin_eq, subst_tk n (.root m) f (Or.inl rfl)]

/-- C12. If the replaced root form is replaced by a root form, or occurs only as a summand, then
every plain expression without subtracted sums that has the resulting text has the value of the
original expression with the replaced form bound to the value of the replacement. Missing:
replacement of an operand by a compound form, for which the claim is false
(`replace_operand_refuted`), replacement of compound forms, and the choice of single
occurrences. -/
theorem replace_value_partial (f by' : Form) (n : Str) (hf : f.wf) (hb : by'.wf)
    (hn : validName n = true) (h : by'.isRoot = true ∨ f.onlySummand n)
    (hp : (f.subst n by').plain) (hm : (f.subst n by').noGroupedMinus)
    (g : Form) (hg : Ok g) (hlin : g.lin = replaceText f.lin (formText n) by'.lin)
    {V : Type} [AddCommGroup V] (I : Interp V) :
    g.eval I =
      f.eval ⟨fun m => if m = n then by'.eval I else I.root m, I.un, I.bin, I.smul, I.sdiv⟩ := by
  have hw : (f.subst n by').wf := by
    clear h hp hm hlin
    induction f with
    | root m => by_cases e : m = n <;> simp [Form.subst, e, hb]; exact hf
    | un u f ih => exact ih hf
    | bin b f g ihf ihg => exact ⟨ihf hf.1, ihg hf.2⟩
    | add f g ihf ihg => exact ⟨ihf hf.1, ihg hf.2⟩
    | sub f g ihf ihg => exact ⟨ihf hf.1, ihg hf.2⟩
    | smul c f ih => exact ⟨hf.1, ih hf.2⟩
    | sdiv f c ih => exact ⟨ih hf.1, hf.2⟩
  rw [replaceText_eq f by' n hn hf, ← subst_tk n by' f h, ← Form.lin_eq] at hlin
  rw [same_text_same_value_partial hg.1 hw hg.2.1 hp hg.2.2 hm hlin I, eval_subst]

/-- `(d a + b ∧ a).replace(a, c)`, and `(a + d b).replace(a, c - b)`. -/
example :
    replaceText (Form.add (.un .d (.root ['a'])) (.bin .wedge (.root ['b']) (.root ['a']))).lin
        (formText ['a']) (formText ['c']) =
      (Form.add (.un .d (.root ['c'])) (.bin .wedge (.root ['b']) (.root ['c']))).lin ∧
    (Form.add (.root ['a']) (.un .d (.root ['b']))).onlySummand ['a'] ∧
    replaceText (Form.add (.root ['a']) (.un .d (.root ['b']))).lin (formText ['a'])
        (Form.sub (.root ['c']) (.root ['b'])).lin =
      (Form.add (.sub (.root ['c']) (.root ['b'])) (.un .d (.root ['b']))).lin := by
  refine ⟨by decide, ?_, by decide⟩
  simp [Form.onlySummand]

/-- `(d a).replace(a, b + c)` has the text of `(d b) + c`, not of `d (b + c)`. -/
theorem replace_operand_refuted :
    ∃ f by' g : Form, Ok f ∧ Ok by' ∧ Ok g ∧
      g.lin = replaceText f.lin (formText ['a']) by'.lin ∧
      ∃ I : Interp ℤ, g.eval I ≠ f.eval ⟨fun m => if m = ['a'] then by'.eval I else I.root m,
        I.un, I.bin, I.smul, I.sdiv⟩ := by
  refine ⟨.un .d (.root ['a']), .add (.root ['b']) (.root ['c']),
    .add (.un .d (.root ['b'])) (.root ['c']), ?_, ?_, ?_, by decide, ?_⟩
  · simp [Ok, Form.wf, Form.plain, Form.noGroupedMinus, validName, Un.hasSpace]
  · simp [Ok, Form.wf, Form.plain, Form.noGroupedMinus, validName]
  · simp [Ok, Form.wf, Form.plain, Form.noGroupedMinus, validName, Un.hasSpace]
  · exact ⟨⟨fun _ => 1, fun _ x => 2 * x, fun _ x _ => x, fun _ x => x, fun x _ => x⟩, by decide⟩

end Phyem.LinRepr
