import Verif.TimeDisc.Lemmas
import Verif.WeakForm.TermProps

/-!
C07: temporal discretisation changes the addressed terms only, and changes them as requested.
-/

namespace Phyem.TimeDisc

open Phyem.LinRepr (Str Form Scalar Registry Interp isIn replaceText formText validName findUpon)
open Phyem.WeakForm (Kind Term Eqn Wf Env str)

/-- The formulation with the texts of its terms. -/
def textEqn {R : Type} (e : Eqn (Term R)) : Eqn (TTerm R) :=
  ⟨e.left.map fun p => (p.1, text p.2), e.right.map fun p => (p.1, text p.2)⟩

def textWf {R F : Type} (w : Wf (Term R) F) : Wf (TTerm R) F :=
  ⟨w.eqs.map textEqn, w.unknowns, w.bc⟩

theorem termAt_text {R F : Type} (w : Wf (Term R) F) (i k : ℕ) (ts : Str) (ins : List Str)
    (disc : Dict (ℕ × ℕ) (TTerm R × Sign)) (p : Sign × TTerm R)
    (h : termAt ⟨some (textWf w), ts, ins, disc⟩ i k = some p) :
    ∃ e t, w.eqs[i]? = some e ∧ (terms e)[k]? = some (p.1, t) ∧ p.2 = text t := by
  simp only [termAt, textWf, Option.bind_some, Option.bind_eq_some_iff, List.getElem?_map,
    Option.map_eq_some_iff] at h
  obtain ⟨e', ⟨e, he, rfl⟩, h⟩ := h
  have hm : terms (textEqn e) = (terms e).map fun p => (p.1, text p.2) := by
    simp [terms, textEqn]
  rw [hm, List.getElem?_map, Option.map_eq_some_iff] at h
  obtain ⟨q, hq, rfl⟩ := h
  exact ⟨e, q.2, he, hq, rfl⟩

/-- The state after a history, in terms of what the history means for each term. -/
structure Good {R F : Type} (w : Wf (Term R) F) (ts : Str) (cs : List Cmd) (st : State R F) : Prop where
  wf : st.wf = some (textWf w)
  tsq : st.ts = ts
  valid : ∀ k ∈ st.instants, validName (instName ts k) = true
  disc : ∀ i k e s t, w.eqs[i]? = some e → (terms e)[k]? = some (s, t) →
    ((st.disc.get (i, k)).getD (text t, .pos) = (text (discretised ts cs i k t), .pos)) ∧
    (discretised ts cs i k t).f0.wf ∧ (discretised ts cs i k t).f1.wf

theorem discretised_snoc {R : Type} (ts : Str) (cs : List Cmd) (c : Cmd) (i k : ℕ) (t : Term R) :
    discretised ts (cs ++ [c]) i k t = meaning ts i k t (discretised ts cs i k t) c := by
  simp [discretised]

theorem meaning_other {R : Type} (ts : Str) (i k : ℕ) (t cur : Term R) (c : Cmd)
    (h : ¬ c.about i k) : meaning ts i k t cur c = cur := by
  cases c with
  | define ks => rfl
  | differentiate i' k' ks ke => simp only [Cmd.about] at h; simp [meaning, h]
  | average i' k' f tis => simp only [Cmd.about] at h; simp [meaning, h]

theorem step_good {R F : Type} [One R] (G : Registry) (hG : ∀ f ∈ G, f.wf) (w : Wf (Term R) F)
    (hw : ∀ e ∈ w.eqs, ∀ p ∈ terms e, p.2.f0.wf ∧ p.2.f1.wf ∧ p.2.f0.nice)
    (ts : Str) (cs : List Cmd) (c : Cmd) (st st' : State R F)
    (hc : ∀ i k f tis n, c = .average i k f tis → f = .root n → validName n = true)
    (hf : ∀ i k e s t, w.eqs[i]? = some e → (terms e)[k]? = some (s, t) → c.about i k →
      Fine t (discretised ts cs i k t) c)
    (g : Good w ts cs st) (h : step G st c = some st') : Good w ts (cs ++ [c]) st' := by
  obtain ⟨swf, sts, sin, sd⟩ := st
  obtain ⟨g1, g2, g3, g4⟩ := g
  simp only at g1 g2 g3 g4
  subst g1 g2
  unfold step at h
  rw [if_neg (by simp)] at h
  cases c with
  | define ks =>
    simp only [define] at h
    by_cases hk : ∀ k ∈ ks, validName (instName sts k) = true
    · rw [if_pos hk, Option.some.injEq] at h
      subst h
      refine ⟨rfl, rfl, ?_, ?_⟩
      · intro k hk'
        simp only [List.mem_append] at hk'
        exact hk'.elim (g3 k) (hk k)
      · intro i k e s t he ht
        rw [discretised_snoc]
        exact g4 i k e s t he ht
    · rw [if_neg hk] at h; simp at h
  | differentiate i k ks ke =>
    simp only [differentiate, Option.bind_eq_some_iff] at h
    obtain ⟨p, hp, h⟩ := h
    obtain ⟨e, t, he, ht, hpt⟩ := termAt_text w i k _ _ _ p hp
    by_cases hcond : ks ∈ sin ∧ ke ∈ sin ∧ isPt G p.2 = some true
    · rw [if_pos hcond] at h
      simp only [Option.bind_eq_some_iff] at h
      obtain ⟨b, hb, h⟩ := h
      have hbG : b ∈ G := List.mem_of_find?_eq_some hb
      have hbl := List.find?_some hb
      simp only [decide_eq_true_eq] at hbl
      have hbw := hG b hbG
      cases b with
      | root n =>
        simp only [Option.some.injEq] at h
        subst h
        have hmem : (p.1, t) ∈ terms e := List.mem_of_getElem? ht
        have hwt := hw e (List.mem_of_getElem? he) _ hmem
        have hf0 : t.f0 = .un .timeDerivative (.root n) := by
          rw [hpt] at hbl
          exact (LinRepr.same_text_same_form (f := .un .timeDerivative (.root n)) hbw hwt.1
            ⟨rfl, trivial⟩ hwt.2.2 hbl).symm
        refine ⟨rfl, rfl, g3, ?_⟩
        intro i' k' e' s' t' he' ht'
        rw [Dict.get_put, discretised_snoc]
        by_cases hik : (i', k') = (i, k)
        · obtain ⟨rfl, rfl⟩ := Prod.mk.injEq .. ▸ hik
          rw [he] at he'; cases he'
          rw [ht] at ht'; cases ht'
          have hfine := hf i' k' e p.1 t he ht ⟨rfl, rfl⟩
          simp only [Fine] at hfine
          rw [if_pos rfl]
          simp only [Option.getD_some, meaning, and_self, if_true, hf0, quotient, Prod.mk.injEq,
            and_true, hpt]
          refine ⟨?_, ?_, ?_⟩
          · simp only [text, hfine.1, hfine.2]
          · refine ⟨⟨valid_at hbw (g3 ke hcond.2.1), valid_at hbw (g3 ks hcond.1)⟩, ?_⟩
            intro m hm
            simp only [Scalar.names, List.mem_singleton] at hm
            subst hm
            exact valid_step (g3 ks hcond.1) (g3 ke hcond.2.1)
          · exact hwt.2.1
        · rw [if_neg hik]
          rw [meaning_other]
          · exact g4 i' k' e' s' t' he' ht'
          · rintro ⟨rfl, rfl⟩; exact hik rfl
      | _ => simp at h
    · rw [if_neg hcond] at h; simp at h
  | average i k f tis =>
    simp only [average, Option.bind_eq_some_iff] at h
    obtain ⟨p, hp, h⟩ := h
    obtain ⟨e, t, he, ht, hpt⟩ := termAt_text w i k _ _ _ p hp
    cases f with
    | root n =>
      simp only at h
      by_cases htis : ∀ t ∈ tis, t ∈ sin
      · rw [if_pos htis, Option.map_eq_some_iff] at h
        obtain ⟨a, ha, h⟩ := h
        have hn := hc i k _ tis n rfl rfl
        have haw : a.wf := wf_average hn tis (fun t ht => g3 t (htis t ht)) a ha
        have key : st' = ⟨some (textWf w), sts, sin, sd.put (i, k)
            (replaceTerm (text (discretised sts cs i k t)) n a)⟩ := by
          have hg := (g4 i k e p.1 t he ht).1
          rw [← h]
          cases hd : sd.get (i, k) with
          | none =>
            rw [hd] at hg
            simp only [Option.getD_none, Prod.mk.injEq, and_true] at hg
            simp only [hpt, hg]
          | some old =>
            rw [hd] at hg
            simp only [Option.getD_some] at hg
            simp [hg, replaceTerm]
        subst key
        refine ⟨rfl, rfl, g3, ?_⟩
        intro i' k' e' s' t' he' ht'
        rw [Dict.get_put, discretised_snoc]
        by_cases hik : (i', k') = (i, k)
        · obtain ⟨rfl, rfl⟩ := Prod.mk.injEq .. ▸ hik
          rw [he] at he'; cases he'
          rw [ht] at ht'; cases ht'
          have hfine := hf i' k' e p.1 t he ht ⟨rfl, rfl⟩
          simp only [Fine] at hfine
          have hd := (g4 i' k' e p.1 t he ht).2
          have hs0 : a.isRoot = true ∨ (discretised sts cs i' k' t).f0.onlySummand n :=
            hfine.imp (average_single ha) fun h => (h n rfl).1
          have hs1 : a.isRoot = true ∨ (discretised sts cs i' k' t).f1.onlySummand n :=
            hfine.imp (average_single ha) fun h => (h n rfl).2
          rw [if_pos rfl]
          simp only [Option.getD_some, meaning, and_self, if_true, ha, replaceTerm, text]
          rw [replace_text _ a n hn hd.1 hs0, replace_text _ a n hn hd.2 hs1]
          exact ⟨rfl, wf_subst _ n a hd.1 haw, wf_subst _ n a hd.2 haw⟩
        · rw [if_neg hik]
          rw [meaning_other]
          · exact g4 i' k' e' s' t' he' ht'
          · rintro ⟨rfl, rfl⟩; exact hik rfl
      · rw [if_neg htis] at h; simp at h
    | _ => simp at h

theorem run_good {R F : Type} [One R] (G : Registry) (hG : ∀ f ∈ G, f.wf) (w : Wf (Term R) F)
    (hw : ∀ e ∈ w.eqs, ∀ p ∈ terms e, p.2.f0.wf ∧ p.2.f1.wf ∧ p.2.f0.nice)
    (ts : Str) (pre cs : List Cmd) (st st' : State R F)
    (hc : ∀ i k f tis n, .average i k f tis ∈ cs → f = .root n → validName n = true)
    (hf : ∀ a c b, cs = a ++ c :: b → ∀ i k e s t, w.eqs[i]? = some e → (terms e)[k]? = some (s, t) →
      c.about i k → Fine t (discretised ts (pre ++ a) i k t) c)
    (g : Good w ts pre st) (h : run G st cs = some st') : Good w ts (pre ++ cs) st' := by
  induction cs generalizing pre st with
  | nil => simp only [run, Option.some.injEq] at h; subst h; simpa using g
  | cons c cs ih =>
    simp only [run, Option.bind_eq_some_iff] at h
    obtain ⟨st1, h1, h2⟩ := h
    have g1 := step_good G hG w hw ts pre c st st1
      (fun i k f tis n e1 e2 => hc i k f tis n (by simp [← e1]) e2)
      (fun i k e s t he ht ha => by simpa using hf [] c cs rfl i k e s t he ht ha) g h1
    have := ih (pre ++ [c]) st1 (fun i k f tis n e1 e2 => hc i k f tis n (by simp [e1]) e2)
      (fun a c' b e1 i k e s t he ht ha => by
        have := hf (c :: a) c' b (by simp [e1]) i k e s t he ht ha
        simpa using this) g1 h2
    simpa using this

/-- What a history of requests means for a whole equation: every term stays on its side, at its
place, with its sign. -/
def meantEqn {R : Type} (ts : Str) (cs : List Cmd) (i : ℕ) (e : Eqn (Term R)) : Eqn (Term R) :=
  ⟨e.left.mapIdx fun k p => (p.1, discretised ts cs i k p.2),
   e.right.mapIdx fun k p => (p.1, discretised ts cs i (e.left.length + k) p.2)⟩

/-- C07. After any history of accepted requests, the resulting formulation has the same equations
with the same sides, order and signs, and each term is the original one with the requested
differences and averages; boundary conditions are kept. Terms that are not addressed are unchanged
(`untouched`). Missing: a differentiated term with a factor other than 1, whose factor is lost
(`differentiate_factor_refuted`); a form averaged over several instants inside an operator, where
the text of the result is not the text of any expression; unknowns, which are lost
(`unknowns_refuted`). -/
theorem discretise_partial {R F : Type} [One R] [DecidableEq F] (G : Registry) (hG : ∀ f ∈ G, f.wf)
    (E : Env (TTerm R) F) (w : Wf (Term R) F)
    (hw : ∀ e ∈ w.eqs, ∀ p ∈ terms e, p.2.f0.wf ∧ p.2.f1.wf ∧ p.2.f0.nice)
    (ts : Str) (cs : List Cmd) (clean : Bool) (st0 st st' : State R F) (w' : Wf (TTerm R) F)
    (hc : ∀ i k f tis n, .average i k f tis ∈ cs → f = .root n → validName n = true)
    (hf : ∀ a c b, cs = a ++ c :: b → ∀ i k e s t, w.eqs[i]? = some e → (terms e)[k]? = some (s, t) →
      c.about i k → Fine t (discretised ts a i k t) c)
    (h0 : start G (textWf w) ts = some st0) (h1 : run G st0 cs = some st)
    (h2 : call E st clean = some (w', st')) :
    w'.eqs = w.eqs.mapIdx (fun i e => textEqn (meantEqn ts cs i e)) ∧ w'.bc = w.bc ∧
      (clean = true → ∀ c, step G st' c = none) := by
  have g0 : Good w ts [] st0 := by
    unfold start at h0
    split_ifs at h0
    simp only [Option.some.injEq] at h0
    subst h0
    refine ⟨rfl, rfl, by simp, ?_⟩
    intro i k e s t he ht
    have := hw e (List.mem_of_getElem? he) _ (List.mem_of_getElem? ht)
    exact ⟨rfl, this.1, this.2.1⟩
  have g := run_good G hG w hw ts [] cs st0 st hc (by simpa using hf) g0 h1
  simp only [List.nil_append] at g
  unfold call at h2
  rw [g.wf] at h2
  simp only [Option.bind_some, Option.map_eq_some_iff, Prod.mk.injEq] at h2
  obtain ⟨w'', hb, rfl, hst⟩ := h2
  unfold WeakForm.build at hb
  split_ifs at hb
  simp only [Option.some.injEq] at hb
  subst hb
  refine ⟨?_, rfl, ?_⟩
  · simp only [textWf]
    apply List.ext_getElem?
    intro i
    simp only [List.getElem?_map, List.getElem?_zipIdx, List.getElem?_mapIdx, Option.map_map,
      Nat.zero_add]
    cases he : w.eqs[i]? with
    | none => rfl
    | some e =>
      simp only [Option.map_some, Function.comp, Option.some.injEq]
      rw [callEqn_eq]
      have hent : ∀ k s t, (terms e)[k]? = some (s, t) →
          entry st.disc i k (s, text t) = (s, text (discretised ts cs i k t)) := by
        intro k s t ht
        have := (g.disc i k e s t he ht).1
        unfold entry
        cases hd : st.disc.get (i, k) with
        | none =>
          rw [hd] at this
          simp only [Option.getD_none, Prod.mk.injEq, and_true] at this
          simp [this]
        | some new =>
          rw [hd] at this
          simp only [Option.getD_some] at this
          simp only [this, parseSign]
          cases s <;> simp
      simp only [textEqn, meantEqn, Eqn.mk.injEq]
      constructor
      · apply List.ext_getElem?
        intro k
        simp only [List.getElem?_map, List.getElem?_zipIdx, List.getElem?_mapIdx, Option.map_map,
          Nat.zero_add]
        cases hl : e.left[k]? with
        | none => rfl
        | some p =>
          simp only [Option.map_some, Function.comp, Option.some.injEq]
          exact hent k p.1 p.2 (by
            unfold terms
            rw [List.getElem?_append_left (List.getElem?_eq_some_iff.1 hl).1, hl])
      · apply List.ext_getElem?
        intro k
        simp only [List.getElem?_map, List.getElem?_zipIdx, List.getElem?_mapIdx, Option.map_map,
          Nat.zero_add]
        cases hl : e.right[k]? with
        | none => rfl
        | some p =>
          simp only [Option.map_some, Function.comp, Option.some.injEq, List.length_map]
          rw [Nat.add_comm]
          exact hent _ p.1 p.2 (by
            unfold terms
            rw [List.getElem?_append_right (by omega)]
            rw [show e.left.length + k - e.left.length = k by omega, hl])
  · rintro rfl c
    rw [if_pos rfl] at hst
    subst hst
    simp [step]

/-- A term no request addresses is unchanged. -/
theorem untouched {R : Type} (ts : Str) (cs : List Cmd) (i k : ℕ) (t : Term R)
    (h : ∀ c ∈ cs, ¬ c.about i k) : discretised ts cs i k t = t := by
  induction cs using List.reverseRecOn with
  | nil => rfl
  | append_singleton cs c ih =>
    rw [discretised_snoc, meaning_other ts i k t _ c (h c (by simp))]
    exact ih fun c hc => h c (by simp [hc])

open Phyem.WeakForm (Term.val) in
/-- The value of a differentiated term: the time derivative is replaced by the difference quotient;
factor, second form and kind are those of the term. -/
theorem differentiate_value {R V : Type} [CommRing R] [AddCommGroup V] (I : Interp V)
    (P : Kind → Bool → V → V → R) (ts : Str) (cs : List Cmd) (i k : ℕ) (t : Term R) (n ks ke : Str)
    (ht : t.f0 = .un .timeDerivative (.root n)) :
    (discretised ts (cs ++ [.differentiate i k ks ke]) i k t).val I P =
      t.factor * P t.kind t.restricted
        (I.sdiv (I.root (atName ts n ke) - I.root (atName ts n ks)) (.root (stepName ts ks ke)))
        (t.f1.eval I) := by
  rw [discretised_snoc]
  simp [meaning, ht, Term.val, quotient, Form.eval]

theorem eval_sum {V : Type} [AddCommGroup V] (I : Interp V) (ts n t0 : Str) (tis : List Str) :
    (sumForms ts n t0 tis).eval I = ((t0 :: tis).map fun t => I.root (atName ts n t)).sum := by
  unfold sumForms
  have : ∀ acc : Form, (tis.foldl (fun acc t => Form.add acc (.root (atName ts n t))) acc).eval I =
      acc.eval I + (tis.map fun t => I.root (atName ts n t)).sum := by
    induction tis with
    | nil => intro acc; simp
    | cons t tis ih =>
      intro acc
      rw [List.foldl_cons, ih]
      simp [Form.eval, add_assoc]
  rw [this]
  simp [Form.eval]

open Phyem.WeakForm (Term.val) in
/-- The value of a term in which a form was averaged: the value of the term as it was, with the form
standing for the average of its values at the instants. -/
theorem average_value {R V : Type} [CommRing R] [AddCommGroup V] (I : Interp V)
    (P : Kind → Bool → V → V → R) (ts : Str) (cs : List Cmd) (i k : ℕ) (t : Term R) (n t0 : Str)
    (tis : List Str)
    (hdiv : ∀ v, I.sdiv v (.root (str 1)) = v) :
    (discretised ts (cs ++ [.average i k (.root n) (t0 :: tis)]) i k t).val I P =
      (discretised ts cs i k t).val
        ⟨fun m => if m = n then
            I.sdiv ((t0 :: tis).map fun t => I.root (atName ts n t)).sum
              (.root (str (t0 :: tis).length))
          else I.root m, I.un, I.bin, I.smul, I.sdiv⟩ P := by
  rw [discretised_snoc]
  have hav : ∃ a, averageForm ts n (t0 :: tis) = some a ∧ a.eval I =
      I.sdiv ((t0 :: tis).map fun t => I.root (atName ts n t)).sum
        (.root (str (t0 :: tis).length)) := by
    cases tis with
    | nil => exact ⟨_, rfl, by simp [Form.eval, hdiv]⟩
    | cons t1 tis =>
      refine ⟨_, rfl, ?_⟩
      rw [← eval_sum]
      rfl
  obtain ⟨a, ha, hv⟩ := hav
  simp only [meaning, and_self, if_true, ha, Term.val, LinRepr.eval_subst, hv]

/-- Which requests to differentiate are refused: unknown index or instants, and terms that are not
an inner product with the time derivative of a root form in front and none behind. -/
theorem differentiate_refuses {R F : Type} [One R] (G : Registry) (st : State R F) (i k : ℕ)
    (ks ke : Str) :
    (step G st (.differentiate i k ks ke)).isSome = true ↔
      ∃ p n, termAt st i k = some p ∧ ks ∈ st.instants ∧ ke ∈ st.instants ∧ p.2.kind = .inner ∧
        LinRepr.Op.timeDerivative.chars.isPrefixOf p.2.lin0 = true ∧
        isIn LinRepr.Op.timeDerivative.chars p.2.lin1 = false ∧
        findUpon G .timeDerivative p.2.lin0 = some (.root n) := by
  constructor
  · intro h
    obtain ⟨st', h⟩ := Option.isSome_iff_exists.1 h
    unfold step at h
    split_ifs at h with hw
    simp only [differentiate, Option.bind_eq_some_iff] at h
    obtain ⟨p, hp, h⟩ := h
    split_ifs at h with hcond
    simp only [Option.bind_eq_some_iff] at h
    obtain ⟨b, hb, h⟩ := h
    obtain ⟨h1, h2, h3⟩ := hcond
    unfold isPt at h3
    split_ifs at h3 with h4
    · rw [hb] at h3
      cases b with
      | root n => exact ⟨p, n, hp, h1, h2, h4.1, h4.2, by simpa using h3, hb⟩
      | _ => simp at h
    · simp at h3
  · rintro ⟨p, n, hp, h1, h2, h3, h4, h5, h6⟩
    have hw : ¬ (st.wf.isNone = true) := by
      intro hn
      simp only [Option.isNone_iff_eq_none] at hn
      simp [termAt, hn] at hp
    have hpt : isPt G p.2 = some true := by
      unfold isPt
      rw [if_pos ⟨h3, h4⟩, h6]
      simp [h5]
    unfold step
    rw [if_neg hw]
    simp only [differentiate, hp, Option.bind_some]
    rw [if_pos ⟨h1, h2, hpt⟩, h6]
    rfl

/-! ### An example and the refutations -/

def fa : Form := .root ['a']
def fv : Form := .root ['v']
def fb : Form := .root ['b']

/-- `c·(∂ₜ a, v) - (b, v) = -(a, d v)`. -/
def exW (c : ℤ) : Wf (Term ℤ) ℕ :=
  ⟨[⟨[(.pos, ⟨.inner, c, .un .timeDerivative fa, fv, false⟩), (.neg, ⟨.inner, 1, fb, fv, false⟩)],
     [(.neg, ⟨.inner, 3, fa, .un .d fv, false⟩)]⟩], some [0], 5⟩

def exG : Registry := [fa, fv, fb, .un .timeDerivative fa, .un .d fv]

def exE : Env (TTerm ℤ) ℕ := ⟨fun _ => [0], fun l => decide (l ≠ [])⟩

def exCs : List Cmd :=
  [.define [['k'], ['k', '1']], .differentiate 0 0 ['k'] ['k', '1'],
   .average 0 2 fa [['k'], ['k', '1']], .average 0 1 fb [['k', '1']]]

/-- The history of the example is accepted from the start, and the call succeeds. -/
example : (((start exG (textWf (exW 1)) ['T']).bind fun s => run exG s exCs).bind
    fun s => call exE s true).isSome = true := by decide +kernel

/-- It meets the other hypotheses of `discretise_partial`. -/
example : (∀ f ∈ exG, f.wf) ∧
    (∀ e ∈ (exW 1).eqs, ∀ p ∈ terms e, p.2.f0.wf ∧ p.2.f1.wf ∧ p.2.f0.nice) := by
  constructor
  · simp [exG, fa, fv, fb, Form.wf, validName]
  · intro e he p hp
    simp only [exW, List.mem_singleton] at he
    subst he
    simp only [terms, List.cons_append, List.nil_append, List.mem_cons, List.not_mem_nil, or_false] at hp
    rcases hp with rfl | rfl | rfl <;>
      simp [fa, fv, fb, Form.wf, Form.nice, validName, LinRepr.Un.hasSpace]

/-- Every request of the example is one of the cases of `Fine`. -/
example : ∀ a c b, exCs = a ++ c :: b → ∀ i k e s t, (exW 1).eqs[i]? = some e →
    (terms e)[k]? = some (s, t) → c.about i k → Fine t (discretised ['T'] a i k t) c := by
  intro a c b h i k e s t he ht hab
  have h0 : i = 0 := by
    have := (List.getElem?_eq_some_iff.1 he).1
    simp [exW] at this; exact this
  subst h0
  simp only [exW, List.getElem?_cons_zero, Option.some.injEq] at he
  subst he
  unfold exCs at h
  rcases a with _ | ⟨x, _ | ⟨y, _ | ⟨z, _ | ⟨u, a⟩⟩⟩⟩ <;>
    simp only [List.nil_append, List.cons_append, List.cons.injEq, List.nil_eq, List.append_eq_nil_iff,
      List.cons_ne_nil, and_false] at h
  · obtain ⟨rfl, _⟩ := h; trivial
  · obtain ⟨_, rfl, _⟩ := h
    obtain ⟨_, rfl⟩ := hab
    simp [terms] at ht
    obtain ⟨_, rfl⟩ := ht
    exact ⟨rfl, rfl⟩
  · obtain ⟨rfl, rfl, rfl, _⟩ := h
    obtain ⟨_, rfl⟩ := hab
    simp [terms] at ht
    obtain ⟨_, rfl⟩ := ht
    right
    intro n hn
    obtain rfl : n = ['a'] := by simpa [fa, eq_comm] using hn
    simp [discretised, meaning, Form.onlySummand, fa, fv]
  · obtain ⟨rfl, rfl, rfl, rfl, _⟩ := h
    exact Or.inl rfl

/-- The factor of a differentiated term is lost: `2 (∂ₜ a, v)` becomes `((a@1 - a@0)/Δt, v)`. -/
theorem differentiate_factor_refuted :
    ∃ (cs : List Cmd) (w' : Wf (TTerm ℤ) ℕ),
      (((start exG (textWf (exW 2)) ['T']).bind fun s => run exG s cs).bind
        fun s => (call exE s true).map Prod.fst) = some w' ∧
      w'.eqs ≠ (exW 2).eqs.mapIdx (fun i e => textEqn (meantEqn ['T'] cs i e)) ∧
      (w'.eqs.map fun e => e.left.map fun p => p.2.factor) = [[1, 1]] := by
  refine ⟨[.define [['k'], ['k', '1']], .differentiate 0 0 ['k'] ['k', '1']], _, rfl, ?_, ?_⟩
  · decide +kernel
  · decide +kernel

/-- Differentiating a term after averaging its second form discards the average. -/
theorem differentiate_after_average_refuted :
    ∃ (c d : Cmd) (s1 s2 : State ℤ ℕ),
      ((start exG (textWf (exW 1)) ['T']).bind fun s =>
        run exG s [.define [['k'], ['k', '1']], c, d]) = some s1 ∧
      ((start exG (textWf (exW 1)) ['T']).bind fun s =>
        run exG s [.define [['k'], ['k', '1']], d]) = some s2 ∧
      (∃ s, ((start exG (textWf (exW 1)) ['T']).bind fun s =>
        run exG s [.define [['k'], ['k', '1']], c]) = some s ∧ s.disc ≠ []) ∧
      s1.disc = s2.disc := by
  refine ⟨.average 0 0 fv [['k', '1']], .differentiate 0 0 ['k'] ['k', '1'], _, _, rfl, rfl, ⟨_, rfl, ?_⟩, ?_⟩
  · decide +kernel
  · decide +kernel

/-- The unknowns of the formulation are not those of the result. -/
theorem unknowns_refuted :
    ∃ w' : Wf (TTerm ℤ) ℕ, (((start exG (textWf (exW 1)) ['T']).bind fun s => run exG s exCs).bind
        fun s => (call exE s true).map Prod.fst) = some w' ∧ w'.unknowns ≠ (exW 1).unknowns := by
  refine ⟨_, rfl, ?_⟩
  decide +kernel

end Phyem.TimeDisc
