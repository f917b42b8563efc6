import Verif.WeakForm.Terms
import Verif.WeakForm.Props
import Verif.LinRepr.Props
import Mathlib.Algebra.Module.Defs
import Mathlib.Algebra.Ring.Int.Defs
import Mathlib.Algebra.Group.Prod

/-!
C04 (splitting a term), C05 (reordering a triple product) and C06 (integration by parts and the
duality switch).

Values: `I` gives the values of forms, `P` the values of inner products, duality pairings and
restricted pairings.
-/

namespace Phyem.WeakForm

open Phyem.Expr (Str split removeSpaces)
open Phyem.LinRepr (Form Registry Un Bin Op Interp Ok)

variable {R V : Type} [CommRing R] [AddCommGroup V]

/-- The value of a term: its factor times the pairing of the values of its forms; a restricted term
uses the pairing on the part of the manifold. -/
def Term.val (I : Interp V) (P : Kind → Bool → V → V → R) (t : Term R) : R :=
  t.factor * P t.kind t.restricted (t.f0.eval I) (t.f1.eval I)

/-- Replacing a term by terms of the same total value leaves left minus right of every equation
unchanged. -/
theorem rewrite_keeps {T F : Type} [DecidableEq F] (E : Env T F) (w w' : Wf T F) (i k : ℕ)
    (terms : List T) (signs : List Str) (h : replace E w i k terms signs = some w')
    (v : T → R)
    (hv : ∀ ss e s t, mapOpt parseSign signs = some ss → w.eqs[i]? = some e →
      (Eqn.terms e)[k]? = some (s, t) → signedSum v (ss.zip terms) = v t) :
    w'.eqs.map (fun e => e.diff v) = w.eqs.map (fun e => e.diff v) := by
  obtain ⟨ss, e, e', s, t, hss, he, he', ht, hl, hr, hlen, hoth, _, _⟩ :=
    replace_changes E w w' i k terms signs h
  have key := hv ss e s t hss he ht
  apply List.ext_getElem?
  intro m
  rw [List.getElem?_map, List.getElem?_map]
  by_cases hm : m = i
  · subst hm
    rw [he, he']
    simp only [Option.map_some, Option.some.injEq, Eqn.diff]
    by_cases hk : e.onLeft k
    · obtain ⟨h1, h2⟩ := hl hk
      rw [h1, h2 R v, key]; ring
    · obtain ⟨h1, h2⟩ := hr hk
      rw [h1, h2 R v, key]; ring
  · rw [hoth m hm]

theorem parseSign_signText (s : Sign) : parseSign (signText s) = some s := by
  cases s <;> decide

theorem mapOpt_signText {α : Type} (l : List (α × Sign)) :
    mapOpt parseSign (l.map fun p => signText p.2) = some (l.map Prod.snd) := by
  induction l with
  | nil => rfl
  | cons p l ih => simp [mapOpt, parseSign_signText, ih]

/-! ### C04 -/

/-- The pairings are additive and homogeneous in both arguments. -/
structure Bilinear [Module R V] (P : Kind → Bool → V → V → R) : Prop where
  add_left : ∀ k b x y z, P k b (x + y) z = P k b x z + P k b y z
  smul_left : ∀ k b (c : R) x z, P k b (c • x) z = c * P k b x z
  add_right : ∀ k b x y z, P k b x (y + z) = P k b x y + P k b x z
  smul_right : ∀ k b (c : R) x z, P k b x (c • z) = c * P k b x z

/-- The signed and weighted sum of forms. -/
def weighted [Module R V] (I : Interp V) (l : List (Sign × Form × R)) : V :=
  (l.map fun p => p.1.act p.2.2 • p.2.1.eval I).sum

theorem mkTerm_eq_some {S : Spaces} {k : Kind} {f0 f1 : Form} {c : R} {t : Term R} :
    mkTerm S k f0 f1 c = some t ↔ S.ok k f0 f1 = true ∧ t = ⟨k, c, f0, f1, false⟩ := by
  unfold mkTerm
  by_cases h : S.ok k f0 f1 = true
  · rw [if_pos h]; simp [h, eq_comm]
  · rw [if_neg h]; simp [h]

theorem zero_left [Module R V] {P : Kind → Bool → V → V → R} (hP : Bilinear P) (k : Kind) (b : Bool)
    (z : V) : P k b 0 z = 0 := by
  have := hP.smul_left k b 0 0 z
  simpa using this

theorem zero_right [Module R V] {P : Kind → Bool → V → V → R} (hP : Bilinear P) (k : Kind) (b : Bool)
    (z : V) : P k b z 0 = 0 := by
  have := hP.smul_right k b 0 z 0
  simpa using this

theorem weighted_pair [Module R V] (I : Interp V) {P : Kind → Bool → V → V → R} (hP : Bilinear P)
    (S : Spaces) (k : Kind) (onF0 : Bool) (g0 g1 : Form) (into : List Form) (fs : List R)
    (ss : List Sign) (ts : List (Term R)) (h1 : into.length = ss.length) (h2 : ss.length = fs.length)
    (h : List.Forall₂ (fun (p : Form × R) t =>
      (if onF0 then mkTerm S k p.1 g1 p.2 else mkTerm S k g0 p.1 p.2) = some t) (into.zip fs) ts) :
    signedSum (Term.val I P) (ss.zip ts) =
      if onF0 then P k false (weighted I (ss.zip (into.zip fs))) (g1.eval I)
      else P k false (g0.eval I) (weighted I (ss.zip (into.zip fs))) := by
  induction ss generalizing into fs ts with
  | nil => cases onF0 <;> simp [weighted, zero_left hP, zero_right hP]
  | cons s ss ih =>
    cases into with
    | nil => simp at h1
    | cons f into =>
      cases fs with
      | nil => simp at h2
      | cons c fs =>
        rw [List.zip_cons_cons] at h
        cases h with
        | cons ht hts =>
          rename_i t ts
          have ih' := ih into fs ts (by simpa using h1) (by simpa using h2) hts
          rw [List.zip_cons_cons, signedSum_cons, ih', List.zip_cons_cons, List.zip_cons_cons]
          cases onF0
          · simp only [Bool.false_eq_true, if_false, mkTerm_eq_some] at ht ⊢
            obtain ⟨_, rfl⟩ := ht
            simp only [weighted, List.map_cons, List.sum_cons, hP.add_right, hP.smul_right, Term.val]
            rw [Sign.act_mul_right]
          · simp only [if_true, mkTerm_eq_some] at ht ⊢
            obtain ⟨_, rfl⟩ := ht
            simp only [weighted, List.map_cons, List.sum_cons, hP.add_left, hP.smul_left, Term.val]
            rw [Sign.act_mul_right]

/-- The terms made by `split`: their total value, multiplied by the factor of the split term, is
the value of the split term, if the split form is the signed and weighted sum of the parts. -/
theorem split_value [Module R V] (S : Spaces) (t : Term R) (onF0 : Bool) (into : List Form)
    (signs : List Str) (factors : Option (List R)) (ts : List (Term R)) (signs' : List Str)
    (h : splitTerm S t onF0 into signs factors = some (ts, signs')) :
    signs' = signs ∧ ts.length = into.length ∧ ∃ ss, mapOpt parseSign signs = some ss ∧
      ∀ (I : Interp V) (P : Kind → Bool → V → V → R), Bilinear P →
        (if onF0 then t.f0 else t.f1).eval I =
          weighted I (ss.zip (into.zip (factors.getD (into.map fun _ => 1)))) →
        t.factor * signedSum (Term.val I P) (ss.zip ts) = t.val I P := by
  unfold splitTerm at h
  simp only at h
  by_cases h1 : into.length < 1
  · rw [if_pos h1] at h; simp at h
  rw [if_neg h1] at h
  by_cases h2 : into.length ≠ signs.length
  · rw [if_pos h2] at h; simp at h
  rw [if_neg h2] at h
  by_cases h3 : signs.length ≠ (factors.getD (into.map fun _ => 1)).length
  · rw [if_pos h3] at h; simp at h
  rw [if_neg h3] at h
  by_cases h4 : t.restricted = true
  · rw [if_pos h4] at h; simp at h
  rw [if_neg h4] at h
  by_cases h5 : mapOpt parseSign signs = none
  · rw [if_pos h5] at h; simp at h
  rw [if_neg h5, Option.map_eq_some_iff] at h
  obtain ⟨ts', hts, he⟩ := h
  simp only [Prod.mk.injEq] at he
  obtain ⟨rfl, rfl⟩ := he
  obtain ⟨ss, hss⟩ := Option.ne_none_iff_exists'.1 h5
  rw [mapOpt_eq_some] at hts
  have hlen := hts.length_eq
  have hs := ((mapOpt_eq_some _ _ _).1 hss).length_eq
  push Not at h2 h3
  refine ⟨rfl, ?_, ss, hss, ?_⟩
  · rw [← hlen, List.length_zip]; omega
  · intro I P hP hsum
    rw [weighted_pair I hP S t.kind onF0 t.f0 t.f1 into _ ss ts' (by omega) (by omega) hts,
      Term.val]
    have h4' : t.restricted = false := by simpa using h4
    rw [h4']
    cases onF0
    · simp only [Bool.false_eq_true, if_false] at hsum ⊢; rw [hsum]
    · simp only [if_true] at hsum ⊢; rw [hsum]

/-- C04 for terms with factor 1: splitting leaves left minus right of every equation unchanged.
Missing: terms with another factor, for which the claim is false (`split_factor_refuted`). -/
theorem split_keeps_partial [Module R V] {F : Type} [DecidableEq F] (S : Spaces) (E : Env (Term R) F)
    (w w' : Wf (Term R) F) (i k : ℕ) (onF0 : Bool) (into : List Form) (signs : List Str)
    (factors : Option (List R)) (h : deriveSplit S E w i k onF0 into signs factors = some w')
    (I : Interp V) (P : Kind → Bool → V → V → R) (hP : Bilinear P)
    (hterm : ∀ e s t ss, w.eqs[i]? = some e → e.terms[k]? = some (s, t) →
      mapOpt parseSign signs = some ss →
      t.factor = 1 ∧ (if onF0 then t.f0 else t.f1).eval I =
        weighted I (ss.zip (into.zip (factors.getD (into.map fun _ => 1))))) :
    w'.eqs.map (fun e => e.diff (Term.val I P)) = w.eqs.map (fun e => e.diff (Term.val I P)) := by
  unfold deriveSplit at h
  simp only [Option.bind_eq_some_iff] at h
  obtain ⟨e, he, ⟨s, t⟩, ht, ⟨ts, signs'⟩, hsp, hr⟩ := h
  obtain ⟨rfl, _, ss, hss, hval⟩ := split_value (V := V) S t onF0 into signs factors ts signs' hsp
  refine rewrite_keeps E w w' i k ts signs' hr _ ?_
  intro ss' e' s' t' h1 h2 h3
  rw [he] at h2
  simp only [Option.some.injEq] at h2
  subst h2
  have ht' : e.terms[k]? = some (s, t) := ht
  rw [ht'] at h3
  simp only [Option.some.injEq, Prod.mk.injEq] at h3
  obtain ⟨rfl, rfl⟩ := h3
  rw [hss] at h1
  simp only [Option.some.injEq] at h1
  subst h1
  obtain ⟨hf, hsum⟩ := hterm e s t ss he ht' hss
  have := hval I P hP hsum
  rwa [hf, one_mul] at this

def fa : Form := .root ['a']
def fb : Form := .root ['b']
def fc : Form := .root ['c']
def fv : Form := .root ['v']

/-- Every pair of forms can be paired. -/
def exS : Spaces := ⟨fun _ _ _ => true, fun _ _ => true, false, fun _ => true, fun _ => true,
  fun _ => true, fun _ => 0⟩

def exTermEnv : Env (Term ℤ) ℕ := ⟨fun _ => [], fun l => decide (l ≠ [])⟩

/-- Values: `a = 7 = 10 - 3`, `b = 10`, `c = 3`, `v = 2`; everything is paired by
multiplication. -/
def exI : Interp ℤ := ⟨fun n => if n = ['a'] then 7 else if n = ['b'] then 10 else
  if n = ['c'] then 3 else 2, fun _ x => x, fun _ x y => x * y, fun _ x => x, fun x _ => x⟩

def exP : Kind → Bool → ℤ → ℤ → ℤ := fun _ _ x y => x * y

theorem exP_bilinear : Bilinear (R := ℤ) exP where
  add_left := by intro k b x y z; simp [exP]; ring
  smul_left := by intro k b c x z; simp [exP]; ring
  add_right := by intro k b x y z; simp [exP]; ring
  smul_right := by intro k b c x z; simp [exP]; ring

/-- `(a, v)` split into `(b, v) - 1 * (c, v)`: the hypotheses hold. -/
example : fa.eval exI = weighted exI [(.pos, fb, (1 : ℤ)), (.neg, fc, 1)] ∧
    deriveSplit exS exTermEnv ⟨[⟨[(.neg, ⟨.inner, 1, fa, fv, false⟩)], []⟩], none, 0⟩ 0 0 true [fb, fc]
      [['+'], ['-']] none =
    some ⟨[⟨[(.neg, ⟨.inner, 1, fb, fv, false⟩), (.pos, ⟨.inner, 1, fc, fv, false⟩)], []⟩],
      none, 0⟩ := by
  decide +kernel

/-- A term `2 (a, v)` split into `(b, v) - (c, v)` with `a = b - c`: the factor is lost. -/
theorem split_factor_refuted :
    ∃ (w w' : Wf (Term ℤ) ℕ), deriveSplit exS exTermEnv w 0 0 true [fb, fc] [['+'], ['-']] none =
      some w' ∧ fa.eval exI = weighted exI [(.pos, fb, (1 : ℤ)), (.neg, fc, 1)] ∧ Bilinear (R := ℤ) exP ∧
      w.eqs = [⟨[(.pos, ⟨.inner, 2, fa, fv, false⟩)], []⟩] ∧
      w'.eqs.map (fun e => e.diff (Term.val exI exP)) ≠
        w.eqs.map (fun e => e.diff (Term.val exI exP)) := by
  refine ⟨⟨[⟨[(.pos, ⟨.inner, 2, fa, fv, false⟩)], []⟩], none, 0⟩,
    ⟨[⟨[(.pos, ⟨.inner, 1, fb, fv, false⟩), (.neg, ⟨.inner, 1, fc, fv, false⟩)], []⟩], none, 0⟩,
    by decide +kernel, by decide +kernel, exP_bilinear, rfl, by decide +kernel⟩

/-! ### C05 -/

/-- The triple product `P(A, B x C)` is invariant under cyclic permutation, changes sign when the
last two factors are exchanged, and the cross product may be on either side of the pairing. -/
structure Triple (I : Interp V) (P : Kind → Bool → V → V → R) (k : Kind) : Prop where
  cyclic : ∀ a b c, P k false b (I.bin .cross_product c a) = P k false a (I.bin .cross_product b c)
  swap : ∀ a b c, P k false a (I.bin .cross_product c b) = -P k false a (I.bin .cross_product b c)
  side : ∀ a b c, P k false (I.bin .cross_product b c) a = P k false a (I.bin .cross_product b c)

/-- The value of the factor in a slot. -/
def pickV (a b c : V) : Slot → V
  | .A => a
  | .B => b
  | .C => c

theorem triple_table {I : Interp V} {P : Kind → Bool → V → V → R} {k : Kind} (h : Triple I P k)
    (a b c : V) (x y z : Slot) (s : Sign) (hs : tableSign x y z = some s) :
    s.act (P k false (pickV a b c x) (I.bin .cross_product (pickV a b c y) (pickV a b c z))) =
      P k false a (I.bin .cross_product b c) := by
  cases x <;> cases y <;> cases z <;> simp only [tableSign, Option.some.injEq, reduceCtorEq] at hs <;>
    subst hs <;> simp only [pickV, Sign.act]
  · rw [h.swap a b c]; ring
  · rw [h.swap b c a, h.cyclic a b c]; ring
  · exact h.cyclic a b c
  · rw [h.cyclic b c a, h.cyclic a b c]
  · rw [h.swap c a b, h.cyclic b c a, h.cyclic a b c]; ring

theorem eval_pick (I : Interp V) (A B C : Form) (x : Slot) :
    (pick A B C x).eval I = pickV (A.eval I) (B.eval I) (C.eval I) x := by
  cases x <;> rfl

/-- C05, one term. If the rewrite is accepted for an unrestricted term of registered plain forms,
the new term with its sign has the value of the old term, for every alternating triple product; kind and factor are
kept. -/
theorem commute_value_partial (S : Spaces) (G : Registry) (hG : ∀ f ∈ G, Ok f) (t t' : Term R)
    (h0 : Ok t.f0) (h1 : Ok t.f1) (hu : t.restricted = false) (cur tgt : Str) (s : Sign)
    (h : commute S G t cur tgt = some (t', s)) :
    t'.kind = t.kind ∧ t'.factor = t.factor ∧
    ∀ (I : Interp V) (P : Kind → Bool → V → V → R), Triple I P t.kind →
      s.act (t'.val I P) = t.val I P := by
  unfold commute at h
  simp only [Option.bind_eq_some_iff, Option.map_eq_some_iff] at h
  obtain ⟨⟨cl, c1, c2, c3⟩, hcf, ⟨tl, t1, t2, t3⟩, htf, x, hx, y, hy, z, hz, s', hs, ⟨B, C⟩, hBC, t'',
    ht, he⟩ := h
  simp only [Prod.mk.injEq] at he
  obtain ⟨rfl, rfl⟩ := he
  simp only at ht hBC
  have hok : Ok (if cl = true then t.f1 else t.f0) := by cases cl <;> simp [h0, h1]
  obtain ⟨_, _, hval⟩ := (LinRepr.split_cross_partial G hG _ hok).1 B C hBC
  have hkind : t''.kind = t.kind ∧ t''.factor = t.factor ∧ t''.restricted = false := by
    cases tl
    · simp only [Bool.false_eq_true, if_false, mkTerm_eq_some] at ht
      obtain ⟨_, rfl⟩ := ht
      exact ⟨rfl, rfl, rfl⟩
    · simp only [if_true, mkTerm_eq_some] at ht
      obtain ⟨_, rfl⟩ := ht
      exact ⟨rfl, rfl, rfl⟩
  refine ⟨hkind.1, hkind.2.1, ?_⟩
  intro I P hP
  have hbc := hval I
  have key := triple_table hP ((if cl = true then t.f0 else t.f1).eval I) (B.eval I) (C.eval I)
    x y z s' hs
  have hold : t.val I P = t.factor * P t.kind false ((if cl = true then t.f0 else t.f1).eval I)
      (I.bin .cross_product (B.eval I) (C.eval I)) := by
    rw [Term.val, hu]
    cases cl
    · simp only [Bool.false_eq_true, if_false] at hbc ⊢
      rw [← hbc, hP.side]
    · simp only [if_true] at hbc ⊢
      rw [hbc]
  have hnew : t''.val I P = t.factor * P t.kind false
      (pickV ((if cl = true then t.f0 else t.f1).eval I) (B.eval I) (C.eval I) x)
      (I.bin .cross_product
        (pickV ((if cl = true then t.f0 else t.f1).eval I) (B.eval I) (C.eval I) y)
        (pickV ((if cl = true then t.f0 else t.f1).eval I) (B.eval I) (C.eval I) z)) := by
    cases tl
    · simp only [Bool.false_eq_true, if_false, mkTerm_eq_some] at ht
      obtain ⟨_, rfl⟩ := ht
      simp only [Term.val, Form.eval, eval_pick]
      rw [hP.side]
    · simp only [if_true, mkTerm_eq_some] at ht
      obtain ⟨_, rfl⟩ := ht
      simp only [Term.val, Form.eval, eval_pick]
  rw [hold, hnew, Sign.act_mul_left, key]

/-- The text of a format with the single factor first, or last. -/
def formatText (k : Kind) (first : Bool) (a b c : Char) : Str :=
  if first then [(delims k).1, a, (delims k).2.1, b, 'x', c, (delims k).2.2]
  else [(delims k).1, b, 'x', c, (delims k).2.1, a, (delims k).2.2]

/-- Characters that can name a factor. -/
def nameChar (k : Kind) (c : Char) : Prop :=
  c ≠ ' ' ∧ c ≠ 'x' ∧ c ≠ 'X' ∧ c ≠ (delims k).1 ∧ c ≠ (delims k).2.1 ∧ c ≠ (delims k).2.2

theorem parseFormat_text (k : Kind) (first : Bool) (a b c : Char) (ha : nameChar k a)
    (hb : nameChar k b) (hc : nameChar k c) (hab : a ≠ b) (hac : a ≠ c) :
    parseFormat k (formatText k first a b c) = some (first, a, b, c) := by
  obtain ⟨a1, a2, a3, a4, a5, a6⟩ := ha
  obtain ⟨b1, b2, b3, b4, b5, b6⟩ := hb
  obtain ⟨c1, c2, c3, c4, c5, c6⟩ := hc
  have a3' := Ne.symm a3
  have b3' := Ne.symm b3
  have c3' := Ne.symm c3
  cases k <;> cases first <;> simp only [delims] at a4 a5 a6 b4 b5 b6 c4 c5 c6 <;>
    simp [parseFormat, formatText, delims, removeSpaces, split, List.count_cons, Expr.consHead, *]

theorem slot_inj {a b c n m : Char} {q : Slot} (h1 : slot (a, b, c) n = some q)
    (h2 : slot (a, b, c) m = some q) : n = m := by
  unfold slot at h1 h2
  simp only at h1 h2
  cases q
  · split_ifs at h1 h2 <;> simp_all
  · split_ifs at h1 h2 <;> simp_all
  · split_ifs at h1 h2 <;> simp_all

theorem tableSign_distinct {x y z : Slot} (h1 : x ≠ y) (h2 : x ≠ z) (h3 : y ≠ z) :
    ∃ s, tableSign x y z = some s := by
  cases x <;> cases y <;> cases z <;> first | exact ⟨_, rfl⟩ | contradiction

/-- C05, the requested order. Formats written with three distinct names are accepted, in both
layouts and for both kinds; if the two cross product factors `B`, `C` are found, the names stand
for `A`, `B`, `C` in the current format and the new term has the forms in the places of the target
format. -/
theorem commute_requested (S : Spaces) (G : Registry) (t : Term R) (cl tl : Bool)
    (a b c x y z : Char)
    (hn : ∀ n ∈ [a, b, c], nameChar t.kind n) (hab : a ≠ b) (hac : a ≠ c) (hbc : b ≠ c)
    (hxyz : [x, y, z].Perm [a, b, c]) (B C : Form)
    (hf : LinRepr.splitCross G (if cl then t.f1 else t.f0).lin = some (B, C)) :
    ∃ (σ : Char → Form) (s : Sign),
      σ a = (if cl then t.f0 else t.f1) ∧ σ b = B ∧ σ c = C ∧
      commute S G t (formatText t.kind cl a b c) (formatText t.kind tl x y z) =
        (if tl then mkTerm S t.kind (σ x) (.bin .cross_product (σ y) (σ z)) t.factor
          else mkTerm S t.kind (.bin .cross_product (σ y) (σ z)) (σ x) t.factor).map
            fun t' => (t', s) := by
  have hx : x ∈ [a, b, c] := hxyz.mem_iff.1 (by simp)
  have hy : y ∈ [a, b, c] := hxyz.mem_iff.1 (by simp)
  have hz : z ∈ [a, b, c] := hxyz.mem_iff.1 (by simp)
  have hnd : [x, y, z].Nodup := hxyz.nodup_iff.2 (by simp [hab, hac, hbc])
  simp only [List.nodup_cons, List.mem_cons, List.not_mem_nil, or_false, not_or,
    not_false_eq_true, List.nodup_nil, and_true] at hnd
  obtain ⟨⟨hxy, hxz⟩, hyz⟩ := hnd
  let A := if cl then t.f0 else t.f1
  let σ : Char → Form := fun n => if n = c then C else if n = b then B else A
  have hslot : ∀ n ∈ [a, b, c], ∃ q, slot (a, b, c) n = some q ∧ pick A B C q = σ n := by
    intro n hn
    simp only [List.mem_cons, List.not_mem_nil, or_false] at hn
    rcases hn with rfl | rfl | rfl
    · exact ⟨.A, by simp [slot, hab, hac], by simp [pick, σ, hab, hac]⟩
    · exact ⟨.B, by simp [slot, hbc], by simp [pick, σ, hbc]⟩
    · exact ⟨.C, by simp [slot], by simp [pick, σ]⟩
  obtain ⟨qx, hqx, hpx⟩ := hslot x hx
  obtain ⟨qy, hqy, hpy⟩ := hslot y hy
  obtain ⟨qz, hqz, hpz⟩ := hslot z hz
  have hinj : ∀ n m q, n ∈ [a, b, c] → m ∈ [a, b, c] → slot (a, b, c) n = some q →
      slot (a, b, c) m = some q → n = m := by
    intro n m q _ _ h1 h2
    exact slot_inj h1 h2
  have hsign : ∃ s, tableSign qx qy qz = some s := by
    have e1 : qx ≠ qy := by rintro rfl; exact hxy (hinj x y qx hx hy hqx hqy)
    have e2 : qx ≠ qz := by rintro rfl; exact hxz (hinj x z qx hx hz hqx hqz)
    have e3 : qy ≠ qz := by rintro rfl; exact hyz (hinj y z qy hy hz hqy hqz)
    exact tableSign_distinct e1 e2 e3
  obtain ⟨s, hs⟩ := hsign
  refine ⟨σ, s, by simp [σ, hab, hac, A], by simp [σ, hbc], by simp [σ], ?_⟩
  unfold commute
  rw [parseFormat_text t.kind cl a b c (hn a (by simp)) (hn b (by simp)) (hn c (by simp)) hab hac,
    Option.bind_some,
    parseFormat_text t.kind tl x y z (hn x hx) (hn y hy) (hn z hz) hxy hxz, Option.bind_some]
  simp only [hqx, hqy, hqz, Option.bind_some, hs, hf]
  have hA : (if cl = true then t.f0 else t.f1) = A := rfl
  rw [hA, hpx, hpy, hpz]

/-- C05 for the equations. -/
theorem commute_keeps_partial {F : Type} [DecidableEq F] (S : Spaces) (G : Registry)
    (hG : ∀ f ∈ G, Ok f) (E : Env (Term R) F) (w w' : Wf (Term R) F) (i k : ℕ) (cur tgt : Str)
    (h : deriveCommute S G E w i k cur tgt = some w') (I : Interp V)
    (P : Kind → Bool → V → V → R)
    (hterm : ∀ e s t, w.eqs[i]? = some e → e.terms[k]? = some (s, t) →
      Ok t.f0 ∧ Ok t.f1 ∧ t.restricted = false ∧ Triple I P t.kind) :
    w'.eqs.map (fun e => e.diff (Term.val I P)) = w.eqs.map (fun e => e.diff (Term.val I P)) := by
  unfold deriveCommute at h
  simp only [Option.bind_eq_some_iff] at h
  obtain ⟨e, he, ⟨s, t⟩, ht, ⟨t', s'⟩, hc, hr⟩ := h
  refine rewrite_keeps E w w' i k _ _ hr _ ?_
  intro ss e' s2 t2 h1 h2 h3
  rw [he] at h2
  simp only [Option.some.injEq] at h2
  subst h2
  have ht' : e.terms[k]? = some (s, t) := ht
  rw [ht'] at h3
  simp only [Option.some.injEq, Prod.mk.injEq] at h3
  obtain ⟨rfl, rfl⟩ := h3
  have := mapOpt_signText [(t', s')]
  simp only [List.map_cons, List.map_nil] at this
  simp only at h1
  rw [this] at h1
  simp only [Option.some.injEq] at h1
  subst h1
  obtain ⟨a1, a2, a3, a4⟩ := hterm e s t he ht'
  obtain ⟨_, _, hval⟩ := commute_value_partial (V := V) S G hG t t' a1 a2 a3 cur tgt s' hc
  have := hval I P a4
  simpa using this

/-- The cross product of `ℤ × ℤ × ℤ` and the scalar product. -/
def exI3 : Interp (ℤ × ℤ × ℤ) := ⟨fun n => if n = ['a'] then (1, 2, 3) else if n = ['b'] then (0, 1, 5)
    else if n = ['c'] then (2, 2, 1) else (1, 0, 0), fun _ x => x,
  fun _ x y => (x.2.1 * y.2.2 - x.2.2 * y.2.1, x.2.2 * y.1 - x.1 * y.2.2, x.1 * y.2.1 - x.2.1 * y.1),
  fun _ x => x, fun x _ => x⟩

def exP3 : Kind → Bool → ℤ × ℤ × ℤ → ℤ × ℤ × ℤ → ℤ := fun _ r x y =>
  if r then 0 else x.1 * y.1 + x.2.1 * y.2.1 + x.2.2 * y.2.2

theorem exTriple (k : Kind) : Triple exI3 exP3 k where
  cyclic := by intro a b c; simp only [exP3, exI3]; simp; ring
  swap := by intro a b c; simp only [exP3, exI3]; simp; ring
  side := by intro a b c; simp only [exP3, exI3]; simp; ring

def exG3 : Registry := [fa, fb, fc, .bin .cross_product fb fc]

example : (∀ f ∈ exG3, Ok f) ∧
    commute exS exG3 (⟨.inner, 3, fa, .bin .cross_product fb fc, false⟩ : Term ℤ)
      ['(', 'u', ',', 'v', ' ', 'x', ' ', 'w', ')'] ['(', 'u', 'x', 'v', ',', 'w', ')'] =
      some (⟨.inner, 3, .bin .cross_product fa fb, fc, false⟩, .pos) ∧
    commute exS exG3 (⟨.duality, 3, fa, .bin .cross_product fb fc, false⟩ : Term ℤ)
      ['<', 'u', '|', 'v', 'x', 'w', '>'] ['<', 'v', '|', 'u', 'x', 'w', '>'] =
      some (⟨.duality, 3, fb, .bin .cross_product fa fc, false⟩, .neg) ∧
    commute exS exG3 (⟨.inner, 3, fa, .bin .cross_product fb fc, false⟩ : Term ℤ)
      ['(', 'u', ',', 'v', 'x', 'w', ')'] ['(', 'v', ',', 'v', 'x', 'w', ')'] = none := by
  refine ⟨?_, by decide +kernel, by decide +kernel, by decide +kernel⟩
  intro f hf
  simp only [exG3, fa, fb, fc, List.mem_cons, List.not_mem_nil, or_false] at hf
  rcases hf with rfl | rfl | rfl | rfl <;>
    simp [Ok, Form.wf, Form.plain, Form.noGroupedMinus, LinRepr.validName, Bin.hasSpace]

/-- A duality pairing restricted to a part of the manifold loses the restriction. -/
theorem commute_restricted_refuted :
    ∃ (t t' : Term ℤ) (s : Sign), t.restricted = true ∧ Triple exI3 exP3 t.kind ∧
      commute exS exG3 t ['<', 'u', '|', 'v', 'x', 'w', '>'] ['<', 'v', '|', 'w', 'x', 'u', '>'] =
        some (t', s) ∧ s.act (t'.val exI3 exP3) ≠ t.val exI3 exP3 := by
  refine ⟨⟨.duality, 1, fa, .bin .cross_product fb fc, true⟩,
    ⟨.duality, 1, fb, .bin .cross_product fc fa, false⟩, .pos, rfl, exTriple _, by decide +kernel,
    by decide +kernel⟩

/-! ### C06 -/

/-- The Green identity `(d* a, v) = (a, d v) - <tr (star a) | tr v>`. -/
def Green (I : Interp V) (P : Kind → Bool → V → V → R) : Prop :=
  ∀ a v, P .inner false (I.un .codifferential a) v =
    P .inner false a (I.un .d v) - P .duality false (I.un .trace (I.un .hodge a)) (I.un .trace v)

/-- The Green identity without boundary. -/
def GreenPeriodic (I : Interp V) (P : Kind → Bool → V → V → R) : Prop :=
  ∀ a v, P .inner false (I.un .codifferential a) v = P .inner false a (I.un .d v)

/-- `(A . grad b, c) = - (b A, grad c)`: what is used when boundary terms are dropped on request. -/
def GreenConvect (S : Spaces) (I : Interp V) (P : Kind → Bool → V → V → R) : Prop :=
  ∀ (k : Kind) (A B C : Form),
    P .inner false (I.bin .convect (A.eval I) (B.eval I)) (C.eval I) =
      -P k false (I.bin (.multi (S.spaceOf A)) (B.eval I) (A.eval I)) (I.un .d (C.eval I))

theorem splitConvect_sound (G : Registry) (f A B : Form) (h : splitConvect G f = some (A, B)) :
    A ∈ G ∧ B ∈ G ∧ (Form.bin .convect A B).lin = f.lin := by
  unfold splitConvect at h
  obtain ⟨A', hA', h⟩ := List.exists_of_findSome?_eq_some h
  by_cases hr : A'.isRoot = true
  · rw [if_pos hr, Option.map_eq_some_iff] at h
    obtain ⟨B', hB', he⟩ := h
    simp only [Prod.mk.injEq] at he
    obtain ⟨rfl, rfl⟩ := he
    have h2 := List.find?_some hB'
    simp only [Bool.and_eq_true, decide_eq_true_eq] at h2
    exact ⟨hA', List.mem_of_find?_eq_some hB', h2.2⟩
  · rw [if_neg hr] at h; simp at h

/-- C06, the terms made by integration by parts of `c * (d* a, v)`: `c * (a, d v)` and, unless the
manifold is periodic or dropping was requested, `- c * <tr (star a) | tr v>`, where the codifferential
of `a` has the value of the first form of the term. -/
theorem int_by_parts_terms_partial (S : Spaces) (G : Registry) (hG : ∀ f ∈ G, Ok f) (t : Term R)
    (h0 : Ok t.f0) (hcd : Op.codifferential.chars.isPrefixOf t.f0.lin = true) (drop : Bool)
    (l : List (Term R × Sign)) (h : intByParts S G t drop = some l) :
    t.kind = .inner ∧ ∃ a ∈ G,
      (∀ {V : Type} [AddCommGroup V] (I : Interp V), I.un .codifferential (a.eval I) = t.f0.eval I) ∧
      l = (⟨.inner, t.factor, a, .un .d t.f1, false⟩, .pos) ::
        if S.periodic = true ∨ drop = true then []
        else [(⟨.duality, t.factor, .un .trace (.un .hodge a), .un .trace t.f1, false⟩, .neg)] := by
  unfold intByParts at h
  by_cases hk : t.kind ≠ .inner
  · rw [if_pos hk] at h; simp at h
  rw [if_neg hk, if_pos hcd] at h
  simp only [Option.bind_eq_some_iff, mkTerm_eq_some] at h
  obtain ⟨a, ha, tm, ⟨_, rfl⟩, h⟩ := h
  have hG' : ∀ f ∈ G.filter (fun f => S.defined .codifferential f), Ok f :=
    fun f hf => hG f (List.mem_of_mem_filter hf)
  obtain ⟨hm, hv⟩ := (LinRepr.find_upon_partial _ hG' .codifferential rfl t.f0 h0).1 a ha
  refine ⟨not_not.1 hk, a, List.mem_of_mem_filter hm, hv, ?_⟩
  by_cases hp : S.periodic = true ∨ drop = true
  · rw [if_pos hp] at h ⊢
    simpa using h.symm
  · rw [if_neg hp] at h ⊢
    simp only [Option.map_eq_some_iff, mkTerm_eq_some] at h
    obtain ⟨tb, ⟨_, rfl⟩, rfl⟩ := h
    rfl

/-- Left minus right after integration by parts of the codifferential is unchanged: with the Green
identity if the boundary term is kept, and with the Green identity without boundary if the
manifold is periodic. -/
theorem int_by_parts_keeps_partial {F : Type} [DecidableEq F] (S : Spaces) (G : Registry)
    (hG : ∀ f ∈ G, Ok f) (E : Env (Term R) F) (w w' : Wf (Term R) F) (i k : ℕ) (drop : Bool)
    (h : deriveIntByParts S G E w i k drop = some w') (I : Interp V)
    (P : Kind → Bool → V → V → R)
    (hterm : ∀ e s t, w.eqs[i]? = some e → e.terms[k]? = some (s, t) → Ok t.f0 ∧
      t.restricted = false ∧ Op.codifferential.chars.isPrefixOf t.f0.lin = true)
    (hgreen : (S.periodic = true ∧ GreenPeriodic I P) ∨
      (S.periodic = false ∧ drop = false ∧ Green I P)) :
    w'.eqs.map (fun e => e.diff (Term.val I P)) = w.eqs.map (fun e => e.diff (Term.val I P)) := by
  unfold deriveIntByParts at h
  simp only [Option.bind_eq_some_iff] at h
  obtain ⟨e, he, ⟨s, t⟩, ht, l, hc, hr⟩ := h
  refine rewrite_keeps E w w' i k _ _ hr _ ?_
  intro ss e' s2 t2 h1 h2 h3
  rw [he] at h2
  simp only [Option.some.injEq] at h2
  subst h2
  have ht' : e.terms[k]? = some (s, t) := ht
  rw [ht'] at h3
  simp only [Option.some.injEq, Prod.mk.injEq] at h3
  obtain ⟨rfl, rfl⟩ := h3
  rw [mapOpt_signText] at h1
  simp only [Option.some.injEq] at h1
  subst h1
  obtain ⟨a1, a2, a3⟩ := hterm e s t he ht'
  obtain ⟨hk, a, _, hv, hl⟩ := int_by_parts_terms_partial S G hG t a1 a3 drop l hc
  subst hl
  have hva := hv I
  rcases hgreen with ⟨hp, hg⟩ | ⟨hp, hd, hg⟩
  · simp only [hp, true_or, if_true, List.map_cons, List.map_nil, List.zip_cons_cons,
      List.zip_nil_right, signedSum_cons, signedSum_nil, Sign.act, Term.val, Form.eval, add_zero]
    rw [hk, a2, ← hva, hg]
  · simp only [hp, hd, Bool.false_eq_true, or_self, if_false, List.map_cons, List.map_nil,
      List.zip_cons_cons, List.zip_nil_right, signedSum_cons, signedSum_nil, Sign.act, Term.val,
      Form.eval, add_zero]
    rw [hk, a2, ← hva, hg]
    ring

/-- What is dropped on request: the value changes by exactly the boundary pairing. -/
theorem int_by_parts_drop_partial (S : Spaces) (G : Registry) (hG : ∀ f ∈ G, Ok f) (t : Term R)
    (h0 : Ok t.f0) (hu : t.restricted = false)
    (hcd : Op.codifferential.chars.isPrefixOf t.f0.lin = true)
    (l : List (Term R × Sign)) (h : intByParts S G t true = some l) :
    ∃ (t' : Term R) (a : Form), l = [(t', .pos)] ∧
      ∀ (I : Interp V) (P : Kind → Bool → V → V → R), Green I P →
        I.un .codifferential (a.eval I) = t.f0.eval I ∧
        t'.val I P = t.val I P + t.factor *
          P .duality false (I.un .trace (I.un .hodge (a.eval I))) (I.un .trace (t.f1.eval I)) := by
  obtain ⟨hk, a, _, hv, hl⟩ := int_by_parts_terms_partial S G hG t h0 hcd true l h
  refine ⟨_, a, by simpa using hl, ?_⟩
  intro I P hg
  refine ⟨hv I, ?_⟩
  simp only [Term.val, Form.eval]
  rw [hk, hu, ← hv I, hg]
  ring

/-- C06 for the pattern `(A . grad b, c)`: with the identity that is used when the boundary term is
dropped, the value is kept; it is only rewritten when dropping is requested. -/
theorem int_by_parts_convect_partial (S : Spaces) (G : Registry) (hG : ∀ f ∈ G, Ok f) (t : Term R)
    (h0 : Ok t.f0) (hu : t.restricted = false)
    (hcd : Op.codifferential.chars.isPrefixOf t.f0.lin = false) (drop : Bool)
    (l : List (Term R × Sign)) (h : intByParts S G t drop = some l) :
    drop = true ∧ ∃ (t' : Term R), l = [(t', .neg)] ∧ t'.factor = t.factor ∧
      ∀ (I : Interp V) (P : Kind → Bool → V → V → R), GreenConvect S I P →
        -(t'.val I P) = t.val I P := by
  unfold intByParts at h
  by_cases hk : t.kind ≠ .inner
  · rw [if_pos hk] at h; simp at h
  rw [if_neg hk, if_neg (by rw [hcd]; simp)] at h
  by_cases hr : t.f1.isRoot = true
  · rw [if_pos hr, Option.bind_eq_some_iff] at h
    obtain ⟨⟨A, B⟩, hp, h⟩ := h
    simp only at h
    by_cases hc : S.isVector A = true ∧ S.isScalar B = true ∧ S.isScalar t.f1 = true ∧ drop = true
    · rw [if_pos hc] at h
      simp only [Option.map_eq_some_iff, mkTerm_eq_some] at h
      obtain ⟨tn, ⟨_, rfl⟩, rfl⟩ := h
      refine ⟨hc.2.2.2, _, rfl, rfl, ?_⟩
      intro I P hg
      obtain ⟨hA, hB, hlin⟩ := splitConvect_sound G t.f0 A B hp
      have hv : (Form.bin .convect A B).eval I = t.f0.eval I := by
        obtain ⟨p1, p2, p3⟩ := hG A hA
        obtain ⟨q1, q2, q3⟩ := hG B hB
        obtain ⟨b1, b2, b3⟩ := h0
        exact LinRepr.same_text_same_value_partial (f := .bin .convect A B) ⟨p1, q1⟩ b1
          ⟨rfl, p2, q2⟩ b2 ⟨p3, q3⟩ b3 hlin I
      simp only [Term.val, Form.eval]
      rw [not_not.1 hk, hu, ← hv, Form.eval, hg
        (if S.innerOriented (.bin (.multi (S.spaceOf A)) B A) = S.innerOriented (.un .d t.f1)
          then Kind.inner else Kind.duality) A B t.f1]
      ring
    · rw [if_neg hc] at h; simp at h
  · rw [if_neg hr] at h; simp at h

/-- The definition of the duality pairing, `(star A, B) = <A|B>` and `(A, star B) = <A|B>`. -/
def Duality (I : Interp V) (P : Kind → Bool → V → V → R) : Prop :=
  (∀ a b, P .inner false (I.un .hodge a) b = P .duality false a b) ∧
  (∀ a b, P .inner false a (I.un .hodge b) = P .duality false a b)

/-- C06, the duality switch of one term. -/
theorem switch_duality_value_partial (S : Spaces) (G : Registry) (hG : ∀ f ∈ G, Ok f)
    (t t' : Term R) (h0 : Ok t.f0) (h1 : Ok t.f1) (hu : t.restricted = false) (s : Sign)
    (h : switchDuality S G t = some (t', s)) :
    s = .pos ∧ t'.kind = .duality ∧ t'.factor = t.factor ∧
    ∀ (I : Interp V) (P : Kind → Bool → V → V → R), Duality I P → t'.val I P = t.val I P := by
  unfold switchDuality at h
  by_cases hk : t.kind ≠ .inner
  · rw [if_pos hk] at h; simp at h
  rw [if_neg hk] at h
  by_cases ha : Op.hodge.chars.isPrefixOf t.f0.lin = true
  · rw [if_pos ha] at h
    simp only [Option.bind_eq_some_iff, Option.map_eq_some_iff, mkTerm_eq_some, Prod.mk.injEq] at h
    obtain ⟨a, hua, t2, ⟨_, rfl⟩, rfl, rfl⟩ := h
    refine ⟨rfl, rfl, rfl, ?_⟩
    intro I P hD
    have := ((LinRepr.under_hodge_partial G hG t.f0 h0).1 a hua).2 I
    simp only [Term.val]
    rw [not_not.1 hk, hu, ← this, hD.1]
  · rw [if_neg ha] at h
    by_cases hb : Op.hodge.chars.isPrefixOf t.f1.lin = true
    · rw [if_pos hb] at h
      simp only [Option.bind_eq_some_iff, Option.map_eq_some_iff, mkTerm_eq_some, Prod.mk.injEq] at h
      obtain ⟨a, hua, t2, ⟨_, rfl⟩, rfl, rfl⟩ := h
      refine ⟨rfl, rfl, rfl, ?_⟩
      intro I P hD
      have := ((LinRepr.under_hodge_partial G hG t.f1 h1).1 a hua).2 I
      simp only [Term.val]
      rw [not_not.1 hk, hu, ← this, hD.2]
    · rw [if_neg hb] at h; simp at h

/-- C06, the duality switch in the equations. -/
theorem switch_duality_keeps_partial {F : Type} [DecidableEq F] (S : Spaces) (G : Registry)
    (hG : ∀ f ∈ G, Ok f) (E : Env (Term R) F) (w w' : Wf (Term R) F) (i k : ℕ)
    (h : deriveSwitch S G E w i k = some w') (I : Interp V) (P : Kind → Bool → V → V → R)
    (hterm : ∀ e s t, w.eqs[i]? = some e → e.terms[k]? = some (s, t) →
      Ok t.f0 ∧ Ok t.f1 ∧ t.restricted = false) (hD : Duality I P) :
    w'.eqs.map (fun e => e.diff (Term.val I P)) = w.eqs.map (fun e => e.diff (Term.val I P)) := by
  unfold deriveSwitch at h
  simp only [Option.bind_eq_some_iff] at h
  obtain ⟨e, he, ⟨s, t⟩, ht, ⟨t', s'⟩, hc, hr⟩ := h
  refine rewrite_keeps E w w' i k _ _ hr _ ?_
  intro ss e' s2 t2 h1 h2 h3
  rw [he] at h2
  simp only [Option.some.injEq] at h2
  subst h2
  have ht' : e.terms[k]? = some (s, t) := ht
  rw [ht'] at h3
  simp only [Option.some.injEq, Prod.mk.injEq] at h3
  obtain ⟨rfl, rfl⟩ := h3
  have := mapOpt_signText [(t', s')]
  simp only [List.map_cons, List.map_nil] at this
  simp only at h1
  rw [this] at h1
  simp only [Option.some.injEq] at h1
  subst h1
  obtain ⟨a1, a2, a3⟩ := hterm e s t he ht'
  obtain ⟨rfl, _, _, hval⟩ := switch_duality_value_partial (V := V) S G hG t t' a1 a2 a3 s' hc
  have := hval I P hD
  simpa [Sign.act] using this

/-- `2 (d* a, v)` and `(star a, b)`. -/
def exG6 : Registry := [fa, fb, .un .codifferential fa, .un .hodge fa]

example : (∀ f ∈ exG6, Ok f) ∧
    intByParts exS exG6 (⟨.inner, 2, .un .codifferential fa, fv, false⟩ : Term ℤ) false =
      some [(⟨.inner, 2, fa, .un .d fv, false⟩, .pos),
        (⟨.duality, 2, .un .trace (.un .hodge fa), .un .trace fv, false⟩, .neg)] ∧
    switchDuality exS exG6 (⟨.inner, 2, .un .hodge fa, fb, false⟩ : Term ℤ) =
      some (⟨.duality, 2, fa, fb, false⟩, .pos) ∧
    switchDuality exS exG6 (⟨.inner, 2, fb, .un .hodge fa, false⟩ : Term ℤ) =
      some (⟨.duality, 2, fb, fa, false⟩, .pos) := by
  refine ⟨?_, by decide +kernel, by decide +kernel, by decide +kernel⟩
  intro f hf
  simp only [exG6, fa, fb, List.mem_cons, List.not_mem_nil, or_false] at hf
  rcases hf with rfl | rfl | rfl | rfl <;>
    simp [Ok, Form.wf, Form.plain, Form.noGroupedMinus, LinRepr.validName, Un.hasSpace]

end Phyem.WeakForm
