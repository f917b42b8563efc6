import Verif.LinRepr.Spec
import Mathlib.Data.List.Infix

/-! Texts as sequences of tokens that form a prefix code. -/

namespace Phyem.LinRepr

/-- Tokens of a text. -/
inductive Tok
  | form (n : Str)
  | scal (n : Str)
  | op (o : Op)
deriving DecidableEq, Repr

def Tok.chars : Tok → Str
  | form n => formText n
  | scal n => scalarText n
  | op o => o.chars

def Tok.wf : Tok → Prop
  | form n => validName n = true
  | scal n => validName n = true
  | op _ => True

def render (ts : List Tok) : Str := ts.flatMap Tok.chars

theorem render_append (a b : List Tok) : render (a ++ b) = render a ++ render b := by
  simp [render]

theorem render_cons (t : Tok) (b : List Tok) : render (t :: b) = t.chars ++ render b := rfl

def Scalar.tk : Scalar → List Tok
  | root n => [.scal n]
  | add a b => a.tk ++ .op .plus :: b.tk
  | div a b => a.tk ++ .op .division :: b.tk

def brk (isRoot : Bool) (s : List Tok) : List Tok :=
  if isRoot then s else .op .opn :: (s ++ [.op .cls])

def Form.tk : Form → List Tok
  | root n => [.form n]
  | un u f => .op u.op :: brk f.isRoot f.tk
  | bin b f g => brk f.isRoot f.tk ++ .op b.op :: brk g.isRoot g.tk
  | add f g => f.tk ++ .op .plus :: g.tk
  | sub f g => f.tk ++ .op .minus :: g.tk
  | smul c f =>
    if f.isRoot then c.tk ++ .op .multiply :: f.tk
    else if c.isRoot then c.tk ++ .op .multiply :: (.op .opn :: (f.tk ++ [.op .cls]))
    else (.op .opn :: (c.tk ++ [.op .cls])) ++ .op .multiply :: (.op .opn :: (f.tk ++ [.op .cls]))
  | sdiv f c => brk f.isRoot f.tk ++ .op .division :: c.tk

theorem Scalar.lin_eq (c : Scalar) : c.lin = render c.tk := by
  induction c with
  | root n => simp [Scalar.lin, Scalar.tk, render, Tok.chars]
  | add a b iha ihb => simp [Scalar.lin, Scalar.tk, render_append, render_cons, iha, ihb, Tok.chars]
  | div a b iha ihb => simp [Scalar.lin, Scalar.tk, render_append, render_cons, iha, ihb, Tok.chars]

theorem bracket_eq (r : Bool) (s : List Tok) : bracket r (render s) = render (brk r s) := by
  cases r <;> simp [bracket, brk, render_append, render_cons, Tok.chars, render]

theorem Form.lin_eq (f : Form) : f.lin = render f.tk := by
  induction f with
  | root n => simp [Form.lin, Form.tk, render, Tok.chars]
  | un u f ih => simp [Form.lin, Form.tk, render_cons, ih, bracket_eq, Tok.chars]
  | bin b f g ihf ihg =>
    simp [Form.lin, Form.tk, render_cons, render_append, ihf, ihg, bracket_eq, Tok.chars]
  | add f g ihf ihg => simp [Form.lin, Form.tk, render_cons, render_append, ihf, ihg, Tok.chars]
  | sub f g ihf ihg => simp [Form.lin, Form.tk, render_cons, render_append, ihf, ihg, Tok.chars]
  | smul c f ih =>
    simp only [Form.lin, Form.tk]
    split_ifs <;> simp [render_cons, render_append, ih, Scalar.lin_eq, Tok.chars, render]
  | sdiv f c ih =>
    simp [Form.lin, Form.tk, render_cons, render_append, ih, bracket_eq, Scalar.lin_eq, Tok.chars]

/-! ### The tokens are a prefix code -/

def Op.all : List Op := [.opn, .cls, .plus, .minus, .wedge, .hodge, .d, .codifferential,
  .timeDerivative, .trace, .division, .multiply, .cross_product, .Cross_Product, .CrossProduct,
  .crossProduct, .convect, .tensorProduct, .projection, .multi, .ln]

theorem Op.mem_all (o : Op) : o ∈ Op.all := by cases o <;> decide

theorem op_prefix : ∀ o ∈ Op.all, ∀ o' ∈ Op.all, o.chars.isPrefixOf o'.chars = true → o = o' := by
  decide +kernel

theorem op_suffix : ∀ o ∈ Op.all, ∀ w ∈ o.chars.tails, w ≠ [] →
    w.isPrefixOf ['\\', 't', 'e', 'x', 't', 's', 'f', '{'] = false ∧ ['\\', 't', 'e', 'x', 't', 's', 'f', '{'].isPrefixOf w = false := by
  decide +kernel

theorem op_suffix_c : ∀ o ∈ Op.all, ∀ w ∈ o.chars.tails, w ≠ [] →
    w.isPrefixOf ['\\', 't', 'e', 'x', 't', 's', 'c', '{'] = false ∧ ['\\', 't', 'e', 'x', 't', 's', 'c', '{'].isPrefixOf w = false := by
  decide +kernel

theorem op_ne_nil : ∀ o ∈ Op.all, o.chars ≠ [] := by decide +kernel

theorem prefix_cases {α : Type} {a b r s : List α} (h : a ++ r = b ++ s) :
    a <+: b ∨ b <+: a := by
  rcases List.append_eq_append_iff.1 h with ⟨x, h1, _⟩ | ⟨x, h1, _⟩
  · exact Or.inl ⟨x, h1.symm⟩
  · exact Or.inr ⟨x, h1.symm⟩

theorem op_chars_inj {o o' : Op} {r s : Str} (h : o.chars ++ r = o'.chars ++ s) : o = o' := by
  rcases prefix_cases h with h | h
  · exact op_prefix o o.mem_all o' o'.mem_all (List.isPrefixOf_iff_prefix.2 h)
  · exact (op_prefix o' o'.mem_all o o.mem_all (List.isPrefixOf_iff_prefix.2 h)).symm

theorem validName_close {n : Str} (h : validName n = true) : '}' ∉ n ∧ '\\' ∉ n := by
  simp only [validName, Bool.and_eq_true, List.all_eq_true] at h
  constructor
  · intro hm; have := h.2 _ hm; simp at this
  · intro hm; have := h.2 _ hm; simp at this

theorem name_inj {n m r s : Str} (hn : '}' ∉ n) (hm : '}' ∉ m)
    (h : n ++ '}' :: r = m ++ '}' :: s) : n = m ∧ r = s := by
  induction n generalizing m with
  | nil =>
    cases m with
    | nil => simpa using h
    | cons a m => simp at h; simp [← h.1] at hm
  | cons a n ih =>
    cases m with
    | nil => simp at h; simp [h.1] at hn
    | cons b m =>
      simp only [List.cons_append, List.cons.injEq] at h
      simp only [List.mem_cons, not_or] at hn hm
      obtain ⟨h1, h2⟩ := ih hn.2 hm.2 h.2
      exact ⟨by rw [h.1, h1], h2⟩

theorem op_not_T (o : Op) (r s n : Str) : o.chars ++ r ≠ formText n ++ s := by
  intro h
  have h' : o.chars ++ r = ['\\', 't', 'e', 'x', 't', 's', 'f', '{'] ++ (n ++ ['}'] ++ s) := by
    rw [h]; simp [formText]
  have := op_suffix o o.mem_all o.chars (by simp [List.mem_tails]) (op_ne_nil o o.mem_all)
  rcases prefix_cases h' with h | h
  · rw [List.isPrefixOf_iff_prefix.2 h] at this; simp at this
  · rw [List.isPrefixOf_iff_prefix.2 h] at this; simp at this

theorem op_not_C (o : Op) (r s n : Str) : o.chars ++ r ≠ scalarText n ++ s := by
  intro h
  have h' : o.chars ++ r = ['\\', 't', 'e', 'x', 't', 's', 'c', '{'] ++ (n ++ ['}'] ++ s) := by
    rw [h]; simp [scalarText]
  have := op_suffix_c o o.mem_all o.chars (by simp [List.mem_tails]) (op_ne_nil o o.mem_all)
  rcases prefix_cases h' with h | h
  · rw [List.isPrefixOf_iff_prefix.2 h] at this; simp at this
  · rw [List.isPrefixOf_iff_prefix.2 h] at this; simp at this

theorem T_not_C (r s n m : Str) : formText n ++ r ≠ scalarText m ++ s := by
  simp [formText, scalarText]

/-- Decoding one token is unambiguous. -/
theorem tok_inj {t t' : Tok} (ht : t.wf) (ht' : t'.wf) {r s : Str}
    (h : t.chars ++ r = t'.chars ++ s) : t = t' ∧ r = s := by
  have key : t = t' := by
    cases t with
    | form n =>
      cases t' with
      | form m =>
        simp only [Tok.chars, formText, List.append_assoc, List.append_cancel_left_eq] at h
        have := name_inj (validName_close ht).1 (validName_close ht').1 (by simpa using h)
        rw [this.1]
      | scal m => exact absurd h (T_not_C _ _ _ _)
      | op o => exact absurd h.symm (op_not_T _ _ _ _)
    | scal n =>
      cases t' with
      | form m => exact absurd h.symm (T_not_C _ _ _ _)
      | scal m =>
        simp only [Tok.chars, scalarText, List.append_assoc, List.append_cancel_left_eq] at h
        have := name_inj (validName_close ht).1 (validName_close ht').1 (by simpa using h)
        rw [this.1]
      | op o => exact absurd h.symm (op_not_C _ _ _ _)
    | op o =>
      cases t' with
      | form m => exact absurd h (op_not_T _ _ _ _)
      | scal m => exact absurd h (op_not_C _ _ _ _)
      | op o' => rw [op_chars_inj h]
  subst key
  exact ⟨rfl, List.append_cancel_left h⟩

theorem tok_chars_ne_nil (t : Tok) : t.chars ≠ [] := by
  cases t with
  | form n => simp [Tok.chars, formText]
  | scal n => simp [Tok.chars, scalarText]
  | op o => exact op_ne_nil o o.mem_all

theorem render_inj {a b : List Tok} (ha : ∀ t ∈ a, t.wf) (hb : ∀ t ∈ b, t.wf)
    (h : render a = render b) : a = b := by
  induction a generalizing b with
  | nil =>
    cases b with
    | nil => rfl
    | cons t b =>
      rw [render_cons] at h
      exact absurd (List.append_eq_nil_iff.1 h.symm).1 (tok_chars_ne_nil t)
  | cons t a ih =>
    cases b with
    | nil =>
      rw [render_cons] at h
      exact absurd (List.append_eq_nil_iff.1 h).1 (tok_chars_ne_nil t)
    | cons t' b =>
      rw [render_cons, render_cons] at h
      obtain ⟨h1, h2⟩ := tok_inj (ha t (by simp)) (hb t' (by simp)) h
      rw [h1, ih (fun x hx => ha x (by simp [hx])) (fun x hx => hb x (by simp [hx])) h2]

theorem Scalar.tk_wf (c : Scalar) (h : ∀ n ∈ c.names, validName n = true) : ∀ t ∈ c.tk, t.wf := by
  induction c with
  | root n => intro t ht; simp [Scalar.tk] at ht; subst ht; exact h n (by simp [Scalar.names])
  | add a b iha ihb =>
    intro t ht
    simp only [Scalar.tk, List.mem_append, List.mem_cons] at ht
    rcases ht with ht | rfl | ht
    · exact iha (fun n hn => h n (by simp [Scalar.names, hn])) t ht
    · trivial
    · exact ihb (fun n hn => h n (by simp [Scalar.names, hn])) t ht
  | div a b iha ihb =>
    intro t ht
    simp only [Scalar.tk, List.mem_append, List.mem_cons] at ht
    rcases ht with ht | rfl | ht
    · exact iha (fun n hn => h n (by simp [Scalar.names, hn])) t ht
    · trivial
    · exact ihb (fun n hn => h n (by simp [Scalar.names, hn])) t ht

theorem brk_wf (r : Bool) (s : List Tok) (h : ∀ t ∈ s, t.wf) : ∀ t ∈ brk r s, t.wf := by
  cases r with
  | true => simpa [brk] using h
  | false =>
    intro t ht
    simp only [brk, Bool.false_eq_true, if_false, List.mem_cons, List.mem_append,
      List.not_mem_nil, or_false] at ht
    rcases ht with rfl | ht | rfl
    · trivial
    · exact h t ht
    · trivial

theorem Form.tk_wf (f : Form) (h : f.wf) : ∀ t ∈ f.tk, t.wf := by
  induction f with
  | root n => intro t ht; simp [Form.tk] at ht; subst ht; exact h
  | un u f ih =>
    intro t ht
    simp only [Form.tk, List.mem_cons] at ht
    rcases ht with rfl | ht
    · trivial
    · exact brk_wf _ _ (ih h) t ht
  | bin b f g ihf ihg =>
    intro t ht
    simp only [Form.tk, List.mem_append, List.mem_cons] at ht
    rcases ht with ht | rfl | ht
    · exact brk_wf _ _ (ihf h.1) t ht
    · trivial
    · exact brk_wf _ _ (ihg h.2) t ht
  | add f g ihf ihg =>
    intro t ht
    simp only [Form.tk, List.mem_append, List.mem_cons] at ht
    rcases ht with ht | rfl | ht
    · exact ihf h.1 t ht
    · trivial
    · exact ihg h.2 t ht
  | sub f g ihf ihg =>
    intro t ht
    simp only [Form.tk, List.mem_append, List.mem_cons] at ht
    rcases ht with ht | rfl | ht
    · exact ihf h.1 t ht
    · trivial
    · exact ihg h.2 t ht
  | smul c f ih =>
    intro t ht
    have hc := c.tk_wf h.1
    have hf := ih h.2
    simp only [Form.tk] at ht
    split_ifs at ht
    · simp only [List.mem_append, List.mem_cons] at ht
      rcases ht with ht | rfl | ht
      · exact hc t ht
      · trivial
      · exact hf t ht
    · simp only [List.mem_append, List.mem_cons, List.not_mem_nil, or_false] at ht
      rcases ht with ht | rfl | rfl | ht | rfl
      · exact hc t ht
      · trivial
      · trivial
      · exact hf t ht
      · trivial
    · simp only [List.mem_append, List.mem_cons, List.not_mem_nil, or_false] at ht
      rcases ht with (rfl | ht | rfl) | rfl | rfl | ht | rfl
      · trivial
      · exact hc t ht
      · trivial
      · trivial
      · trivial
      · exact hf t ht
      · trivial
  | sdiv f c ih =>
    intro t ht
    simp only [Form.tk, List.mem_append, List.mem_cons] at ht
    rcases ht with ht | rfl | ht
    · exact brk_wf _ _ (ih h.1) t ht
    · trivial
    · exact c.tk_wf h.2 t ht

/-! ### Occurrences of a root form in a text -/

/-- `w` is a nonempty tail of a token; if the text of a root form starts there, `w` is the whole
token and the token is that root form. -/
theorem tail_match {t : Tok} (ht : t.wf) {w u : Str} (hw : t.chars = u ++ w) (hw0 : w ≠ [])
    {n r s : Str} (hn : validName n = true) (h : w ++ r = formText n ++ s) :
    u = [] ∧ t = .form n := by
  have hstart : ∀ c, w.head? = some c → c = '\\' := by
    intro c hc
    cases w with
    | nil => exact absurd rfl hw0
    | cons a w =>
      simp at hc; subst hc
      simp [formText] at h
      exact h.1
  cases t with
  | op o =>
    have hmem : w ∈ o.chars.tails := by
      rw [List.mem_tails]; exact ⟨u, hw.symm⟩
    have := op_suffix o o.mem_all w hmem hw0
    have h' : w ++ r = ['\\', 't', 'e', 'x', 't', 's', 'f', '{'] ++ (n ++ ['}'] ++ s) := by rw [h]; simp [formText]
    rcases prefix_cases h' with h | h
    · rw [List.isPrefixOf_iff_prefix.2 h] at this; simp at this
    · rw [List.isPrefixOf_iff_prefix.2 h] at this; simp at this
  | form m =>
    cases u with
    | nil =>
      simp only [List.nil_append] at hw
      refine ⟨rfl, ?_⟩
      rw [← hw] at h
      exact (tok_inj (t' := .form n) ht hn h).1
    | cons a u =>
      exfalso
      have : ∀ c ∈ w, c ≠ '\\' := by
        intro c hc
        have e : ['t', 'e', 'x', 't', 's', 'f', '{'] ++ m ++ ['}'] = u ++ w := by
          simp [Tok.chars, formText] at hw ⊢
          exact hw.2
        have : c ∈ u ++ w := by simp [hc]
        rw [← e] at this
        simp only [List.mem_append, List.mem_singleton] at this
        rintro rfl
        rcases this with (this | this) | this
        · revert this; decide
        · exact (validName_close ht).2 this
        · revert this; decide
      cases w with
      | nil => exact hw0 rfl
      | cons c w => exact this c (by simp) (hstart c rfl)
  | scal m =>
    exfalso
    cases u with
    | nil =>
      simp only [List.nil_append] at hw
      rw [← hw] at h
      exact T_not_C _ _ _ _ h.symm
    | cons a u =>
      have : ∀ c ∈ w, c ≠ '\\' := by
        intro c hc
        have e : ['t', 'e', 'x', 't', 's', 'c', '{'] ++ m ++ ['}'] = u ++ w := by
          simp [Tok.chars, scalarText] at hw ⊢
          exact hw.2
        have : c ∈ u ++ w := by simp [hc]
        rw [← e] at this
        simp only [List.mem_append, List.mem_singleton] at this
        rintro rfl
        rcases this with (this | this) | this
        · revert this; decide
        · exact (validName_close ht).2 this
        · revert this; decide
      cases w with
      | nil => exact hw0 rfl
      | cons c w => exact this c (by simp) (hstart c rfl)

/-- No root form text starts inside a token, or at a token that is not it. -/
theorem not_prefix_inside {t : Tok} (ht : t.wf) {u w : Str} (hw : t.chars = u ++ w) (hw0 : w ≠ [])
    {n : Str} (hn : validName n = true) (h : ¬ (u = [] ∧ t = .form n)) (r : Str) :
    (formText n).isPrefixOf (w ++ r) = false := by
  by_contra hc
  simp only [Bool.not_eq_false] at hc
  obtain ⟨s, hs⟩ := List.isPrefixOf_iff_prefix.1 hc
  exact h (tail_match ht hw hw0 hn hs.symm)

theorem isIn_skip {t : Tok} (ht : t.wf) {n : Str} (hn : validName n = true) (u w : Str)
    (hw : t.chars = u ++ w) (h : u = [] → t ≠ .form n) (r : Str) :
    isIn (formText n) (w ++ r) = isIn (formText n) r := by
  induction w generalizing u with
  | nil => rfl
  | cons c w ih =>
    have h1 := not_prefix_inside ht hw (by simp) hn (fun e => h e.1 e.2) r
    have h2 := ih (u ++ [c]) (by rw [hw]; simp) (by simp)
    rw [List.cons_append] at h1 ⊢
    rw [isIn, h1, h2]; rfl

theorem isIn_render {n : Str} (hn : validName n = true) (ts : List Tok) (hts : ∀ t ∈ ts, t.wf) :
    isIn (formText n) (render ts) = true ↔ Tok.form n ∈ ts := by
  induction ts with
  | nil => simp [render, isIn, formText]
  | cons t ts ih =>
    have ih' := ih (fun x hx => hts x (by simp [hx]))
    have ht := hts t (by simp)
    rw [render_cons]
    by_cases h : t = .form n
    · subst h
      have : (formText n).isPrefixOf (formText n ++ render ts) = true :=
        List.isPrefixOf_iff_prefix.2 ⟨_, rfl⟩
      have e : ∀ (c : Char) (s : Str), (formText n).isPrefixOf (c :: s) = true →
          isIn (formText n) (c :: s) = true := by
        intro c s h; rw [isIn, h]; rfl
      simp only [Tok.chars, List.mem_cons, true_or, iff_true]
      cases hc : formText n ++ render ts with
      | nil => simp [formText] at hc
      | cons c s => rw [hc] at this; exact e c s this
    · rw [isIn_skip ht hn [] t.chars rfl (fun _ => h), ih']
      have h' : Tok.form n ≠ t := fun e => h e.symm
      simp [h']

theorem replaceGo_drop (pat by' : Str) (k : ℕ) (s : Str) :
    replaceGo pat by' k s = replaceGo pat by' 0 (s.drop k) := by
  induction k generalizing s with
  | zero => simp
  | succ k ih =>
    cases s with
    | nil => simp [replaceGo]
    | cons c s => simp [replaceGo, ih s]

theorem replaceGo_skip {t : Tok} (ht : t.wf) {n : Str} (hn : validName n = true) (by' u w : Str)
    (hw : t.chars = u ++ w) (h : u = [] → t ≠ .form n) (r : Str) :
    replaceGo (formText n) by' 0 (w ++ r) = w ++ replaceGo (formText n) by' 0 r := by
  induction w generalizing u with
  | nil => rfl
  | cons c w ih =>
    have h1 := not_prefix_inside ht hw (by simp) hn (fun e => h e.1 e.2) r
    have h2 := ih (u ++ [c]) (by rw [hw]; simp) (by simp)
    rw [List.cons_append] at h1 ⊢
    rw [replaceGo, h1, h2]; rfl

/-- Replacing the text of a root form replaces its tokens and nothing else. -/
theorem strReplace_render {n : Str} (hn : validName n = true) (by' : List Tok) (ts : List Tok)
    (hts : ∀ t ∈ ts, t.wf) :
    strReplace (formText n) (render by') (render ts) =
      render (ts.flatMap fun t => if t = .form n then by' else [t]) := by
  unfold strReplace
  induction ts with
  | nil => rfl
  | cons t ts ih =>
    have ih' := ih (fun x hx => hts x (by simp [hx]))
    have ht := hts t (by simp)
    rw [render_cons, List.flatMap_cons, render_append]
    by_cases h : t = .form n
    · subst h
      rw [if_pos rfl, ← ih']
      simp only [Tok.chars]
      have hp : (formText n).isPrefixOf (formText n ++ render ts) = true :=
        List.isPrefixOf_iff_prefix.2 ⟨_, rfl⟩
      obtain ⟨c, s, hc⟩ : ∃ c s, formText n = c :: s := ⟨'\\', _, rfl⟩
      have e : formText n ++ render ts = c :: (s ++ render ts) := by rw [hc]; rfl
      rw [e] at hp ⊢
      rw [replaceGo, hp]
      simp only [if_true]
      rw [replaceGo_drop]
      congr 1
      have hl : (formText n).length - 1 = s.length := by rw [hc]; simp
      rw [hl, List.drop_left]
    · rw [if_neg h, ← ih']
      have e : render [t] = t.chars := by simp [render]
      rw [e]
      exact replaceGo_skip ht hn _ [] t.chars rfl (fun _ => h) _

end Phyem.LinRepr
