import Verif.LinRepr.Lemmas

/-! Texts of plain forms are read back uniquely, up to the grouping of sums. -/

namespace Phyem.LinRepr

/-- Sums are nested to the left only, everywhere, and the form is plain. -/
def Form.nice : Form → Prop
  | .root _ => True
  | .un u f => u.hasSpace = false ∧ f.nice
  | .bin b f g => b.hasSpace = false ∧ f.nice ∧ g.nice
  | .add f g => f.nice ∧ g.nice ∧ g.isSum = false
  | .sub f g => f.nice ∧ g.nice ∧ g.isSum = false
  | .smul c f => c.isRoot = true ∧ f.nice
  | .sdiv f c => f.nice ∧ c.isRoot = true

def Form.size : Form → ℕ
  | .root _ => 1
  | .un _ f => f.size + 1
  | .bin _ f g => f.size + g.size + 1
  | .add f g => f.size + g.size + 1
  | .sub f g => f.size + g.size + 1
  | .smul _ f => f.size + 1
  | .sdiv f _ => f.size + 1

theorem un_op_inj {u v : Un} (hu : u.hasSpace = false) (hv : v.hasSpace = false)
    (h : u.op = v.op) : u = v := by
  cases u <;> cases v <;> simp_all [Un.op, Un.hasSpace]

theorem bin_op_inj {u v : Bin} (hu : u.hasSpace = false) (hv : v.hasSpace = false)
    (h : u.op = v.op) : u = v := by
  cases u <;> cases v <;> simp_all [Bin.op, Bin.hasSpace]

/-- What may follow a summand. -/
def endP : List Tok → Prop
  | [] => True
  | t :: _ => t = .op .plus ∨ t = .op .minus ∨ t = .op .cls

/-- What may follow a sum. -/
def endE : List Tok → Prop
  | [] => True
  | t :: _ => t = .op .cls

theorem endE_endP {r : List Tok} (h : endE r) : endP r := by
  cases r with
  | nil => trivial
  | cons t r => exact Or.inr (Or.inr h)

/-- Summands of a left-nested sum after the first. -/
def rest : Form → List (Bool × Form)
  | .add f g => rest f ++ [(true, g)]
  | .sub f g => rest f ++ [(false, g)]
  | _ => []

/-- First summand. -/
def first : Form → Form
  | .add f _ => first f
  | .sub f _ => first f
  | f => f

def signTok (b : Bool) : Tok := .op (if b then .plus else .minus)

def build (f : Form) (l : List (Bool × Form)) : Form :=
  l.foldl (fun a p => if p.1 then .add a p.2 else .sub a p.2) f

theorem build_first_rest (f : Form) : build (first f) (rest f) = f := by
  induction f with
  | add f g ihf _ => simp [first, rest, build] at ihf ⊢; exact ihf
  | sub f g ihf _ => simp [first, rest, build] at ihf ⊢; exact ihf
  | _ => rfl

def restTk (l : List (Bool × Form)) : List Tok := l.flatMap fun p => signTok p.1 :: p.2.tk

theorem tk_first_rest (f : Form) : f.tk = (first f).tk ++ restTk (rest f) := by
  induction f with
  | add f g ihf _ =>
    rw [Form.tk, ihf, first, rest]
    simp [restTk, signTok]
  | sub f g ihf _ =>
    rw [Form.tk, ihf, first, rest]
    simp [restTk, signTok]
  | _ => simp [first, rest, restTk]

theorem first_spec (f : Form) (h : f.nice) :
    (first f).nice ∧ (first f).isSum = false ∧ (first f).size ≤ f.size := by
  induction f with
  | add f g ihf _ =>
    obtain ⟨a, b, c⟩ := ihf h.1
    exact ⟨a, b, by simp only [first, Form.size]; omega⟩
  | sub f g ihf _ =>
    obtain ⟨a, b, c⟩ := ihf h.1
    exact ⟨a, b, by simp only [first, Form.size]; omega⟩
  | _ => exact ⟨h, rfl, le_refl _⟩

theorem rest_spec (f : Form) (h : f.nice) :
    ∀ p ∈ rest f, p.2.nice ∧ p.2.isSum = false ∧ p.2.size ≤ f.size := by
  induction f with
  | add f g ihf _ =>
    intro p hp
    simp only [rest, List.mem_append, List.mem_singleton] at hp
    rcases hp with hp | rfl
    · obtain ⟨a, b, c⟩ := ihf h.1 p hp
      exact ⟨a, b, by simp only [Form.size]; omega⟩
    · exact ⟨h.2.1, h.2.2, by simp only [Form.size]; omega⟩
  | sub f g ihf _ =>
    intro p hp
    simp only [rest, List.mem_append, List.mem_singleton] at hp
    rcases hp with hp | rfl
    · obtain ⟨a, b, c⟩ := ihf h.1 p hp
      exact ⟨a, b, by simp only [Form.size]; omega⟩
    · exact ⟨h.2.1, h.2.2, by simp only [Form.size]; omega⟩
  | _ => intro p hp; simp [rest] at hp

/-- Unambiguous reading of summands up to size `n`. -/
def UniqP (n : ℕ) : Prop := ∀ p q : Form, p.nice → q.nice → p.isSum = false → q.isSum = false →
  p.size ≤ n → ∀ r s, endP r → endP s → p.tk ++ r = q.tk ++ s → p = q ∧ r = s

/-- Unambiguous reading of sums up to size `n`. -/
def UniqE (n : ℕ) : Prop := ∀ f g : Form, f.nice → g.nice → f.size ≤ n →
  ∀ r s, endE r → endE s → f.tk ++ r = g.tk ++ s → f = g ∧ r = s

theorem endP_rest (l : List (Bool × Form)) (r : List Tok) (h : endE r) : endP (restTk l ++ r) := by
  cases l with
  | nil => simpa [restTk] using endE_endP h
  | cons p l =>
    obtain ⟨b, f⟩ := p
    cases b
    · right; left; rfl
    · left; rfl

theorem rest_uniq (n : ℕ) (hP : UniqP n) (l m : List (Bool × Form))
    (hl : ∀ p ∈ l, p.2.nice ∧ p.2.isSum = false ∧ p.2.size ≤ n)
    (hm : ∀ p ∈ m, p.2.nice ∧ p.2.isSum = false) (r s : List Tok) (hr : endE r) (hs : endE s)
    (h : restTk l ++ r = restTk m ++ s) : l = m ∧ r = s := by
  have sgn : ∀ b t, endE (signTok b :: t) → False := by
    intro b t h
    simp only [endE, signTok] at h
    cases b <;> simp at h
  induction l generalizing m with
  | nil =>
    cases m with
    | nil => exact ⟨rfl, by simpa [restTk] using h⟩
    | cons p m =>
      exfalso
      have e : r = signTok p.1 :: (p.2.tk ++ restTk m ++ s) := by
        simpa [restTk] using h
      rw [e] at hr
      exact sgn _ _ hr
  | cons p l ih =>
    cases m with
    | nil =>
      exfalso
      have e : s = signTok p.1 :: (p.2.tk ++ restTk l ++ r) := by
        simpa [restTk] using h.symm
      rw [e] at hs
      exact sgn _ _ hs
    | cons q m =>
      have e : signTok p.1 :: (p.2.tk ++ (restTk l ++ r)) =
          signTok q.1 :: (q.2.tk ++ (restTk m ++ s)) := by
        simpa [restTk] using h
      simp only [List.cons.injEq] at e
      have hp := hl p (by simp)
      have hq := hm q (by simp)
      obtain ⟨h1, h2⟩ := hP p.2 q.2 hp.1 hq.1 hp.2.1 hq.2 hp.2.2 _ _ (endP_rest l r hr)
        (endP_rest m s hs) e.2
      obtain ⟨h3, h4⟩ := ih m (fun x hx => hl x (by simp [hx])) (fun x hx => hm x (by simp [hx])) h2
      have hb : p.1 = q.1 := by
        have := e.1
        cases hp1 : p.1 <;> cases hq1 : q.1 <;> simp [hp1, hq1, signTok] at this ⊢
      refine ⟨?_, h4⟩
      rw [h3]
      congr 1
      exact Prod.ext hb h1

theorem uniqE_of_uniqP (n : ℕ) (hP : UniqP n) : UniqE n := by
  intro f g hf hg hn r s hr hs h
  rw [tk_first_rest f, tk_first_rest g, List.append_assoc, List.append_assoc] at h
  obtain ⟨f1, f2, f3⟩ := first_spec f hf
  obtain ⟨g1, g2, _⟩ := first_spec g hg
  obtain ⟨h1, h2⟩ := hP _ _ f1 g1 f2 g2 (by omega) _ _ (endP_rest _ r hr) (endP_rest _ s hs) h
  obtain ⟨h3, h4⟩ := rest_uniq n hP _ _
    (fun p hp => by
      obtain ⟨a, b, c⟩ := rest_spec f hf p hp
      exact ⟨a, b, by omega⟩)
    (fun p hp => by
      obtain ⟨a, b, _⟩ := rest_spec g hg p hp
      exact ⟨a, b⟩) r s hr hs h2
  refine ⟨?_, h4⟩
  rw [← build_first_rest f, ← build_first_rest g, h1, h3]

/-- Operands are read unambiguously, whatever follows. -/
theorem brk_uniq (n : ℕ) (hE : UniqE n) (f g : Form) (hf : f.nice) (hg : g.nice) (hn : f.size ≤ n)
    (r s : List Tok) (h : brk f.isRoot f.tk ++ r = brk g.isRoot g.tk ++ s) : f = g ∧ r = s := by
  have hroot : ∀ f : Form, f.isRoot = true → ∃ m, f = .root m := by
    intro f hf; cases f <;> simp [Form.isRoot] at hf ⊢
  cases hfr : f.isRoot with
  | true =>
    obtain ⟨a, rfl⟩ := hroot f hfr
    cases hgr : g.isRoot with
    | true =>
      obtain ⟨b, rfl⟩ := hroot g hgr
      simp [brk, Form.isRoot, Form.tk] at h
      exact ⟨by rw [h.1], h.2⟩
    | false => rw [hfr, hgr] at h; simp [brk, Form.tk] at h
  | false =>
    cases hgr : g.isRoot with
    | true =>
      obtain ⟨b, rfl⟩ := hroot g hgr
      rw [hfr, hgr] at h; simp [brk, Form.tk] at h
    | false =>
      rw [hfr, hgr] at h
      simp only [brk, Bool.false_eq_true, if_false, List.cons_append, List.cons.injEq, true_and,
        List.append_assoc] at h
      obtain ⟨h1, h2⟩ := hE f g hf hg hn (.op .cls :: ([] ++ r)) (.op .cls :: ([] ++ s)) rfl rfl h
      exact ⟨h1, by simpa using h2⟩

/-- First token of an operand. -/
theorem brk_head (f : Form) (r : List Tok) :
    (∃ m, f = .root m ∧ brk f.isRoot f.tk ++ r = .form m :: r) ∨
    (f.isRoot = false ∧ brk f.isRoot f.tk ++ r = .op .opn :: (f.tk ++ .op .cls :: r)) := by
  cases hf : f.isRoot with
  | true =>
    cases f <;> simp [Form.isRoot] at hf
    left; exact ⟨_, rfl, by simp [brk, Form.tk]⟩
  | false => right; exact ⟨rfl, by simp [brk]⟩

theorem un_op_ne (u : Un) : u.op ≠ .opn ∧ u.op ≠ .cls := by cases u <;> simp [Un.op]

theorem bin_op_ne (b : Bin) : b.op ≠ .plus ∧ b.op ≠ .minus ∧ b.op ≠ .cls ∧ b.op ≠ .division := by
  cases b <;> simp [Bin.op]

theorem scalar_root (c : Scalar) (h : c.isRoot = true) : ∃ m, c = .root m := by
  cases c <;> simp [Scalar.isRoot] at h ⊢

theorem smul_tk (c : Scalar) (f : Form) (h : c.isRoot = true) :
    (Form.smul c f).tk = c.tk ++ .op .multiply :: brk f.isRoot f.tk := by
  simp only [Form.tk, h, if_true]
  cases hf : f.isRoot <;> simp [brk]

/-- An operand followed by a token that is not the end of a summand cannot be a root form followed
by the end of a summand. -/
theorem root_vs_operand (a : Str) (r : List Tok) (hr : endP r) (f : Form) (o : Op) (t : List Tok)
    (ho : o ≠ .plus ∧ o ≠ .minus ∧ o ≠ .cls)
    (h : Tok.form a :: r = brk f.isRoot f.tk ++ .op o :: t) : False := by
  rcases brk_head f (.op o :: t) with ⟨m, _, e⟩ | ⟨_, e⟩
  · rw [e] at h
    simp only [List.cons.injEq] at h
    rw [h.2] at hr
    simp only [endP, Tok.op.injEq] at hr
    rcases hr with hr | hr | hr
    · exact ho.1 hr
    · exact ho.2.1 hr
    · exact ho.2.2 hr
  · rw [e] at h; simp at h

theorem uniqP_zero : UniqP 0 := by
  intro p q _ _ _ _ h
  cases p <;> simp [Form.size] at h

theorem un_vs_operand (u : Un) (x : List Tok) (f : Form) (y : List Tok)
    (h : Tok.op u.op :: x = brk f.isRoot f.tk ++ y) : False := by
  rcases brk_head f y with ⟨m, _, e⟩ | ⟨_, e⟩
  · rw [e] at h; simp at h
  · rw [e] at h
    simp only [List.cons.injEq, Tok.op.injEq] at h
    exact (un_op_ne u).1 h.1

theorem scal_vs_operand (a : Str) (x : List Tok) (f : Form) (y : List Tok)
    (h : Tok.scal a :: x = brk f.isRoot f.tk ++ y) : False := by
  rcases brk_head f y with ⟨m, _, e⟩ | ⟨_, e⟩
  · rw [e] at h; simp at h
  · rw [e] at h; simp at h

theorem uniqP_succ (n : ℕ) (hE : UniqE n) : UniqP (n + 1) := by
  intro p q hp hq sp sq hn r s hr hs h
  cases p with
  | add _ _ => simp [Form.isSum] at sp
  | sub _ _ => simp [Form.isSum] at sp
  | root a =>
    cases q with
    | add _ _ => simp [Form.isSum] at sq
    | sub _ _ => simp [Form.isSum] at sq
    | root b => simp [Form.tk] at h; exact ⟨by rw [h.1], h.2⟩
    | un v g => simp [Form.tk] at h
    | bin b g k =>
      exfalso
      simp only [Form.tk, List.append_assoc, List.cons_append, List.nil_append] at h
      obtain ⟨b1, b2, b3, _⟩ := bin_op_ne b
      exact root_vs_operand a r hr g b.op _ ⟨b1, b2, b3⟩ h
    | smul c g =>
      obtain ⟨m, rfl⟩ := scalar_root c hq.1
      rw [smul_tk _ _ rfl] at h
      simp [Form.tk, Scalar.tk] at h
    | sdiv g c =>
      exfalso
      simp only [Form.tk, List.append_assoc, List.cons_append, List.nil_append] at h
      exact root_vs_operand a r hr g .division _ ⟨by simp, by simp, by simp⟩ h
  | un u f =>
    have hsz : f.size ≤ n := by simp only [Form.size] at hn; omega
    cases q with
    | add _ _ => simp [Form.isSum] at sq
    | sub _ _ => simp [Form.isSum] at sq
    | root b => simp [Form.tk] at h
    | un v g =>
      simp only [Form.tk, List.cons_append, List.cons.injEq, Tok.op.injEq] at h
      obtain ⟨h1, h2⟩ := brk_uniq n hE f g hp.2 hq.2 hsz r s h.2
      exact ⟨by rw [un_op_inj hp.1 hq.1 h.1, h1], h2⟩
    | bin b g k =>
      exfalso
      simp only [Form.tk, List.append_assoc, List.cons_append] at h
      exact un_vs_operand u _ g _ h
    | smul c g =>
      obtain ⟨m, rfl⟩ := scalar_root c hq.1
      rw [smul_tk _ _ rfl] at h
      simp [Form.tk, Scalar.tk] at h
    | sdiv g c =>
      exfalso
      simp only [Form.tk, List.append_assoc, List.cons_append] at h
      exact un_vs_operand u _ g _ h
  | bin b f k =>
    have hsz : f.size ≤ n ∧ k.size ≤ n := by simp only [Form.size] at hn; omega
    obtain ⟨b1, b2, b3, b4⟩ := bin_op_ne b
    cases q with
    | add _ _ => simp [Form.isSum] at sq
    | sub _ _ => simp [Form.isSum] at sq
    | root a =>
      exfalso
      simp only [Form.tk, List.append_assoc, List.cons_append, List.nil_append] at h
      exact root_vs_operand a s hs f b.op _ ⟨b1, b2, b3⟩ h.symm
    | un v g =>
      exfalso
      simp only [Form.tk, List.append_assoc, List.cons_append] at h
      exact un_vs_operand v _ f _ h.symm
    | bin b' g k' =>
      simp only [Form.tk, List.append_assoc, List.cons_append] at h
      obtain ⟨h1, h2⟩ := brk_uniq n hE f g hp.2.1 hq.2.1 hsz.1 _ _ h
      simp only [List.cons.injEq, Tok.op.injEq] at h2
      obtain ⟨h3, h4⟩ := brk_uniq n hE k k' hp.2.2 hq.2.2 hsz.2 _ _ h2.2
      exact ⟨by rw [bin_op_inj hp.1 hq.1 h2.1, h1, h3], h4⟩
    | smul c g =>
      exfalso
      obtain ⟨m, rfl⟩ := scalar_root c hq.1
      rw [smul_tk _ _ rfl] at h
      simp only [Form.tk, Scalar.tk, List.append_assoc, List.cons_append, List.nil_append] at h
      exact scal_vs_operand m _ f _ h.symm
    | sdiv g c =>
      exfalso
      simp only [Form.tk, List.append_assoc, List.cons_append] at h
      obtain ⟨_, h2⟩ := brk_uniq n hE f g hp.2.1 hq.1 hsz.1 _ _ h
      simp only [List.cons.injEq, Tok.op.injEq] at h2
      exact b4 h2.1
  | smul c f =>
    have hsz : f.size ≤ n := by simp only [Form.size] at hn; omega
    obtain ⟨m, rfl⟩ := scalar_root c hp.1
    rw [smul_tk _ _ rfl] at h
    cases q with
    | add _ _ => simp [Form.isSum] at sq
    | sub _ _ => simp [Form.isSum] at sq
    | root a => simp [Form.tk, Scalar.tk] at h
    | un v g => simp [Form.tk, Scalar.tk] at h
    | bin b' g k' =>
      exfalso
      simp only [Form.tk, Scalar.tk, List.append_assoc, List.cons_append, List.nil_append] at h
      exact scal_vs_operand m _ g _ h
    | smul c g =>
      obtain ⟨m', rfl⟩ := scalar_root c hq.1
      rw [smul_tk _ _ rfl] at h
      simp only [Scalar.tk, List.cons_append, List.nil_append, List.cons.injEq, Tok.scal.injEq,
        true_and] at h
      obtain ⟨h1, h2⟩ := brk_uniq n hE f g hp.2 hq.2 hsz _ _ h.2
      exact ⟨by rw [h.1, h1], h2⟩
    | sdiv g c =>
      exfalso
      simp only [Form.tk, Scalar.tk, List.append_assoc, List.cons_append, List.nil_append] at h
      exact scal_vs_operand m _ g _ h
  | sdiv f c =>
    have hsz : f.size ≤ n := by simp only [Form.size] at hn; omega
    cases q with
    | add _ _ => simp [Form.isSum] at sq
    | sub _ _ => simp [Form.isSum] at sq
    | root a =>
      exfalso
      simp only [Form.tk, List.append_assoc, List.cons_append, List.nil_append] at h
      exact root_vs_operand a s hs f .division _ ⟨by simp, by simp, by simp⟩ h.symm
    | un v g =>
      exfalso
      simp only [Form.tk, List.append_assoc, List.cons_append] at h
      exact un_vs_operand v _ f _ h.symm
    | bin b' g k' =>
      exfalso
      simp only [Form.tk, List.append_assoc, List.cons_append] at h
      obtain ⟨_, h2⟩ := brk_uniq n hE f g hp.1 hq.2.1 hsz _ _ h
      simp only [List.cons.injEq, Tok.op.injEq] at h2
      exact (bin_op_ne b').2.2.2 h2.1.symm
    | smul c g =>
      exfalso
      obtain ⟨m, rfl⟩ := scalar_root c hq.1
      rw [smul_tk _ _ rfl] at h
      simp only [Form.tk, Scalar.tk, List.append_assoc, List.cons_append, List.nil_append] at h
      exact scal_vs_operand m _ f _ h.symm
    | sdiv g c' =>
      simp only [Form.tk, List.append_assoc, List.cons_append] at h
      obtain ⟨h1, h2⟩ := brk_uniq n hE f g hp.1 hq.1 hsz _ _ h
      obtain ⟨m, rfl⟩ := scalar_root c hp.2
      obtain ⟨m', rfl⟩ := scalar_root c' hq.2
      simp [Scalar.tk] at h2
      exact ⟨by rw [h1, h2.1], h2.2⟩

theorem uniqP (n : ℕ) : UniqP n := by
  induction n with
  | zero => exact uniqP_zero
  | succ n ih => exact uniqP_succ n (uniqE_of_uniqP n ih)

theorem tk_inj {f g : Form} (hf : f.nice) (hg : g.nice) (h : f.tk = g.tk) : f = g :=
  (uniqE_of_uniqP _ (uniqP f.size) f g hf hg (le_refl _) [] [] trivial trivial (by simpa using h)).1

/-! ### Regrouping sums to the left -/

/-- `f` followed by `+ g` or `- g` as texts: the summands of `g` are added one by one. -/
def attach (f : Form) (plus : Bool) : Form → Form
  | .add g h => .add (attach f plus g) h
  | .sub g h => .sub (attach f plus g) h
  | g => if plus then .add f g else .sub f g

/-- The same text with all sums nested to the left. -/
def norm : Form → Form
  | .root n => .root n
  | .un u f => .un u (norm f)
  | .bin b f g => .bin b (norm f) (norm g)
  | .add f g => attach (norm f) true (norm g)
  | .sub f g => attach (norm f) false (norm g)
  | .smul c f => .smul c (norm f)
  | .sdiv f c => .sdiv (norm f) c

theorem attach_sum (f : Form) (p : Bool) (g : Form) : (attach f p g).isSum = true := by
  cases g <;> cases p <;> rfl

theorem attach_isRoot (f : Form) (p : Bool) (g : Form) : (attach f p g).isRoot = false := by
  cases g <;> cases p <;> rfl

theorem norm_isRoot (f : Form) : (norm f).isRoot = f.isRoot := by
  cases f with
  | add f g => rw [norm, attach_isRoot]; rfl
  | sub f g => rw [norm, attach_isRoot]; rfl
  | _ => rfl

theorem norm_isSum (f : Form) : (norm f).isSum = f.isSum := by
  cases f with
  | add f g => rw [norm, attach_sum]; rfl
  | sub f g => rw [norm, attach_sum]; rfl
  | _ => rfl

theorem attach_tk (f : Form) (p : Bool) (g : Form) :
    (attach f p g).tk = f.tk ++ signTok p :: g.tk := by
  induction g with
  | add g h ihg _ => simp [attach, Form.tk, ihg]
  | sub g h ihg _ => simp [attach, Form.tk, ihg]
  | _ => cases p <;> simp [attach, Form.tk, signTok]

theorem norm_tk (f : Form) : (norm f).tk = f.tk := by
  induction f with
  | root n => rfl
  | un u f ih => simp [norm, Form.tk, ih, norm_isRoot]
  | bin b f g ihf ihg => simp [norm, Form.tk, ihf, ihg, norm_isRoot]
  | add f g ihf ihg => simp [norm, attach_tk, ihf, ihg, Form.tk, signTok]
  | sub f g ihf ihg => simp [norm, attach_tk, ihf, ihg, Form.tk, signTok]
  | smul c f ih => simp [norm, Form.tk, ih, norm_isRoot]
  | sdiv f c ih => simp [norm, Form.tk, ih, norm_isRoot]

theorem attach_nice (f : Form) (p : Bool) (g : Form) (hf : f.nice) (hg : g.nice) :
    (attach f p g).nice := by
  induction g with
  | add g h ihg _ => exact ⟨ihg hg.1, hg.2.1, hg.2.2⟩
  | sub g h ihg _ => exact ⟨ihg hg.1, hg.2.1, hg.2.2⟩
  | _ => cases p <;> exact ⟨hf, hg, rfl⟩

theorem norm_nice (f : Form) (h : f.plain) : (norm f).nice := by
  induction f with
  | root n => trivial
  | un u f ih => exact ⟨h.1, ih h.2⟩
  | bin b f g ihf ihg => exact ⟨h.1, ihf h.2.1, ihg h.2.2⟩
  | add f g ihf ihg => exact attach_nice _ _ _ (ihf h.1) (ihg h.2)
  | sub f g ihf ihg => exact attach_nice _ _ _ (ihf h.1) (ihg h.2)
  | smul c f ih => exact ⟨h.1, ih h.2⟩
  | sdiv f c ih => exact ⟨ih h.1, h.2⟩

theorem attach_eval {V : Type} [AddCommGroup V] (I : Interp V) (f g : Form) :
    (attach f true g).eval I = f.eval I + g.eval I := by
  induction g with
  | add g h ihg _ => simp [attach, Form.eval, ihg, add_assoc]
  | sub g h ihg _ => simp [attach, Form.eval, ihg, add_sub_assoc]
  | _ => simp [attach, Form.eval]

theorem attach_eval_sub {V : Type} [AddCommGroup V] (I : Interp V) (f g : Form)
    (h : g.isSum = false) : (attach f false g).eval I = f.eval I - g.eval I := by
  cases g <;> simp [attach, Form.eval, Form.isSum] at h ⊢

/-- Regrouping keeps the value when no sum is subtracted as a whole. -/
theorem norm_eval {V : Type} [AddCommGroup V] (I : Interp V) (f : Form) (h : f.noGroupedMinus) :
    (norm f).eval I = f.eval I := by
  induction f with
  | root n => rfl
  | un u f ih => simp [norm, Form.eval, ih h]
  | bin b f g ihf ihg => simp [norm, Form.eval, ihf h.1, ihg h.2]
  | add f g ihf ihg => simp [norm, attach_eval, Form.eval, ihf h.1, ihg h.2]
  | sub f g ihf ihg =>
    rw [norm, attach_eval_sub I _ _ (by rw [norm_isSum]; exact h.2.2), ihf h.1, ihg h.2.1]; rfl
  | smul c f ih => simp [norm, Form.eval, ih h]
  | sdiv f c ih => simp [norm, Form.eval, ih h]

/-- Same text, same expression up to the grouping of sums. -/
theorem lin_norm {f g : Form} (hf : f.wf) (hg : g.wf) (pf : f.plain) (pg : g.plain)
    (h : f.lin = g.lin) : norm f = norm g := by
  rw [Form.lin_eq, Form.lin_eq] at h
  have := render_inj (f.tk_wf hf) (g.tk_wf hg) h
  exact tk_inj (norm_nice f pf) (norm_nice g pg) (by rw [norm_tk, norm_tk, this])

end Phyem.LinRepr
