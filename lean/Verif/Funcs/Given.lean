import Verif.Funcs.Checks
import Verif.Funcs.Ops3

/-!
C94: the derivatives given to the constructors of 2d vectors and 3d scalars.
-/

namespace Phyem.Funcs

/-- What a component given to the constructor stands for: a function, or the number zero. -/
def Is2 (d : DArg (F2 ℝ) ℝ) (f : F2 ℝ) : Prop := d = .fn f ∨ d = .num 0 ∧ f = fun _ _ _ => 0

/-- The same in three dimensions. -/
def Is3 (d : DArg (F3 ℝ) ℝ) (f : F3 ℝ) : Prop := d = .fn f ∨ d = .num 0 ∧ f = fun _ _ _ _ => 0

/-- What a given derivative stands for in three dimensions. -/
def Given3 (d : DArg (F3 ℝ) ℝ) (o : Option (F3 ℝ)) : Prop :=
  d = .none ∧ o = none ∨ (∃ f, d = .fn f ∧ o = some f) ∨ d = .num 0 ∧ o = some fun _ _ _ _ => 0

lemma parseD_given3 (d : DArg (F3 ℝ) ℝ) (o : Option (F3 ℝ)) :
    parseD zero3 d = some o ↔ Given3 d o := by
  cases d with
  | none => simp [parseD, Given3, eq_comm]
  | fn f => simp [parseD, Given3, eq_comm]
  | num c =>
    by_cases hc : c = 0
    · subst hc
      simp only [parseD, if_true, Option.some.injEq, Given3, reduceCtorEq, false_and, exists_false,
        false_or, true_and]
      exact eq_comm
    · simp [parseD, Given3, hc]

lemma parseV_is2 (d : DArg (F2 ℝ) ℝ) (f : F2 ℝ) : parseV zero2 d = some f ↔ Is2 d f := by
  cases d with
  | none => simp [parseV, Is2]
  | fn g => simp [parseV, Is2]
  | num c =>
    by_cases hc : c = 0
    · subst hc
      simp only [parseV, if_true, Option.some.injEq, Is2, reduceCtorEq, false_or, true_and]
      exact eq_comm
    · simp [parseV, Is2, hc]

lemma parseV_is3 (d : DArg (F3 ℝ) ℝ) (f : F3 ℝ) : parseV zero3 d = some f ↔ Is3 d f := by
  cases d with
  | none => simp [parseV, Is3]
  | fn g => simp [parseV, Is3]
  | num c =>
    by_cases hc : c = 0
    · subst hc
      simp only [parseV, if_true, Option.some.injEq, Is3, reduceCtorEq, false_or, true_and]
      exact eq_comm
    · simp [parseV, Is3, hc]

/-- **C94.** The Jacobian given to a 2d vector is kept entry by entry, row by component; the time
derivatives of a steady vector are the zero function. -/
theorem make_given_vector (v0 v1 : DArg (F2 ℝ) ℝ) (steady : Bool) (ux uy vx vy : DArg (F2 ℝ) ℝ)
    (ut vt : Option (F2 ℝ)) (linked : Option (ℝ → ℝ → ℝ → ℝ × ℝ)) (draw : ℕ → ℝ) (a : V2 ℝ)
    (h : V2.make v0 v1 steady (some [[ux, uy], [vx, vy]]) (some [ut, vt]) linked none draw = some a) :
    Is2 v0 a.v0 ∧ Is2 v1 a.v1 ∧ Given ux a.dudx ∧ Given uy a.dudy ∧ Given vx a.dvdx ∧ Given vy a.dvdy ∧
      (if steady then a.dudt = (some fun _ _ _ => 0) ∧ a.dvdt = (some fun _ _ _ => 0)
        else a.dudt = ut ∧ a.dvdt = vt) ∧ a.linked = linked := by
  simp only [← parseD_given, ← parseV_is2]
  unfold V2.make at h
  simp only [parseAll, List.length_cons, List.length_nil, if_true, List.mapM_cons, List.mapM_nil,
    Option.getD_some] at h
  cases h1 : parseV zero2 v0 with
  | none => simp [h1] at h
  | some p1 =>
    cases h2 : parseV zero2 v1 with
    | none => simp [h1, h2] at h
    | some p2 =>
      cases h3 : parseD zero2 ux with
      | none => simp [h1, h2, h3] at h
      | some p3 =>
        cases h4 : parseD zero2 uy with
        | none => simp [h1, h2, h3, h4] at h
        | some p4 =>
          cases h5 : parseD zero2 vx with
          | none => simp [h1, h2, h3, h4, h5] at h
          | some p5 =>
            cases h6 : parseD zero2 vy with
            | none => simp [h1, h2, h3, h4, h5, h6] at h
            | some p6 =>
              cases steady
              · simp [h1, h2, h3, h4, h5, h6] at h
                subst h
                simp
              · simp [h1, h2, h3, h4, h5, h6] at h
                subst h
                simp only [if_true, and_true, true_and]
                exact ⟨rfl, rfl⟩

/-- **C94.** The same for 3d scalars: the derivatives are given in the order t, x, y, z. -/
theorem make_given_scalar3 (s : DArg (F3 ℝ) ℝ) (steady : Bool) (dt dx dy dz : DArg (F3 ℝ) ℝ)
    (draw : ℕ → ℝ) (a : S3 ℝ)
    (h : S3.make s steady (some [dt, dx, dy, dz]) none draw = some a) :
    Is3 s a.s ∧ Given3 dx a.dx ∧ Given3 dy a.dy ∧ Given3 dz a.dz ∧
      (if steady then a.dt = some fun _ _ _ _ => 0 else Given3 dt a.dt) := by
  simp only [← parseD_given3, ← parseV_is3]
  unfold S3.make at h
  simp only [parseAll, List.length_cons, List.length_nil, if_true, List.mapM_cons, List.mapM_nil] at h
  cases h1 : parseV zero3 s with
  | none => simp [h1] at h
  | some p1 =>
    cases h2 : parseD zero3 dt with
    | none => simp [h1, h2] at h
    | some p2 =>
      cases h3 : parseD zero3 dx with
      | none => simp [h1, h2, h3] at h
      | some p3 =>
        cases h4 : parseD zero3 dy with
        | none => simp [h1, h2, h3, h4] at h
        | some p4 =>
          cases h5 : parseD zero3 dz with
          | none => simp [h1, h2, h3, h4, h5] at h
          | some p5 =>
            simp [h1, h2, h3, h4, h5] at h
            subst h
            cases steady
            · simp
            · simp only [if_true, true_and]
              rfl

/-- The hypotheses are met. -/
example (draw : ℕ → ℝ) : ∃ a, V2.make (.fn fun _ x y : ℝ => x * y) (.num 0) true
    (some [[.fn fun _ _ y => y, .fn fun _ x _ => x], [.num 0, .none]]) (some [none, none]) none none draw =
      some a ∧ a.dudy = (some fun _ x _ => x) ∧ a.dvdx = (some fun _ _ _ => 0) ∧ a.dvdy = none := by
  refine ⟨⟨fun _ x y : ℝ => x * y, zero2, some zero2, some zero2, some fun _ _ y => y, some fun _ x _ => x,
    some zero2, none, none, none⟩, ?_, rfl, rfl, rfl⟩
  simp [V2.make, parseAll, parseD, parseV]

example (draw : ℕ → ℝ) : ∃ a, S3.make (.fn fun _ x y z : ℝ => x * y + z) false
    (some [.num 0, .fn fun _ _ y _ => y, .fn fun _ x _ _ => x, .none]) none draw = some a ∧
      a.dy = (some fun _ x _ _ => x) ∧ a.dz = none := by
  refine ⟨⟨fun _ x y z : ℝ => x * y + z, false, some zero3, some fun _ _ y _ => y, some fun _ x _ _ => x,
    none, none⟩, ?_, rfl, rfl⟩
  simp [S3.make, parseAll, parseD, parseV]

end Phyem.Funcs
