import Verif.Reversal.Keys
import Verif.Reversal.Props
import Verif.OpCache.Props

/-!
C88: caches and cache keys of element incidence matrices.
-/

namespace Phyem.Reversal

open Phyem.Numbering Phyem.Incidence Phyem.Triangle Phyem Phyem.Dict

/-- The matrix of an element without any cache. -/
def matrixOf (k : Deg) (o : Ori) (el : Elem) : Option M :=
  match el.et with
  | .regular => if el.inner = none ∧ el.outer = none then rawE k o .quad el.p el.q else none
  | et => match el.rev o with
    | none => rawE k o (shapeOf et) el.p el.q
    | some faces => (rawE k o (shapeOf et) el.p el.q).bind fun E => reverseE k o (shapeOf et) el.p el.q E faces

/-- The key of an element. -/
def keyOf (k : Deg) (o : Ori) (el : Elem) : List Char :=
  pre k o (shapeOf el.et) ++ tup el.p el.q ++
    match (if el.et = .regular then none else el.rev o) with
    | none => []
    | some faces => lst faces ++ digits k o faces

/-! ### Reading keys -/

theorem num_inj {m n : ℕ} (h : num m = num n) : m = n := by
  have := congrArg (fun l => Nat.ofDigitChars 10 l 0) h
  simpa [num, Nat.ofDigitChars_ten_toDigits] using this

theorem num_digit (n : ℕ) : ∀ c ∈ num n, c.isDigit = true := fun _ hc =>
  Nat.isDigit_of_mem_toDigits (by decide) (by decide) hc

theorem num_ne_nil (n : ℕ) : num n ≠ [] := Nat.toDigits_ne_nil

/-- Where digits end is determined. -/
theorem span_inj : ∀ {d d' : List Char} {a a' : Char} {r r' : List Char}, (∀ c ∈ d, c.isDigit = true) →
    (∀ c ∈ d', c.isDigit = true) → a.isDigit = false → a'.isDigit = false → d ++ a :: r = d' ++ a' :: r' →
    d = d' ∧ a = a' ∧ r = r'
  | [], [], a, a', r, r', _, _, _, _, h => by simpa using h
  | [], x :: d', a, a', r, r', _, h', ha, _, h => by
    simp only [List.nil_append, List.cons_append, List.cons.injEq] at h
    have := h' x (by simp)
    rw [← h.1, ha] at this
    cases this
  | x :: d, [], a, a', r, r', h1, _, _, ha', h => by
    simp only [List.nil_append, List.cons_append, List.cons.injEq] at h
    have := h1 x (by simp)
    rw [h.1, ha'] at this
    cases this
  | x :: d, y :: d', a, a', r, r', h1, h2, ha, ha', h => by
    simp only [List.cons_append, List.cons.injEq] at h
    obtain ⟨e1, e2, e3⟩ := span_inj (fun c hc => h1 c (by simp [hc])) (fun c hc => h2 c (by simp [hc])) ha ha' h.2
    exact ⟨by rw [h.1, e1], e2, e3⟩

theorem tup_inj {p q p' q' : ℕ} {r r' : List Char} (h : tup p q ++ r = tup p' q' ++ r') :
    p = p' ∧ q = q' ∧ r = r' := by
  simp only [tup, List.cons_append, List.append_assoc, List.cons.injEq, true_and] at h
  obtain ⟨e1, -, e2⟩ := span_inj (num_digit p) (num_digit p') (by decide) (by decide) h
  simp only [List.cons.injEq, true_and, List.nil_append] at e2
  obtain ⟨e3, -, e4⟩ := span_inj (num_digit q) (num_digit q') (by decide) (by decide) e2
  exact ⟨num_inj e1, num_inj e3, e4⟩

theorem lstTail_cons (l : List ℕ) : ∃ a r, lstTail l = a :: r ∧ a.isDigit = false := by
  cases l with
  | nil => exact ⟨_, _, rfl, by decide⟩
  | cons a l => exact ⟨_, _, rfl, by decide⟩

theorem num_tail_inj {a b : ℕ} {l m : List ℕ} {t t' : List Char}
    (h : num a ++ (lstTail l ++ t) = num b ++ (lstTail m ++ t')) : a = b ∧ lstTail l ++ t = lstTail m ++ t' := by
  obtain ⟨x, r, e, hx⟩ := lstTail_cons l
  obtain ⟨y, r', e', hy⟩ := lstTail_cons m
  rw [e, e'] at h ⊢
  simp only [List.cons_append] at h ⊢
  obtain ⟨e1, e2, e3⟩ := span_inj (num_digit a) (num_digit b) hx hy h
  exact ⟨num_inj e1, by rw [e2, e3]⟩

theorem lstTail_inj : ∀ {l m : List ℕ} {t t' : List Char}, lstTail l ++ t = lstTail m ++ t' → l = m ∧ t = t'
  | [], [], t, t', h => by simpa [lstTail] using h
  | [], b :: m, t, t', h => by simp [lstTail] at h
  | a :: l, [], t, t', h => by simp [lstTail] at h
  | a :: l, b :: m, t, t', h => by
    simp only [lstTail, List.cons_append, List.append_assoc, List.cons.injEq, true_and] at h
    obtain ⟨e1, e2⟩ := num_tail_inj h
    obtain ⟨e3, e4⟩ := lstTail_inj e2
    exact ⟨by rw [e1, e3], e4⟩

theorem lst_inj {l m : List ℕ} {t t' : List Char} (h : lst l ++ t = lst m ++ t') : l = m ∧ t = t' := by
  have nb : ∀ (a : ℕ) (r r' : List Char), ']' :: r ≠ num a ++ r' := by
    intro a r r' e
    cases hn : num a with
    | nil => exact num_ne_nil a hn
    | cons x xs =>
      rw [hn] at e
      simp only [List.cons_append, List.cons.injEq] at e
      have := num_digit a x (by simp [hn])
      rw [← e.1] at this
      exact absurd this (by decide)
  cases l with
  | nil => cases m with
    | nil => simpa [lst] using h
    | cons b m =>
      simp only [lst, List.cons_append, List.append_assoc, List.cons.injEq, true_and, List.nil_append] at h
      exact absurd h (nb _ _ _)
  | cons a l => cases m with
    | nil =>
      simp only [lst, List.cons_append, List.append_assoc, List.cons.injEq, true_and, List.nil_append] at h
      exact absurd h.symm (nb _ _ _)
    | cons b m =>
      simp only [lst, List.cons_append, List.append_assoc, List.cons.injEq, true_and] at h
      obtain ⟨e1, e2⟩ := num_tail_inj h
      obtain ⟨e3, e4⟩ := lstTail_inj e2
      exact ⟨by rw [e1, e3], e4⟩

/-! ### Caches -/

/-- What the caches hold. -/
structure CachesOK (k : Deg) (o : Ori) (c : Caches) : Prop where
  msepy : ∀ p q r, c.msepy.get (p, q) = some r → rawE k o .quad p q = some r.1 ∧ r.2 = pre k o .quad ++ tup p q
  vtu5p : ∀ p q r, c.vtu5p.get (p, q) = some r → rawE k o .tri p q = some r.1 ∧ r.2 = pre k o .tri ++ tup p q
  vtu9 : ∀ K E, c.vtu9.get K = some E → ∃ p q faces, K = pre k o .quad ++ tup p q ++ lst faces ++ digits k o faces ∧
    (rawE k o .quad p q).bind (fun A => reverseE k o .quad p q A faces) = some E
  vtu5 : ∀ K E, c.vtu5.get K = some E → ∃ p q faces, K = pre k o .tri ++ tup p q ++ lst faces ++ digits k o faces ∧
    (rawE k o .tri p q).bind (fun A => reverseE k o .tri p q A faces) = some E

theorem base_ok (k : Deg) (o : Ori) (s : Shape) (d : Dict (ℕ × ℕ) (M × List Char))
    (h : ∀ p q r, d.get (p, q) = some r → rawE k o s p q = some r.1 ∧ r.2 = pre k o s ++ tup p q) (p q : ℕ) :
    (∀ p' q' r, (base k o s d p q).1.get (p', q') = some r → rawE k o s p' q' = some r.1 ∧ r.2 = pre k o s ++ tup p' q') ∧
    (base k o s d p q).2 = (rawE k o s p q).map fun E => (E, pre k o s ++ tup p q) := by
  unfold base
  cases hg : Dict.get d (p, q) with
  | some r =>
    obtain ⟨h1, h2⟩ := h p q r hg
    refine ⟨h, ?_⟩
    simp only [h1, Option.map_some, Option.some.injEq]
    exact Prod.ext rfl h2
  | none =>
    cases hr : rawE k o s p q with
    | none => exact ⟨h, rfl⟩
    | some E =>
      refine ⟨?_, rfl⟩
      intro p' q' r hr'
      simp only [get_put] at hr'
      split_ifs at hr' with e
      · obtain ⟨rfl, rfl⟩ := Prod.mk.inj e
        obtain rfl := Option.some.inj hr'
        exact ⟨hr, rfl⟩
      · exact h p' q' r hr'

theorem withRev_ok (k : Deg) (o : Ori) (s : Shape) (d : Dict (List Char) M)
    (h : ∀ K E, d.get K = some E → ∃ p q faces, K = pre k o s ++ tup p q ++ lst faces ++ digits k o faces ∧
      (rawE k o s p q).bind (fun A => reverseE k o s p q A faces) = some E)
    (p q : ℕ) (E : M) (hE : rawE k o s p q = some E) (rev : Option (List ℕ)) :
    (∀ K B, (withRev k o s d p q (E, pre k o s ++ tup p q) rev).1.get K = some B →
      ∃ p q faces, K = pre k o s ++ tup p q ++ lst faces ++ digits k o faces ∧
      (rawE k o s p q).bind (fun A => reverseE k o s p q A faces) = some B) ∧
    (withRev k o s d p q (E, pre k o s ++ tup p q) rev).2 =
      match rev with
      | none => some (E, pre k o s ++ tup p q)
      | some faces => (reverseE k o s p q E faces).map fun A =>
          (A, pre k o s ++ tup p q ++ (lst faces ++ digits k o faces)) := by
  cases rev with
  | none => exact ⟨h, rfl⟩
  | some faces =>
    simp only [withRev]
    cases hg : Dict.get d (pre k o s ++ tup p q ++ lst faces) with
    | some A =>
      refine ⟨h, ?_⟩
      obtain ⟨p', q', f', e, hA⟩ := h _ A hg
      rw [List.append_assoc, List.append_assoc, List.append_assoc, List.append_cancel_left_eq] at e
      obtain ⟨rfl, rfl, e⟩ := tup_inj e
      obtain ⟨rfl, e⟩ := lst_inj (t := []) (by simpa using e)
      rw [hE, Option.bind_some] at hA
      rw [hA, ← e]
      simp
    | none =>
      cases hr : reverseE k o s p q E faces with
      | none => exact ⟨h, rfl⟩
      | some A =>
        refine ⟨?_, by simp⟩
        intro K B hB
        simp only [get_put] at hB
        split_ifs at hB with e
        · obtain rfl := Option.some.inj hB
          exact ⟨p, q, faces, e, by rw [hE, Option.bind_some, hr]⟩
        · exact h K B hB

theorem im_ok (k : Deg) (o : Ori) (c : Caches) (h : CachesOK k o c) (el : Elem) :
    CachesOK k o (im k o c el).1 ∧ (im k o c el).2 = (matrixOf k o el).map fun E => (E, keyOf k o el) := by
  obtain ⟨et, p, q, inn, out⟩ := el
  cases et with
  | regular =>
    obtain ⟨b1, b2⟩ := base_ok k o .quad c.msepy h.msepy p q
    refine ⟨⟨b1, h.vtu5p, h.vtu9, h.vtu5⟩, ?_⟩
    simp only [im, matrixOf, keyOf, shapeOf, b2]
    split_ifs <;> simp
  | nine =>
    obtain ⟨b1, b2⟩ := base_ok k o .quad c.msepy h.msepy p q
    simp only [im, matrixOf, keyOf, shapeOf]
    rw [b2]
    cases hr : rawE k o .quad p q with
    | none =>
      refine ⟨⟨b1, h.vtu5p, h.vtu9, h.vtu5⟩, ?_⟩
      cases Elem.rev ⟨.nine, p, q, inn, out⟩ o <;> simp
    | some E =>
      obtain ⟨w1, w2⟩ := withRev_ok k o .quad c.vtu9 h.vtu9 p q E hr (Elem.rev ⟨.nine, p, q, inn, out⟩ o)
      refine ⟨⟨b1, h.vtu5p, w1, h.vtu5⟩, ?_⟩
      simp only [Option.map_some, w2]
      cases Elem.rev ⟨.nine, p, q, inn, out⟩ o <;> simp
  | five =>
    obtain ⟨b1, b2⟩ := base_ok k o .tri c.vtu5p h.vtu5p p q
    simp only [im, matrixOf, keyOf, shapeOf]
    rw [b2]
    cases hr : rawE k o .tri p q with
    | none =>
      refine ⟨⟨h.msepy, b1, h.vtu9, h.vtu5⟩, ?_⟩
      cases Elem.rev ⟨.five, p, q, inn, out⟩ o <;> simp
    | some E =>
      obtain ⟨w1, w2⟩ := withRev_ok k o .tri c.vtu5 h.vtu5 p q E hr (Elem.rev ⟨.five, p, q, inn, out⟩ o)
      refine ⟨⟨h.msepy, b1, h.vtu9, w1⟩, ?_⟩
      simp only [Option.map_some, w2]
      cases Elem.rev ⟨.five, p, q, inn, out⟩ o <;> simp

/-- C88: after any history of calls, an element gets its own matrix and key: the caches do not show. -/
theorem cached_right (k : Deg) (o : Ori) (h : List Elem) (el : Elem) :
    (im k o (calls k o h) el).2 = (matrixOf k o el).map fun E => (E, keyOf k o el) := by
  have : ∀ (h : List Elem) (c : Caches), CachesOK k o c → CachesOK k o (h.foldl (fun c el => (im k o c el).1) c) := by
    intro h
    induction h with
    | nil => exact fun c hc => hc
    | cons a h ih => exact fun c hc => ih _ (im_ok k o c hc a).1
  exact (im_ok k o _ (this h Caches.empty ⟨by simp [Caches.empty, Dict.get], by simp [Caches.empty, Dict.get],
    by simp [Caches.empty, Dict.get], by simp [Caches.empty, Dict.get]⟩) el).2

theorem pre_inj {k : Deg} {o : Ori} {s s' : Shape} {p q p' q' : ℕ} {r r' : List Char}
    (hko : ¬ (k = .k1 ∧ o = .inner) ∨ s = s') (h : pre k o s ++ (tup p q ++ r) = pre k o s' ++ (tup p' q' ++ r')) :
    s = s' := by
  cases k <;> cases o <;> cases s <;> cases s' <;> simp [pre] at h hko ⊢

theorem keyOf_inj {k : Deg} {o : Ori} {el el' : Elem} (hko : ¬ (k = .k1 ∧ o = .inner) ∨ shapeOf el.et = shapeOf el'.et)
    (h : keyOf k o el = keyOf k o el') :
    shapeOf el.et = shapeOf el'.et ∧ el.p = el'.p ∧ el.q = el'.q ∧
      (if el.et = .regular then none else el.rev o) = (if el'.et = .regular then none else el'.rev o) := by
  unfold keyOf at h
  rw [List.append_assoc, List.append_assoc] at h
  have hs := pre_inj hko h
  rw [hs, List.append_cancel_left_eq] at h
  obtain ⟨hp, hq, h⟩ := tup_inj h
  refine ⟨hs, hp, hq, ?_⟩
  have key : ∀ a b : Option (List ℕ),
      (match a with | none => [] | some faces => lst faces ++ digits k o faces) =
      (match b with | none => [] | some faces => lst faces ++ digits k o faces) → a = b := by
    intro a b e
    cases a with
    | none => cases b with
      | none => rfl
      | some y => cases y <;> simp [lst] at e
    | some x => cases b with
      | none => cases x <;> simp [lst] at e
      | some y => rw [(lst_inj e).1]
  exact key _ _ h

theorem matrixOf_eq {k : Deg} {o : Ori} {el : Elem} {E : M} (h : matrixOf k o el = some E) :
    some E = (rawE k o (shapeOf el.et) el.p el.q).bind fun A =>
      match (if el.et = .regular then none else el.rev o) with
      | none => some A
      | some faces => reverseE k o (shapeOf el.et) el.p el.q A faces := by
  obtain ⟨et, p, q, a, b⟩ := el
  cases et
  · simp only [matrixOf] at h
    split_ifs at h
    simp [shapeOf, h]
  all_goals
    simp only [matrixOf, shapeOf] at h ⊢
    rw [← h]
    simp only [reduceCtorEq, if_false]
    cases Elem.rev _ o <;> simp

theorem rawE_mat {k : Deg} {o : Ori} {s : Shape} {p q : ℕ} {A : M} (h : rawE k o s p q = some A) :
    A.2.2 = match k with | .k0 => E0 s o p q | .k1 => E1 s o p q := by
  cases s <;> cases k <;> cases o <;> simp only [rawE, imT0o, imT0i, imT1o, imT1i, place, Option.some.injEq] at h <;>
    first
    | (subst h; rfl)
    | (split_ifs at h; cases h; rfl)

/-- What the matrix of an element is: the matrix of its shape, where the rows (from nodes to edges) or the columns (from edges to cells) of
the dofs on the reversed faces have changed sign. -/
theorem matrix_signs (k : Deg) (o : Ori) (el : Elem) (hf : ∀ faces, el.rev o = some faces → ∀ f ∈ faces, f < nFaces (shapeOf el.et))
    (E : M) (hE : matrixOf k o el = some E) (r c : ℕ) :
    E.2.2 r c = match k with
      | .k0 => sgn (shapeOf el.et) o el.p el.q ((el.rev o).getD []) r * E0 (shapeOf el.et) o el.p el.q r c
      | .k1 => sgn (shapeOf el.et) o el.p el.q ((el.rev o).getD []) c * E1 (shapeOf el.et) o el.p el.q r c := by
  have e := matrixOf_eq hE
  have hreg : el.et = .regular → el.rev o = none := by
    intro h
    obtain ⟨et, p, q, a, b⟩ := el
    cases h
    simp only [matrixOf] at hE
    split_ifs at hE with h1
    cases o
    · exact h1.1
    · exact h1.2
  have hrev : (if el.et = .regular then none else el.rev o) = el.rev o := by
    split_ifs with h
    · exact (hreg h).symm
    · rfl
  rw [hrev] at e
  cases hA : rawE k o (shapeOf el.et) el.p el.q with
  | none => rw [hA] at e; cases e
  | some A =>
    rw [hA, Option.bind_some] at e
    have hm := rawE_mat hA
    cases hr : el.rev o with
    | none =>
      rw [hr] at e
      cases e
      rw [hm]
      cases k <;> simp [sgn]
    | some faces =>
      rw [hr] at e
      have h1 := hf faces hr
      cases k
      · obtain ⟨B, hB, hBv⟩ := rows_sign (o := o) (p := el.p) (q := el.q) h1 A.2.2
        have e' : some E = (revRows (shapeOf el.et) o el.p el.q A.2.2 faces).map fun B => (A.1, A.2.1, B) := e
        rw [hB, Option.map_some] at e'
        cases e'
        simp only [Option.getD_some]
        rw [hBv r c, hm]
      · obtain ⟨B, hB, hBv⟩ := cols_sign (o := o) (p := el.p) (q := el.q) h1 A.2.2
        have e' : some E = (revCols (shapeOf el.et) o el.p el.q A.2.2 faces).map fun B => (A.1, A.2.1, B) := e
        rw [hB, Option.map_some] at e'
        cases e'
        simp only [Option.getD_some]
        rw [hBv r c, hm]

/-- Its hypotheses hold for a quadrilateral with two reversed faces. -/
example : (matrixOf .k1 .outer ⟨.nine, 2, 3, none, some [0, 3]⟩).isSome = true ∧ ∀ f ∈ [0, 3], f < nFaces (shapeOf .nine) := by
  decide +kernel

/-- C88, except for the rotation on meshes of triangles and quadrilaterals: elements with the same key have the same
matrix. -/
theorem keys_identify_partial (k : Deg) (o : Ori) (el el' : Elem)
    (hko : ¬ (k = .k1 ∧ o = .inner) ∨ shapeOf el.et = shapeOf el'.et) (E E' : M)
    (hE : matrixOf k o el = some E) (hE' : matrixOf k o el' = some E') (h : keyOf k o el = keyOf k o el') : E = E' := by
  obtain ⟨h1, h2, h3, h4⟩ := keyOf_inj hko h
  have e := matrixOf_eq hE
  have e' := matrixOf_eq hE'
  rw [h1, h2, h3, h4, ← e'] at e
  exact Option.some.inj e

/-- A quadrilateral with two reversed faces, and its key. -/
example : keyOf .k1 .outer ⟨.nine, 2, 3, none, some [0, 3]⟩ =
    ['m', 'q', '(', '2', ',', ' ', '3', ')', '[', '0', ',', ' ', '3', ']', '0', '3'] ∧
    (matrixOf .k1 .outer ⟨.nine, 2, 3, none, some [0, 3]⟩).isSome = true := by decide +kernel

/-- A triangle and a quadrilateral of degree 1. -/
def triangle1 : Elem := ⟨.five, 1, 1, none, none⟩
def quad1 : Elem := ⟨.nine, 1, 1, none, none⟩

/-- C88 fails for the rotation: a triangle and a quadrilateral of the same degree have the same key. -/
theorem keys_identify_refuted :
    ¬ ∀ (k : Deg) (o : Ori) (el el' : Elem) (E E' : M), matrixOf k o el = some E → matrixOf k o el' = some E' →
      keyOf k o el = keyOf k o el' → E = E' := by
  intro h
  obtain ⟨E, hE⟩ : ∃ E, matrixOf .k1 .inner triangle1 = some E := Option.isSome_iff_exists.1 (by decide +kernel)
  obtain ⟨E', hE'⟩ : ∃ E, matrixOf .k1 .inner quad1 = some E := Option.isSome_iff_exists.1 (by decide +kernel)
  have e := h .k1 .inner triangle1 quad1 E E' hE hE' (by decide +kernel)
  have h1 : (matrixOf .k1 .inner triangle1).map (fun E => E.2.1) ≠ (matrixOf .k1 .inner quad1).map (fun E => E.2.1) := by
    decide +kernel
  rw [hE, hE', e] at h1
  exact h1 rfl

/-- The local matrix object made of the incidence matrices of a mesh (`msehtt/static/form/main.py:534-545`): data and keys of the elements. -/
def incidence (k : Deg) (o : Ori) (mesh : ℕ → Elem) : OpCache.Op M :=
  .leaf (fun e => matrixOf k o (mesh e)) (fun e => keyOf k o (mesh e))

/-- One local matrix object without customisations whose keys identify its data. -/
theorem read_leaf {α : Type} (elems : List ℕ) (d : ℕ → Option α) (key : ℕ → OpCache.Key)
    (hk : ∀ e ∈ elems, ∀ e' ∈ elems, key e = key e' → d e = d e') (c : Dict OpCache.Key α)
    (hc : ∀ ck v, c.get ck = some v → ∃ e ∈ elems, key e = ck ∧ d e = some v) (i e : ℕ) :
    (∃ c' : Dict OpCache.Key α, (OpCache.read .msehtt elems [⟨.leaf d key, c, []⟩] i e).1 = [⟨.leaf d key, c', []⟩] ∧
      ∀ ck v, c'.get ck = some v → ∃ e ∈ elems, key e = ck ∧ d e = some v) ∧
    (i = 0 → e ∈ elems → (OpCache.read .msehtt elems [⟨.leaf d key, c, []⟩] i e).2 = d e) := by
  rcases i with _ | i
  · by_cases he : e ∈ elems
    · simp only [OpCache.read, OpCache.get, List.getElem?_cons_zero, he, if_true, Dict.get, OpCache.readCached,
        OpCache.keyOf, OpCache.metaData, forall_const]
      by_cases hu : OpCache.isUnique (key e) = true
      · simp only [hu, if_true]
        exact ⟨⟨c, rfl, hc⟩, trivial⟩
      · simp only [hu, if_false, Bool.false_eq_true]
        cases hg : Dict.get c (key e) with
        | some v =>
          refine ⟨⟨c, rfl, hc⟩, ?_⟩
          obtain ⟨e', he', e1, e2⟩ := hc _ _ hg
          exact (e2.symm.trans (hk e' he' e he e1) : some v = d e)
        | none =>
          cases hd : d e with
          | none => exact ⟨⟨c, rfl, hc⟩, rfl⟩
          | some v =>
            refine ⟨⟨Dict.put c (key e) v, rfl, ?_⟩, rfl⟩
            intro ck w hw
            rw [get_put] at hw
            split_ifs at hw with e1
            · obtain rfl := Option.some.inj hw
              exact ⟨e, he, e1.symm, hd⟩
            · exact hc ck w hw
    · simp [OpCache.read, OpCache.get, he]
      exact hc
  · simp [OpCache.read, OpCache.get]
    exact hc

/-- Reading the incidence matrices of a mesh, in any order and as often as one likes, gives every element its own matrix, if the mesh has no triangles next to quadrilaterals or the matrix is not the rotation. -/
theorem read_incidence_partial (k : Deg) (o : Ori) (mesh : ℕ → Elem) (elems : List ℕ) (reads : List (ℕ × ℕ))
    (hm : ∀ e ∈ elems, (matrixOf k o (mesh e)).isSome = true)
    (hko : ¬ (k = .k1 ∧ o = .inner) ∨ ∀ e ∈ elems, ∀ e' ∈ elems, shapeOf (mesh e).et = shapeOf (mesh e').et)
    (e : ℕ) (he : e ∈ elems) :
    (OpCache.read .msehtt elems (OpCache.run .msehtt elems
      (.new (incidence k o mesh) :: reads.map fun r => .read r.1 r.2)) 0 e).2 = matrixOf k o (mesh e) := by
  have hk : ∀ e ∈ elems, ∀ e' ∈ elems, keyOf k o (mesh e) = keyOf k o (mesh e') →
      matrixOf k o (mesh e) = matrixOf k o (mesh e') := by
    intro e he e' he' h
    obtain ⟨E, hE⟩ := Option.isSome_iff_exists.1 (hm e he)
    obtain ⟨E', hE'⟩ := Option.isSome_iff_exists.1 (hm e' he')
    rw [hE, hE', keys_identify_partial k o (mesh e) (mesh e') (hko.imp id fun h => h e he e' he') E E' hE hE' h]
  have inv : ∀ (rs : List (ℕ × ℕ)) (c : Dict OpCache.Key M),
      (∀ ck v, c.get ck = some v → ∃ e ∈ elems, keyOf k o (mesh e) = ck ∧ matrixOf k o (mesh e) = some v) →
      ∃ c' : Dict OpCache.Key M, (rs.map fun r => OpCache.Act.read r.1 r.2).foldl (OpCache.step .msehtt elems)
        [⟨incidence k o mesh, c, []⟩] = [⟨incidence k o mesh, c', []⟩] ∧
        ∀ ck v, c'.get ck = some v → ∃ e ∈ elems, keyOf k o (mesh e) = ck ∧ matrixOf k o (mesh e) = some v := by
    intro rs
    induction rs with
    | nil => exact fun c hc => ⟨c, rfl, hc⟩
    | cons r rs ih =>
      intro c hc
      obtain ⟨⟨c1, e1, h1⟩, -⟩ := read_leaf elems _ _ hk c hc r.1 r.2
      simp only [List.map_cons, List.foldl_cons, OpCache.step]
      unfold incidence
      rw [e1]
      exact ih c1 h1
  obtain ⟨c, e1, hc⟩ := inv reads [] (by simp [Dict.get])
  have hrun : OpCache.run .msehtt elems (.new (incidence k o mesh) :: reads.map fun r => .read r.1 r.2) =
      [⟨incidence k o mesh, c, []⟩] := by
    rw [← e1]
    rfl
  rw [hrun]
  exact (read_leaf elems _ _ hk c hc 0 e).2 rfl he

example : ∀ e ∈ [0, 1], (matrixOf .k1 .outer ((fun e => if e = 0 then quad1 else triangle1 : ℕ → Elem) e)).isSome = true := by
  decide +kernel

/-- With a quadrilateral and a triangle, the rotation of the triangle is read as that of the quadrilateral. -/
theorem read_incidence_refuted :
    ∃ mesh : ℕ → Elem, (OpCache.read .msehtt [0, 1] (OpCache.run .msehtt [0, 1]
      [.new (incidence .k1 .inner mesh), .read 0 0]) 0 1).2 ≠ matrixOf .k1 .inner (mesh 1) := by
  refine ⟨fun e => if e = 0 then quad1 else triangle1, fun h => ?_⟩
  have h1 := congrArg (Option.map fun E : M => E.2.1) h
  revert h1
  decide +kernel

end Phyem.Reversal
