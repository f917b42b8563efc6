import Verif.Gathering.Lemmas
import Mathlib.Data.List.Zip

/-!
The assignments of the schemes meet the conditions of the loop.
-/

namespace Phyem.Gathering

open Numbering (Comp box)

/-- Index along an axis. -/
def Ix.coord (x : Ix) : ℕ → ℕ
  | 0 => x.i
  | 1 => x.j
  | _ => x.k

/-- Replace the index along an axis. -/
def Ix.set (x : Ix) : ℕ → ℕ → Ix
  | 0, l => ⟨x.t, l, x.j, x.k⟩
  | 1, l => ⟨x.t, x.i, l, x.k⟩
  | _, l => ⟨x.t, x.i, x.j, l⟩

/-- Indices inside the array of the component. -/
def InComp (c : Comp) (x : Ix) : Prop := x.i < c.a ∧ x.j < c.b ∧ x.k < c.c

theorem box_nodup (a b c : ℕ) : (box a b c).Nodup := by
  have h := Numbering.box_map_num ⟨0, a, b, c⟩
  have : ((box a b c).map fun t => (⟨0, a, b, c⟩ : Comp).num t.1 t.2.1 t.2.2).Nodup := by
    rw [h]; exact List.nodup_range'
  exact List.Nodup.of_map _ this

theorem mem_box' {a b c : ℕ} {q : ℕ × ℕ × ℕ} : q ∈ box a b c ↔ q.1 < a ∧ q.2.1 < b ∧ q.2.2 < c :=
  Numbering.mem_box (i := q.1) (j := q.2.1) (k := q.2.2)

theorem axis_cases (axis : ℕ) : axis = 0 ∨ axis = 1 ∨ ∃ n, axis = n + 2 := by
  rcases axis with _ | _ | n
  · exact Or.inl rfl
  · exact Or.inr (Or.inl rfl)
  · exact Or.inr (Or.inr ⟨n, rfl⟩)

theorem mem_face {t : ℕ} {c : Comp} {axis l : ℕ} (h : l < len c axis) {x : Ix} :
    x ∈ face t c axis l ↔ x.t = t ∧ InComp c x ∧ x.coord axis = l := by
  obtain ⟨xt, xi, xj, xk⟩ := x
  rcases axis_cases axis with rfl | rfl | ⟨n, rfl⟩ <;>
    simp only [face, List.mem_map, mem_box', InComp, Ix.coord, Ix.mk.injEq, len] at * <;>
    constructor
  · rintro ⟨q, ⟨h1, h2, h3⟩, rfl, rfl, rfl, rfl⟩; omega
  · rintro ⟨rfl, ⟨h1, h2, h3⟩, rfl⟩; exact ⟨(0, xj, xk), ⟨by simp, h2, h3⟩, rfl, rfl, rfl, rfl⟩
  · rintro ⟨q, ⟨h1, h2, h3⟩, rfl, rfl, rfl, rfl⟩; omega
  · rintro ⟨rfl, ⟨h1, h2, h3⟩, rfl⟩; exact ⟨(xi, 0, xk), ⟨h1, by simp, h3⟩, rfl, rfl, rfl, rfl⟩
  · rintro ⟨q, ⟨h1, h2, h3⟩, rfl, rfl, rfl, rfl⟩; omega
  · rintro ⟨rfl, ⟨h1, h2, h3⟩, rfl⟩; exact ⟨(xi, xj, 0), ⟨h1, h2, by simp⟩, rfl, rfl, rfl, rfl⟩

theorem mem_interior {t : ℕ} {c : Comp} {axis : ℕ} {x : Ix} :
    x ∈ interior t c axis ↔ x.t = t ∧ InComp c x ∧ 0 < x.coord axis ∧ x.coord axis + 1 < len c axis := by
  obtain ⟨xt, xi, xj, xk⟩ := x
  rcases axis_cases axis with rfl | rfl | ⟨n, rfl⟩ <;>
    simp only [interior, List.mem_map, mem_box', InComp, Ix.coord, Ix.mk.injEq, len] <;>
    constructor
  · rintro ⟨q, ⟨h1, h2, h3⟩, rfl, rfl, rfl, rfl⟩; omega
  · rintro ⟨rfl, ⟨h1, h2, h3⟩, h4, h5⟩
    exact ⟨(xi - 1, xj, xk), ⟨by simp only; omega, h2, h3⟩, rfl, by simp only; omega, rfl, rfl⟩
  · rintro ⟨q, ⟨h1, h2, h3⟩, rfl, rfl, rfl, rfl⟩; omega
  · rintro ⟨rfl, ⟨h1, h2, h3⟩, h4, h5⟩
    exact ⟨(xi, xj - 1, xk), ⟨h1, by simp only; omega, h3⟩, rfl, rfl, by simp only; omega, rfl⟩
  · rintro ⟨q, ⟨h1, h2, h3⟩, rfl, rfl, rfl, rfl⟩; omega
  · rintro ⟨rfl, ⟨h1, h2, h3⟩, h4, h5⟩
    exact ⟨(xi, xj, xk - 1), ⟨h1, h2, by simp only; omega⟩, rfl, rfl, rfl, by simp only; omega⟩

theorem face_nodup (t : ℕ) (c : Comp) (axis l : ℕ) : (face t c axis l).Nodup := by
  rcases axis_cases axis with rfl | rfl | ⟨n, rfl⟩ <;> simp only [face] <;>
    refine List.Nodup.map_on ?_ (box_nodup _ _ _) <;>
    rintro ⟨q1, q2, q3⟩ hq ⟨r1, r2, r3⟩ hr e <;>
    simp only [mem_box', Ix.mk.injEq] at hq hr e <;>
    simp only [Prod.mk.injEq] <;> omega

theorem interior_nodup (t : ℕ) (c : Comp) (axis : ℕ) : (interior t c axis).Nodup := by
  rcases axis_cases axis with rfl | rfl | ⟨n, rfl⟩ <;> simp only [interior] <;>
    refine List.Nodup.map_on ?_ (box_nodup _ _ _) <;>
    rintro ⟨q1, q2, q3⟩ hq ⟨r1, r2, r3⟩ hr e <;>
    simp only [Ix.mk.injEq] at e <;>
    simp only [Prod.mk.injEq] <;> omega

theorem face_eq (t : ℕ) (c : Comp) (axis l l' : ℕ) :
    face t c axis l' = (face t c axis l).map fun x => x.set axis l' := by
  rcases axis_cases axis with rfl | rfl | ⟨n, rfl⟩ <;> simp [face, Ix.set, Function.comp_def]

theorem face_length (t : ℕ) (c : Comp) (axis l l' : ℕ) :
    (face t c axis l).length = (face t c axis l').length := by
  rw [face_eq t c axis l' l, List.length_map]

/-- What is needed of a scheme: one axis per component, at least two layers along it. -/
structure SchemeOK (s : Scheme) : Prop where
  len_eq : s.axes.length = s.comps.length
  two : ∀ (t : ℕ) (c : Comp) (axis : ℕ), s.comps[t]? = some c → s.axes[t]? = some axis → 2 ≤ len c axis

theorem mem_parts {s : Scheme} {p : Part} : p ∈ s.parts ↔
    ∃ (t : ℕ) (c : Comp) (axis : ℕ), s.comps[t]? = some c ∧ s.axes[t]? = some axis ∧ p ∈ compParts t c axis := by
  unfold Scheme.parts
  simp only [List.mem_flatMap, List.mem_zipIdx_iff_getElem?]
  constructor
  · rintro ⟨⟨⟨c, axis⟩, t⟩, h, hp⟩
    simp only [List.getElem?_zip_eq_some] at h
    exact ⟨t, c, axis, h.1, h.2, hp⟩
  · rintro ⟨t, c, axis, h1, h2, hp⟩
    refine ⟨⟨⟨c, axis⟩, t⟩, ?_, hp⟩
    simp only [List.getElem?_zip_eq_some]
    exact ⟨h1, h2⟩

theorem mem_compParts {t : ℕ} {c : Comp} {axis : ℕ} {p : Part} (hp : p ∈ compParts t c axis) :
    p = ⟨some (2 * axis), face t c axis 0, face t c axis (len c axis - 1)⟩ ∨
    p = ⟨none, interior t c axis, []⟩ ∨
    p = ⟨some (2 * axis + 1), face t c axis (len c axis - 1), face t c axis 0⟩ := by
  simpa [compParts] using hp

theorem part_t {t : ℕ} {c : Comp} {axis : ℕ} (h2 : 2 ≤ len c axis) {p : Part} (hp : p ∈ compParts t c axis)
    {x : Ix} (hx : x ∈ p.idx) : x.t = t ∧ InComp c x := by
  rcases mem_compParts hp with rfl | rfl | rfl
  · have := (mem_face (by omega)).mp hx; exact ⟨this.1, this.2.1⟩
  · have := mem_interior.mp hx; exact ⟨this.1, this.2.1⟩
  · have := (mem_face (by omega)).mp hx; exact ⟨this.1, this.2.1⟩

/-- The opposite side. -/
def opp (c : ℕ) : ℕ := if c % 2 = 0 then c + 1 else c - 1

theorem opp_even (a : ℕ) : opp (2 * a) = 2 * a + 1 := by unfold opp; rw [if_pos (by omega)]
theorem opp_odd (a : ℕ) : opp (2 * a + 1) = 2 * a := by unfold opp; rw [if_neg (by omega)]; omega

theorem scheme_parts_ok {s : Scheme} (h : SchemeOK s) : PartsOK s.parts opp := by
  constructor
  · intro p hp
    obtain ⟨t, c, axis, h1, h2, hp⟩ := mem_parts.mp hp
    rcases mem_compParts hp with rfl | rfl | rfl
    · exact face_nodup _ _ _ _
    · exact interior_nodup _ _ _
    · exact face_nodup _ _ _ _
  · unfold Scheme.parts
    rw [List.pairwise_flatMap]
    constructor
    · rintro ⟨⟨c, axis⟩, t⟩ hm
      simp only [List.mem_zipIdx_iff_getElem?, List.getElem?_zip_eq_some] at hm
      have h2 := h.two t c axis hm.1 hm.2
      simp only [compParts, List.pairwise_cons, List.mem_cons, List.not_mem_nil, or_false, forall_eq_or_imp,
        forall_eq]
      refine ⟨⟨?_, ?_⟩, ?_, by simp⟩
      · intro x hx hx'
        have a := (mem_face (by omega)).mp hx
        have b := mem_interior.mp hx'
        omega
      · intro x hx hx'
        have a := (mem_face (by omega)).mp hx
        have b := (mem_face (by omega)).mp hx'
        omega
      · intro x hx hx'
        have a := mem_interior.mp hx
        have b := (mem_face (by omega)).mp hx'
        omega
    · rw [List.pairwise_iff_getElem]
      intro i j hi hj hij p hp q hq x hx hx'
      have hi' := hi; have hj' := hj
      rw [List.length_zipIdx, List.length_zip] at hi' hj'
      simp only [List.getElem_zipIdx, List.getElem_zip, Nat.zero_add] at hp hq
      have a := part_t (h.two i _ _ (List.getElem?_eq_getElem (by omega)) (List.getElem?_eq_getElem (by omega))) hp hx
      have b := part_t (h.two j _ _ (List.getElem?_eq_getElem (by omega)) (List.getElem?_eq_getElem (by omega))) hq hx'
      omega
  · intro p hp c hc
    obtain ⟨t, cc, axis, h1, h2, hp⟩ := mem_parts.mp hp
    rcases mem_compParts hp with rfl | rfl | rfl
    · exact face_length _ _ _ _ _
    · simp at hc
    · exact face_length _ _ _ _ _
  · intro p hp c hc
    obtain ⟨t, cc, axis, h1, h2, hp⟩ := mem_parts.mp hp
    rcases mem_compParts hp with rfl | rfl | rfl
    · simp only [Option.some.injEq] at hc
      subst hc
      exact ⟨⟨some (2 * axis + 1), face t cc axis (len cc axis - 1), face t cc axis 0⟩,
        mem_parts.mpr ⟨t, cc, axis, h1, h2, by simp [compParts]⟩, by rw [opp_even], rfl, rfl⟩
    · simp at hc
    · simp only [Option.some.injEq] at hc
      subst hc
      exact ⟨_, mem_parts.mpr ⟨t, cc, axis, h1, h2, List.mem_cons_self⟩, by rw [opp_odd], rfl, rfl⟩

/-- The dofs of an element. -/
def IsDof (s : Scheme) (x : Ix) : Prop := ∃ c, s.comps[x.t]? = some c ∧ InComp c x

theorem valid_iff {s : Scheme} (h : SchemeOK s) {N : ℕ} {x : Entry} :
    Valid s.parts N x ↔ x.1 < N ∧ IsDof s x.2 := by
  unfold Valid IsDof
  refine and_congr Iff.rfl ?_
  constructor
  · rintro ⟨p, hp, hx⟩
    obtain ⟨t, c, axis, h1, h2, hp⟩ := mem_parts.mp hp
    obtain ⟨a, b⟩ := part_t (h.two t c axis h1 h2) hp hx
    exact ⟨c, by rw [a]; exact h1, b⟩
  · rintro ⟨c, hc, hi⟩
    have hlt := (List.getElem?_eq_some_iff.mp hc).1
    obtain ⟨axis, ha⟩ : ∃ axis, s.axes[x.2.t]? = some axis :=
      ⟨_, List.getElem?_eq_getElem (by rw [h.len_eq]; exact hlt)⟩
    have h2 := h.two _ _ _ hc ha
    have hb : x.2.coord axis < len c axis := by
      rcases axis_cases axis with rfl | rfl | ⟨n, rfl⟩ <;> simp only [Ix.coord, len]
      · exact hi.1
      · exact hi.2.1
      · exact hi.2.2
    by_cases e0 : x.2.coord axis = 0
    · exact ⟨_, mem_parts.mpr ⟨_, c, axis, hc, ha, List.mem_cons_self⟩,
        (mem_face (by omega)).mpr ⟨rfl, hi, e0⟩⟩
    · by_cases e1 : x.2.coord axis + 1 = len c axis
      · refine ⟨⟨some (2 * axis + 1), face x.2.t c axis (len c axis - 1), face x.2.t c axis 0⟩,
          mem_parts.mpr ⟨_, c, axis, hc, ha, by simp [compParts]⟩, ?_⟩
        exact (mem_face (by omega)).mpr ⟨rfl, hi, by omega⟩
      · refine ⟨⟨none, interior x.2.t c axis, []⟩, mem_parts.mpr ⟨_, c, axis, hc, ha, by simp [compParts]⟩, ?_⟩
        exact mem_interior.mpr ⟨rfl, hi, by omega, by omega⟩

theorem coord_set (x : Ix) (axis l : ℕ) : (x.set axis l).coord axis = l := by
  rcases axis_cases axis with rfl | rfl | ⟨n, rfl⟩ <;> rfl

theorem set_t (x : Ix) (axis l : ℕ) : (x.set axis l).t = x.t := by
  rcases axis_cases axis with rfl | rfl | ⟨n, rfl⟩ <;> rfl

/-- The two copies of a dof of a shared side, by indices. -/
def Glued (s : Scheme) (nb : ℕ → ℕ → Option ℕ) (x y : Entry) : Prop :=
  ∃ (c : Comp) (axis : ℕ), s.comps[x.2.t]? = some c ∧ s.axes[x.2.t]? = some axis ∧
    ((x.2.coord axis = 0 ∧ nb x.1 (2 * axis) = some y.1 ∧ y.2 = x.2.set axis (len c axis - 1)) ∨
     (x.2.coord axis = len c axis - 1 ∧ nb x.1 (2 * axis + 1) = some y.1 ∧ y.2 = x.2.set axis 0))

theorem shared_iff {s : Scheme} (h : SchemeOK s) {nb : ℕ → ℕ → Option ℕ} {x y : Entry} (hx : IsDof s x.2) :
    Shared s.parts nb x y ↔ Glued s nb x y := by
  unfold Shared Glued
  constructor
  · rintro ⟨p, hp, e, k, he, hnb, h1, h2⟩
    obtain ⟨t, c, axis, hc, ha, hp⟩ := mem_parts.mp hp
    have htwo := h.two t c axis hc ha
    rcases mem_compParts hp with rfl | rfl | rfl
    · simp only [Option.some.injEq] at he
      subst he
      have hm := (mem_face (by omega)).mp (List.mem_of_getElem? h1)
      rw [← hm.1] at hc ha
      simp only at h1 h2
      rw [face_eq t c axis 0, List.getElem?_map, h1] at h2
      simp only [Option.map_some, Option.some.injEq] at h2
      exact ⟨c, axis, hc, ha, Or.inl ⟨hm.2.2, hnb, h2.symm⟩⟩
    · simp at he
    · simp only [Option.some.injEq] at he
      subst he
      have hm := (mem_face (by omega)).mp (List.mem_of_getElem? h1)
      rw [← hm.1] at hc ha
      simp only at h1 h2
      rw [face_eq t c axis (len c axis - 1), List.getElem?_map, h1] at h2
      simp only [Option.map_some, Option.some.injEq] at h2
      exact ⟨c, axis, hc, ha, Or.inr ⟨hm.2.2, hnb, h2.symm⟩⟩
  · rintro ⟨c, axis, hc, ha, hh⟩
    obtain ⟨c', hc', hin⟩ := hx
    rw [hc] at hc'
    simp only [Option.some.injEq] at hc'
    subst hc'
    have htwo := h.two _ c axis hc ha
    rcases hh with ⟨h1, h2, h3⟩ | ⟨h1, h2, h3⟩
    · have hm : x.2 ∈ face x.2.t c axis 0 := (mem_face (by omega)).mpr ⟨rfl, hin, h1⟩
      obtain ⟨k, hk⟩ := List.mem_iff_getElem?.mp hm
      refine ⟨_, mem_parts.mpr ⟨_, c, axis, hc, ha, List.mem_cons_self⟩, _, k, rfl, h2, hk, ?_⟩
      simp only
      rw [face_eq _ c axis 0, List.getElem?_map, hk, h3]
      rfl
    · have hm : x.2 ∈ face x.2.t c axis (len c axis - 1) := (mem_face (by omega)).mpr ⟨rfl, hin, h1⟩
      obtain ⟨k, hk⟩ := List.mem_iff_getElem?.mp hm
      refine ⟨⟨some (2 * axis + 1), face x.2.t c axis (len c axis - 1), face x.2.t c axis 0⟩,
        mem_parts.mpr ⟨_, c, axis, hc, ha, by simp [compParts]⟩, _, k, rfl, h2, hk, ?_⟩
      simp only
      rw [face_eq _ c axis (len c axis - 1), List.getElem?_map, hk, h3]
      rfl

/-! ### Rows -/

theorem row_map (gm : ℕ → Ix → ℤ) (e : ℕ) {comps : List Comp} {n : ℕ} (hs : Numbering.Stacked 0 comps n) :
    (row comps gm e).length = n ∧
    ∀ (x : Ix) (c : Comp), comps[x.t]? = some c → InComp c x →
      (row comps gm e)[c.num x.i x.j x.k]? = some (gm e x) := by
  have aux : ∀ (xs : List Comp) (s e0 off : ℕ), Numbering.Stacked s xs e0 →
      let r := (xs.zipIdx off).flatMap fun q =>
        (box q.1.a q.1.b q.1.c).map fun r => gm e ⟨q.2, r.1, r.2.1, r.2.2⟩
      r.length = e0 - s ∧ ∀ (x : Ix) (c : Comp), off ≤ x.t → xs[x.t - off]? = some c → InComp c x →
        r[c.num x.i x.j x.k - s]? = some (gm e x) := by
    intro xs
    induction xs with
    | nil => intro s e0 off h; simp only [Numbering.Stacked] at h; simp [h]
    | cons y ys ih =>
      intro s e0 off h
      obtain ⟨h1, h2⟩ := h
      have hle := h2.le
      obtain ⟨i1, i2⟩ := ih (s + y.size) e0 (off + 1) h2
      have hlen : ((box y.a y.b y.c).map fun r => gm e ⟨off, r.1, r.2.1, r.2.2⟩).length = y.size := by
        have := congrArg List.length (Numbering.box_map_num y)
        simpa using this
      simp only [List.zipIdx_cons, List.flatMap_cons]
      constructor
      · rw [List.length_append, hlen, i1]; omega
      · intro x c hx hc hin
        by_cases hxo : x.t = off
        · rw [hxo] at hc
          simp only [Nat.sub_self, List.getElem?_cons_zero, Option.some.injEq] at hc
          subst hc
          have hb := Numbering.num_lt y (i := x.i) (j := x.j) (k := x.k) hin
          rw [List.getElem?_append_left (by omega), List.getElem?_map]
          have hm : (x.i, x.j, x.k) ∈ box y.a y.b y.c := Numbering.mem_box.mpr hin
          obtain ⟨k, hk⟩ := List.mem_iff_getElem?.mp hm
          have hk2 := congrArg (fun l => l[k]?) (Numbering.box_map_num y)
          simp only [List.getElem?_map, hk, Option.map_some] at hk2
          have hk3 := (List.getElem?_eq_some_iff.mp hk2.symm)
          obtain ⟨hk4, hk5⟩ := hk3
          simp only [List.getElem_range', Nat.one_mul] at hk5
          have hki : y.num x.i x.j x.k - s = k := by omega
          rw [hki, hk]
          simp only [Option.map_some, Option.some.injEq]
          rw [← hxo]
        · have hb := h2.bounds (x.t - (off + 1)) c (by
            have : x.t - off = (x.t - (off + 1)) + 1 := by omega
            rw [this] at hc; simpa using hc)
          have hb2 := Numbering.num_lt c (i := x.i) (j := x.j) (k := x.k) hin
          rw [List.getElem?_append_right (by omega), hlen]
          have := i2 x c (by omega) (by
            have h' : x.t - off = (x.t - (off + 1)) + 1 := by omega
            rw [h'] at hc; simpa using hc) hin
          rw [← this]
          congr 1
          omega
  obtain ⟨a, b⟩ := aux comps 0 n 0 hs
  constructor
  · unfold row; simpa using a
  · intro x c hc hin
    have := b x c (by omega) (by simpa using hc) hin
    unfold row
    simpa using this

end Phyem.Gathering
