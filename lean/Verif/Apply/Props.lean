import Verif.Apply.Model
import Mathlib.Data.List.Nodup

/-! Which counterparts there are. -/

namespace Phyem.Apply

open Phyem.Dict

lemma general_get : ∀ (fs : List AForm) (d : Dict ℕ PForm), (fs.map (·.pure)).Nodup → (∀ f ∈ fs, f.pure ∉ keys d) → ∀ p x, get (general fs d) p = some x ↔
    get d p = some x ∨ ∃ f ∈ fs, f.base = none ∧ f.pure = p ∧ x = ⟨f, none⟩
  | [], d, _, _, p, x => by simp [general]
  | f :: fs, d, hn, hd, p, x => by
    rw [List.map_cons, List.nodup_cons] at hn
    have hf : get d f.pure = none := (get_eq_none d f.pure).2 (hd f List.mem_cons_self)
    have hd' : ∀ g ∈ fs, g.pure ∉ keys (if f.base = none then put d f.pure ⟨f, none⟩ else d) := by
      intro g hg
      have h1 := hd g (List.mem_cons_of_mem _ hg)
      have h2 : g.pure ≠ f.pure := fun e => hn.1 (e ▸ List.mem_map.2 ⟨g, hg, rfl⟩)
      split
      · rw [mem_keys_put]; rintro (h | h)
        · exact h2 h
        · exact h1 h
      · exact h1
    rw [general, general_get fs _ hn.2 hd' p x]
    by_cases hb : f.base = none
    · rw [if_pos hb, get_put]
      by_cases hp : p = f.pure
      · subst hp
        simp only [if_true, hf, List.mem_cons, reduceCtorEq, false_or, Option.some.injEq]
        constructor
        · rintro (h | ⟨g, hg, h⟩)
          · exact ⟨f, Or.inl rfl, hb, rfl, h.symm⟩
          · exact ⟨g, Or.inr hg, h⟩
        · rintro ⟨g, rfl | hg, h1, h2, h3⟩
          · exact Or.inl h3.symm
          · exact Or.inr ⟨g, hg, h1, h2, h3⟩
      · rw [if_neg hp]
        constructor
        · rintro (h | ⟨g, hg, h⟩)
          · exact Or.inl h
          · exact Or.inr ⟨g, List.mem_cons_of_mem _ hg, h⟩
        · rintro (h | ⟨g, hg, h1, h2, h3⟩)
          · exact Or.inl h
          · rcases List.mem_cons.1 hg with rfl | hg
            · exact absurd h2.symm hp
            · exact Or.inr ⟨g, hg, h1, h2, h3⟩
    · rw [if_neg hb]
      constructor
      · rintro (h | ⟨g, hg, h⟩)
        · exact Or.inl h
        · exact Or.inr ⟨g, List.mem_cons_of_mem _ hg, h⟩
      · rintro (h | ⟨g, hg, h1, h2⟩)
        · exact Or.inl h
        · rcases List.mem_cons.1 hg with rfl | hg
          · exact absurd h1 hb
          · exact Or.inr ⟨g, hg, h1, h2⟩

lemma instants_spec : ∀ (fs : List AForm) (d : Dict ℕ PForm) (ats : List (ℕ × ℕ)), (fs.map (·.pure)).Nodup → (∀ f ∈ fs, f.base ≠ none → f.pure ∉ keys d) →
    (∀ f ∈ fs, ∀ b, f.base = some b → b ∈ keys d) → ∃ d' ats', instants fs (d, ats) = some (d', ats') ∧
    (∀ p x, get d' p = some x ↔ get d p = some x ∨ ∃ f ∈ fs, f.base ≠ none ∧ f.pure = p ∧ x = ⟨f, f.base⟩) ∧
    ∀ b p, (b, p) ∈ ats' ↔ (b, p) ∈ ats ∨ ∃ f ∈ fs, f.base = some b ∧ f.pure = p
  | [], d, ats, _, _, _ => ⟨d, ats, rfl, by simp, by simp⟩
  | f :: fs, d, ats, hn, hd, hb => by
    rw [List.map_cons, List.nodup_cons] at hn
    cases hf : f.base with
    | none =>
      obtain ⟨d', ats', h1, h2, h3⟩ := instants_spec fs d ats hn.2 (fun g hg => hd g (List.mem_cons_of_mem _ hg)) (fun g hg => hb g (List.mem_cons_of_mem _ hg))
      refine ⟨d', ats', by rw [instants, hf]; exact h1, fun p x => ?_, fun b p => ?_⟩
      · rw [h2]; simp [hf]
      · rw [h3]; simp [hf]
    | some b =>
      have hbk := hb f List.mem_cons_self b hf
      have hfk : get d f.pure = none := (get_eq_none d f.pure).2 (hd f List.mem_cons_self (by rw [hf]; simp))
      obtain ⟨d', ats', h1, h2, h3⟩ := instants_spec fs (put d f.pure ⟨f, some b⟩) ((b, f.pure) :: ats) hn.2
        (fun g hg hgb => by
          rw [mem_keys_put]
          rintro (h | h)
          · exact hn.1 (h ▸ List.mem_map.2 ⟨g, hg, rfl⟩)
          · exact hd g (List.mem_cons_of_mem _ hg) hgb h)
        (fun g hg c hc => by rw [mem_keys_put]; exact Or.inr (hb g (List.mem_cons_of_mem _ hg) c hc))
      refine ⟨d', ats', by rw [instants, hf]; simp only; rw [if_pos hbk]; exact h1, fun p x => ?_, fun c p => ?_⟩
      · rw [h2, get_put]
        by_cases hp : p = f.pure
        · subst hp
          simp only [if_true, hfk, Option.some.injEq, List.mem_cons, reduceCtorEq, false_or]
          constructor
          · rintro (h | ⟨g, hg, h⟩)
            · exact ⟨f, Or.inl rfl, by rw [hf]; simp, rfl, by rw [hf]; exact h.symm⟩
            · exact ⟨g, Or.inr hg, h⟩
          · rintro ⟨g, rfl | hg, h4, h5, h6⟩
            · exact Or.inl (by rw [hf] at h6; exact h6.symm)
            · exact Or.inr ⟨g, hg, h4, h5, h6⟩
        · rw [if_neg hp]
          constructor
          · rintro (h | ⟨g, hg, h⟩)
            · exact Or.inl h
            · exact Or.inr ⟨g, List.mem_cons_of_mem _ hg, h⟩
          · rintro (h | ⟨g, hg, h4, h5, h6⟩)
            · exact Or.inl h
            · rcases List.mem_cons.1 hg with rfl | hg
              · exact absurd h5.symm hp
              · exact Or.inr ⟨g, hg, h4, h5, h6⟩
      · rw [h3, List.mem_cons, Prod.mk.injEq]
        constructor
        · rintro ((⟨rfl, rfl⟩ | h) | ⟨g, hg, h⟩)
          · exact Or.inr ⟨f, List.mem_cons_self, hf, rfl⟩
          · exact Or.inl h
          · exact Or.inr ⟨g, List.mem_cons_of_mem _ hg, h⟩
        · rintro (h | ⟨g, hg, h4, h5⟩)
          · exact Or.inl (Or.inr h)
          · rcases List.mem_cons.1 hg with rfl | hg
            · rw [hf] at h4
              exact Or.inl (Or.inl ⟨(Option.some.inj h4).symm, h5.symm⟩)
            · exact Or.inr ⟨g, hg, h4, h5⟩

lemma keys_general (fs : List AForm) (hn : (fs.map (·.pure)).Nodup) (p : ℕ) : p ∈ keys (general fs []) ↔ ∃ f ∈ fs, f.base = none ∧ f.pure = p := by
  rw [← get_isSome, Option.isSome_iff_exists]
  constructor
  · rintro ⟨x, hx⟩
    rcases (general_get fs [] hn (by simp [keys]) p x).1 hx with h | ⟨f, hf, h1, h2, -⟩
    · cases h
    · exact ⟨f, hf, h1, h2⟩
  · rintro ⟨f, hf, h1, h2⟩
    exact ⟨⟨f, none⟩, (general_get fs [] hn (by simp [keys]) p _).2 (Or.inr ⟨f, hf, h1, h2, rfl⟩)⟩

lemma forms_aux (fs : List AForm) (hn : (fs.map (·.pure)).Nodup) (hb : ∀ f ∈ fs, ∀ b, f.base = some b → ∃ g ∈ fs, g.pure = b ∧ g.base = none) :
    ∃ d ats, instants fs (general fs [], []) = some (d, ats) ∧ (keys d).Nodup ∧ (∀ p x, get d p = some x ↔ ∃ f ∈ fs, f.pure = p ∧ x = ⟨f, f.base⟩) ∧
    ∀ b p, (b, p) ∈ ats ↔ ∃ f ∈ fs, f.base = some b ∧ f.pure = p := by
  have hk := keys_general fs hn
  obtain ⟨d, ats, h1, h2, h3⟩ := instants_spec fs (general fs []) [] hn
    (fun f hf hfb hc => by
      obtain ⟨g, hg, h4, h5⟩ := (hk _).1 hc
      have := List.inj_on_of_nodup_map hn hg hf h5
      subst this
      exact hfb h4)
    (fun f hf b hfb => (hk b).2 (by obtain ⟨g, hg, h4, h5⟩ := hb f hf b hfb; exact ⟨g, hg, h5, h4⟩))
  have hget : ∀ p x, get d p = some x ↔ ∃ f ∈ fs, f.pure = p ∧ x = ⟨f, f.base⟩ := by
    intro p x
    rw [h2, general_get fs [] hn (by simp [keys])]
    constructor
    · rintro ((h | ⟨f, hf, h4, h5, h6⟩) | ⟨f, hf, -, h5, h6⟩)
      · cases h
      · exact ⟨f, hf, h5, by rw [h4]; exact h6⟩
      · exact ⟨f, hf, h5, h6⟩
    · rintro ⟨f, hf, h5, h6⟩
      by_cases hc : f.base = none
      · exact Or.inl (Or.inr ⟨f, hf, hc, h5, by rw [← hc]; exact h6⟩)
      · exact Or.inr ⟨f, hf, hc, h5, h6⟩
  have hnd : ∀ (fs : List AForm) (d : Dict ℕ PForm), (keys d).Nodup → (keys (general fs d)).Nodup := by
    intro fs
    induction fs with
    | nil => exact fun d h => h
    | cons f fs ih =>
      intro d h
      rw [general]
      refine ih _ ?_
      split
      · exact nodup_put _ _ _ h
      · exact h
  have hnd2 : ∀ (fs : List AForm) (s s' : Dict ℕ PForm × List (ℕ × ℕ)), (keys s.1).Nodup → instants fs s = some s' → (keys s'.1).Nodup := by
    intro fs
    induction fs with
    | nil => intro s s' h e; rw [instants, Option.some.injEq] at e; subst e; exact h
    | cons f fs ih =>
      rintro ⟨d, ats⟩ s' h e
      rw [instants] at e
      split at e
      · exact ih _ _ h e
      · split at e
        · exact ih _ _ (nodup_put _ _ _ h) e
        · cases e
  exact ⟨d, ats, h1, hnd2 fs _ _ (hnd fs [] List.nodup_nil) h1, hget, fun b p => by rw [h3]; simp⟩

/-- C204: root-forms with different representations whose base forms are root-forms, are all implemented if all have a degree, and none otherwise, in whatever order they were registered:
each has one counterpart, which is made of it and belongs to the counterpart of its base form. The forms at time instants that a form knows are those of
which it is the base form. -/
theorem rootForms_spec (fs : List AForm) (hn : (fs.map (·.pure)).Nodup) (hb : ∀ f ∈ fs, ∀ b, f.base = some b → ∃ g ∈ fs, g.pure = b ∧ g.base = none) :
    ((rootForms fs).isSome ↔ ∀ f ∈ fs, f.degree = true) ∧ ∀ d ats, rootForms fs = some (d, ats) →
      (∀ p x, get d p = some x ↔ ∃ f ∈ fs, f.pure = p ∧ x = ⟨f, f.base⟩) ∧ ∀ b p, (b, p) ∈ ats ↔ ∃ f ∈ fs, f.base = some b ∧ f.pure = p := by
  obtain ⟨d, ats, h1, hk, h2, h3⟩ := forms_aux fs hn hb
  have hall : (d.all fun p => p.2.abs.degree) = true ↔ ∀ f ∈ fs, f.degree = true := by
    rw [List.all_eq_true]
    constructor
    · intro h f hf
      exact h _ (get_mem d f.pure _ ((h2 f.pure ⟨f, f.base⟩).2 ⟨f, hf, rfl, rfl⟩))
    · rintro h ⟨p, x⟩ hp
      obtain ⟨f, hf, -, h5⟩ := (h2 p x).1 (get_of_mem d hk p x hp)
      rw [h5]
      exact h f hf
  rw [← hall]
  simp only [rootForms, h1, Option.bind_some]
  constructor
  · split
    · rename_i h; exact ⟨fun _ => h, fun _ => rfl⟩
    · rename_i h; exact ⟨fun e => (by cases e), fun e => absurd e h⟩
  · intro d' ats' e
    split at e
    · cases e
      exact ⟨h2, h3⟩
    · cases e

/-- The counterpart of an object in an implementation. -/
inductive Counterpart {P : Type} (I : Impl P) : Obj → P → Prop where
  | manifold (s q) : get I.manifolds s = some q → Counterpart I (.manifold s) q
  | mesh (s q) : get I.meshes s = some q → Counterpart I (.mesh s) q
  | space (s q) : get I.spaces s = some q → Counterpart I (.space s) q
  | form (p q) : get I.forms p = some q → Counterpart I (.form true p) q
  | other (i q) : I.parse i = some q → Counterpart I (.other i) q

lemma parseObj_iff {P : Type} (I : Impl P) (o : Obj) (q : P) : parseObj I o = some (some q) ↔ Counterpart I o q := by
  constructor
  · intro h
    cases o with
    | manifold s => exact .manifold s q (by simpa [parseObj] using h)
    | mesh s => exact .mesh s q (by simpa [parseObj] using h)
    | space s => exact .space s q (by simpa [parseObj] using h)
    | form b p => cases b with
      | true => exact .form p q (by simpa [parseObj] using h)
      | false => simp [parseObj] at h
    | other i => exact .other i q (by simpa [parseObj] using h)
  · intro h
    cases h with
    | manifold s q h => simp [parseObj, h]
    | mesh s q h => simp [parseObj, h]
    | space s q h => simp [parseObj, h]
    | form p q h => simp [parseObj, h]
    | other i q h => simp [parseObj, h]

/-- C205: names are given counterparts one by one. There is an error iff a manifold or a mesh is given that the implementation does not have; otherwise
exactly the names of objects with a counterpart are there, with this counterpart. -/
theorem objects_spec {P : Type} (I : Impl P) (objs : Dict ℕ Obj) (hn : (keys objs).Nodup) :
    ((objects I objs []).isSome ↔ ∀ n o, (n, o) ∈ objs → (∀ s, o = .manifold s → s ∈ keys I.manifolds) ∧ ∀ s, o = .mesh s → s ∈ keys I.meshes) ∧
    ∀ r, objects I objs [] = some r → ∀ n q, get r n = some q ↔ ∃ o, (n, o) ∈ objs ∧ Counterpart I o q := by
  have hp : ∀ o, (parseObj I o).isSome ↔ (∀ s, o = .manifold s → s ∈ keys I.manifolds) ∧ ∀ s, o = .mesh s → s ∈ keys I.meshes := by
    intro o
    cases o with
    | manifold s => simp [parseObj, get_isSome]
    | mesh s => simp [parseObj, get_isSome]
    | space s => simp [parseObj]
    | form b p => cases b <;> simp [parseObj]
    | other i => simp [parseObj]
  have key : ∀ (l : Dict ℕ Obj) (r0 : Dict ℕ P), (keys l).Nodup → (∀ n ∈ keys l, get r0 n = none) →
      ((objects I l r0).isSome ↔ ∀ n o, (n, o) ∈ l → (parseObj I o).isSome) ∧
      ∀ r, objects I l r0 = some r → ∀ n q, get r n = some q ↔ get r0 n = some q ∨ ∃ o, (n, o) ∈ l ∧ parseObj I o = some (some q) := by
    intro l
    induction l with
    | nil =>
      intro r0 _ _
      refine ⟨by simp [objects], fun r h n q => ?_⟩
      rw [objects, Option.some.injEq] at h
      subst h
      simp
    | cons a l ih =>
      obtain ⟨m, o⟩ := a
      intro r0 hl h0
      have hl' : m ∉ keys l ∧ (keys l).Nodup := by simpa [keys] using hl
      have hm : get r0 m = none := h0 m (by simp [keys])
      cases hpo : parseObj I o with
      | none =>
        refine ⟨?_, fun r h => ?_⟩
        · simp only [objects, hpo, Option.bind_none, Option.isSome_none, Bool.false_eq_true, false_iff]
          intro h
          have := h m o List.mem_cons_self
          rw [hpo] at this
          cases this
        · simp only [objects, hpo, Option.bind_none] at h
          cases h
      | some p =>
        have hstep : objects I ((m, o) :: l) r0 = objects I l (keep r0 m p) := by simp only [objects, hpo, Option.bind_some]
        have h1 : ∀ n ∈ keys l, get (keep r0 m p) n = none := by
          intro n hnl
          have hne : n ≠ m := fun e => hl'.1 (e ▸ hnl)
          have := h0 n (by simp only [keys, List.map_cons, List.mem_cons]; exact Or.inr hnl)
          cases p with
          | none => exact this
          | some q => simp only [keep, get_put, if_neg hne]; exact this
        obtain ⟨h2, h3⟩ := ih _ hl'.2 h1
        rw [hstep]
        refine ⟨?_, fun r hr n q => ?_⟩
        · rw [h2]
          constructor
          · intro h n o' hm'
            rcases List.mem_cons.1 hm' with e | hm'
            · cases e; rw [hpo]; rfl
            · exact h n o' hm'
          · exact fun h n o' hm' => h n o' (List.mem_cons_of_mem _ hm')
        · rw [h3 r hr n q]
          constructor
          · rintro (h | ⟨o', ho, hq⟩)
            · cases p with
              | none => exact Or.inl h
              | some q' =>
                simp only [keep, get_put] at h
                split at h
                · rename_i e
                  subst e
                  exact Or.inr ⟨o, List.mem_cons_self, by rw [hpo]; exact congrArg some h⟩
                · exact Or.inl h
            · exact Or.inr ⟨o', List.mem_cons_of_mem _ ho, hq⟩
          · rintro (h | ⟨o', ho, hq⟩)
            · left
              have hne : n ≠ m := fun e => by rw [e, hm] at h; cases h
              cases p with
              | none => exact h
              | some q' => simp only [keep, get_put, if_neg hne]; exact h
            · rcases List.mem_cons.1 ho with e | ho
              · cases e
                rw [hpo, Option.some.injEq] at hq
                subst hq
                left
                simp [keep, get_put]
              · exact Or.inr ⟨o', ho, hq⟩
  obtain ⟨h1, h2⟩ := key objs [] hn (fun _ _ => rfl)
  refine ⟨by rw [h1]; simp only [hp], fun r hr n q => ?_⟩
  rw [h2 r hr n q]
  simp only [parseObj_iff]
  constructor
  · rintro (h | h)
    · cases h
    · exact h
  · exact Or.inr

end Phyem.Apply
