import Mathlib.Tactic.Common
import Mathlib.Order.Lattice
import Mathlib.Algebra.Order.Group.Nat

/-!
# Levels of meshes, spaces and forms

Model of `get_level` of the great mesh (`/repo/msehtt/multigrid/mesh/great/main.py:18-188`), partial meshes (`mesh/partial/main.py:60-76`), spaces
(`space/main.py:34-49`) and forms (`form/main.py:138-184`) of multigrid, and of `find_level` (`mesh/great/main.py:174-188`). Objects are numbers that are
given in the order in which objects are made. The great mesh is configured with the uniform method. Left out: what the meshes are, and that a
partial mesh that includes other partial meshes first asks these for the same level (`mesh/partial/main.py:78-96`).
-/

namespace Phyem.Passing.Levels

/-- A form on a level: itself, its great mesh, its partial mesh, its space, and its base form if it is at a time (`form/main.py:149-178`). -/
structure FormObj where
  id : ℕ
  tgm : ℕ
  tpm : ℕ
  space : ℕ
  base : Option ℕ
deriving DecidableEq

/-- What does not change: the number of levels, the partial mesh of each space, the partial mesh and space of each form, the base form of a form at a time,
and the forms at times of a base form (`/repo/msehtt/multigrid/main.py:115-224`). -/
structure Setting where
  max : ℕ
  spaceMesh : ℕ → ℕ
  formMesh : ℕ → ℕ
  formSpace : ℕ → ℕ
  baseOf : ℕ → Option ℕ
  particular : ℕ → List ℕ

/-- The dictionaries `_levels` of all objects, and the forms at times that belong to base forms on a level. -/
structure St where
  next : ℕ
  great : ℕ → Option ℕ
  part : ℕ → ℕ → Option (ℕ × ℕ)
  space : ℕ → ℕ → Option (ℕ × ℕ)
  form : ℕ → ℕ → Option FormObj
  inner : ℕ → ℕ → Option FormObj

/-- At the beginning: the base mesh (`mesh/great/main.py:21-36`). -/
def init : St := ⟨1, fun l => if l = 0 then some 0 else none, fun _ _ => none, fun _ _ => none, fun _ _ => none, fun _ _ => none⟩

/-- One entry more in a table. -/
def put {α : Type} (t : ℕ → ℕ → Option α) (a l : ℕ) (v : α) : ℕ → ℕ → Option α := fun a' l' => if a' = a ∧ l' = l then some v else t a' l'

/-- `get_level` of the great mesh (`mesh/great/main.py:78-115`). -/
def askGreat (c : Setting) (l : ℕ) (s : St) : Option (St × ℕ) :=
  match s.great l with
  | some i => some (s, i)
  | none =>
    if 1 ≤ l ∧ l < c.max then
      some ({ s with next := s.next + 1, great := fun l' => if l' = l then some s.next else s.great l' }, s.next)
    else none

/-- `get_level` of a partial mesh (`mesh/partial/main.py:60-76`). -/
def askPart (c : Setting) (p l : ℕ) (s : St) : Option (St × ℕ) :=
  match s.part p l with
  | some o => some (s, o.1)
  | none => (askGreat c l s).map fun r =>
      ({ r.1 with next := r.1.next + 1, part := put r.1.part p l (r.1.next, r.2) }, r.1.next)

/-- `get_level` of a space (`space/main.py:34-49`). -/
def askSpace (c : Setting) (a l : ℕ) (s : St) : Option (St × ℕ) :=
  match s.space a l with
  | some o => some (s, o.1)
  | none => (askPart c (c.spaceMesh a) l s).map fun r =>
      ({ r.1 with next := r.1.next + 1, space := put r.1.space a l (r.1.next, r.2) }, r.1.next)

/-- The forms at times that are made with a base form on a level (`form/main.py:158-178`). -/
def makeInner (o : FormObj) (l : ℕ) : List ℕ → St → St
  | [], s => s
  | f :: fs, s => makeInner o l fs { s with next := s.next + 1, inner := put s.inner f l ⟨s.next, o.tgm, o.tpm, o.space, some o.id⟩ }

/-- `get_level` of a base form (`form/main.py:144-178`). -/
def askBase (c : Setting) (f l : ℕ) (s : St) : Option (St × FormObj) :=
  match s.form f l with
  | some o => some (s, o)
  | none =>
    (askGreat c l { s with next := s.next + 1 }).bind fun g =>
    (askPart c (c.formMesh f) l g.1).bind fun p =>
    (askSpace c (c.formSpace f) l p.1).map fun q =>
      let o : FormObj := ⟨s.next, g.2, p.2, q.2, none⟩
      (makeInner o l (c.particular f) { q.1 with form := put q.1.form f l o }, o)

/-- `get_level` of a form (`form/main.py:138-184`). -/
def askForm (c : Setting) (f l : ℕ) (s : St) : Option (St × FormObj) :=
  match c.baseOf f with
  | none => askBase c f l s
  | some b =>
    match s.form f l with
    | some o => some (s, o)
    | none => (askBase c b l s).bind fun r => (r.1.inner f l).map fun o => ({ r.1 with form := put r.1.form f l o }, o)

/-- What a user asks; without a level it is the finest one (`mesh/great/main.py:80-81, 124-131`). -/
inductive Op
  | great (l : Option ℕ)
  | part (p : ℕ) (l : Option ℕ)
  | space (a : ℕ) (l : Option ℕ)
  | form (f : ℕ) (l : Option ℕ)

/-- The level of a request; there is none if there are no levels at all. -/
def levelOf (c : Setting) : Option ℕ → Option ℕ
  | some l => some l
  | none => if c.max = 0 then none else some (c.max - 1)

/-- A request: the object, or `none` for an exception, after which nothing has changed. -/
def step (c : Setting) (s : St) : Op → St × Option ℕ
  | .great l => ((levelOf c l).bind fun l => askGreat c l s).elim (s, none) fun r => (r.1, some r.2)
  | .part p l => ((levelOf c l).bind fun l => askPart c p l s).elim (s, none) fun r => (r.1, some r.2)
  | .space a l => ((levelOf c l).bind fun l => askSpace c a l s).elim (s, none) fun r => (r.1, some r.2)
  | .form f l => ((levelOf c l).bind fun l => askForm c f l s).elim (s, none) fun r => (r.1, some r.2.id)

/-- All requests so far. -/
def run (c : Setting) (s : St) (ops : List Op) : St := ops.foldl (fun s o => (step c s o).1) s

/-- `find_level` (`mesh/great/main.py:174-188`) for levels below a bound: the level whose mesh is that of the form. -/
def findLevel (s : St) (o : FormObj) (bound : ℕ) : Option ℕ := (List.range bound).find? fun l => s.great l = some o.tgm

/-! ### What is kept -/

/-- **Specification.** Everything that was made stays. -/
structure Ext (s t : St) : Prop where
  next : s.next ≤ t.next
  great : ∀ l i, s.great l = some i → t.great l = some i
  part : ∀ p l o, s.part p l = some o → t.part p l = some o
  space : ∀ p l o, s.space p l = some o → t.space p l = some o
  form : ∀ p l o, s.form p l = some o → t.form p l = some o
  inner : ∀ p l o, s.inner p l = some o → t.inner p l = some o

/-- Which form a form object is for: itself if it is at a time, else the base form. -/
structure Good (c : Setting) (s : St) : Prop where
  zero : ∃ i, s.great 0 = some i
  lt : ∀ l i, s.great l = some i → i < s.next
  inj : ∀ l l' i, s.great l = some i → s.great l' = some i → l = l'
  bound : ∀ l i, s.great l = some i → l = 0 ∨ l < c.max
  part : ∀ p l o, s.part p l = some o → s.great l = some o.2
  space : ∀ a l o, s.space a l = some o → ∃ t, s.part (c.spaceMesh a) l = some (o.2, t)
  base : ∀ f l o, c.baseOf f = none → s.form f l = some o → o.base = none ∧ s.great l = some o.tgm ∧
    (∃ t, s.part (c.formMesh f) l = some (o.tpm, t)) ∧ (∃ t, s.space (c.formSpace f) l = some (o.space, t)) ∧
    ∀ g ∈ c.particular f, ∃ o', s.inner g l = some o' ∧ o'.tgm = o.tgm ∧ o'.tpm = o.tpm ∧ o'.space = o.space ∧ o'.base = some o.id
  timed : ∀ f l o, c.baseOf f ≠ none → s.form f l = some o → s.inner f l = some o
  inner : ∀ f l o, s.inner f l = some o → ∃ b ob, c.baseOf f = some b ∧ s.form b l = some ob ∧ o.base = some ob.id ∧ o.tgm = ob.tgm ∧ o.tpm = ob.tpm ∧ o.space = ob.space

lemma Ext.refl (s : St) : Ext s s := ⟨le_refl _, fun _ _ h => h, fun _ _ _ h => h, fun _ _ _ h => h, fun _ _ _ h => h, fun _ _ _ h => h⟩

lemma Ext.trans {s t u : St} (h : Ext s t) (k : Ext t u) : Ext s u :=
  ⟨h.next.trans k.next, fun l i x => k.great l i (h.great l i x), fun p l o x => k.part p l o (h.part p l o x), fun p l o x => k.space p l o (h.space p l o x),
    fun p l o x => k.form p l o (h.form p l o x), fun p l o x => k.inner p l o (h.inner p l o x)⟩

lemma put_new {α : Type} {t : ℕ → ℕ → Option α} {a l : ℕ} {v : α} : put t a l v a l = some v := if_pos ⟨rfl, rfl⟩

lemma put_old {α : Type} {t : ℕ → ℕ → Option α} {a l : ℕ} {v : α} (hn : t a l = none) {a' l' : ℕ} {o : α} (h : t a' l' = some o) : put t a l v a' l' = some o := by
  unfold put
  rw [if_neg]
  · exact h
  · rintro ⟨rfl, rfl⟩
    rw [hn] at h; cases h

lemma put_cases {α : Type} {t : ℕ → ℕ → Option α} {a l : ℕ} {v : α} {a' l' : ℕ} {o : α} (h : put t a l v a' l' = some o) :
    (a' = a ∧ l' = l ∧ o = v) ∨ t a' l' = some o := by
  unfold put at h
  split_ifs at h with hc
  · exact Or.inl ⟨hc.1, hc.2, (Option.some.inj h).symm⟩
  · exact Or.inr h

lemma init_good (c : Setting) : Good c init := by
  have h0 : ∀ l i, init.great l = some i → l = 0 ∧ i = 0 := fun l i h => by
    unfold init at h
    dsimp only at h
    split_ifs at h with hl
    exact ⟨hl, (Option.some.inj h).symm⟩
  exact ⟨⟨0, rfl⟩, fun l i h => by rw [(h0 l i h).2]; exact Nat.one_pos, fun l l' i h h' => (h0 _ _ h).1.trans (h0 _ _ h').1.symm,
    fun l i h => Or.inl (h0 _ _ h).1, fun _ _ _ h => (by cases h), fun _ _ _ h => (by cases h), fun _ _ _ _ h => (by cases h), fun _ _ _ _ h => (by cases h),
    fun _ _ _ h => by cases h⟩

lemma next_good {c : Setting} {s : St} (h : Good c s) : Good c { s with next := s.next + 1 } :=
  ⟨h.zero, fun l i hi => (h.lt l i hi).trans (Nat.lt_succ_self _), h.inj, h.bound, h.part, h.space, h.base, h.timed, h.inner⟩

lemma great_ok {c : Setting} {s t : St} {l i : ℕ} (h : Good c s) (ha : askGreat c l s = some (t, i)) :
    Good c t ∧ Ext s t ∧ t.great l = some i ∧ t.part = s.part ∧ t.space = s.space ∧ t.form = s.form ∧ t.inner = s.inner := by
  unfold askGreat at ha
  cases hg : s.great l with
  | some j =>
    rw [hg] at ha
    obtain ⟨rfl, rfl⟩ := Prod.mk.inj (Option.some.inj ha)
    exact ⟨h, Ext.refl _, hg, rfl, rfl, rfl, rfl⟩
  | none =>
    rw [hg] at ha
    dsimp only at ha
    split_ifs at ha with hl
    obtain ⟨rfl, rfl⟩ := Prod.mk.inj (Option.some.inj ha)
    have hold : ∀ l' j, s.great l' = some j → (if l' = l then some s.next else s.great l') = some j := fun l' j hj => by
      rw [if_neg]
      · exact hj
      · rintro rfl; rw [hg] at hj; cases hj
    have hcase : ∀ l' j, (if l' = l then some s.next else s.great l') = some j → (l' = l ∧ j = s.next) ∨ s.great l' = some j := fun l' j hj => by
      split_ifs at hj with hc
      · exact Or.inl ⟨hc, (Option.some.inj hj).symm⟩
      · exact Or.inr hj
    refine ⟨⟨?_, ?_, ?_, ?_, ?_, h.space, ?_, h.timed, h.inner⟩, ⟨Nat.le_succ _, hold, fun _ _ _ h => h, fun _ _ _ h => h, fun _ _ _ h => h, fun _ _ _ h => h⟩, if_pos rfl, rfl, rfl, rfl, rfl⟩
    · obtain ⟨i, hi⟩ := h.zero; exact ⟨i, hold _ _ hi⟩
    · intro l' j hj
      rcases hcase _ _ hj with ⟨-, rfl⟩ | hj
      · exact Nat.lt_succ_self _
      · exact (h.lt _ _ hj).trans (Nat.lt_succ_self _)
    · intro l' l'' j hj hj'
      rcases hcase _ _ hj with ⟨rfl, rfl⟩ | hk
      · rcases hcase _ _ hj' with ⟨rfl, -⟩ | hk'
        · rfl
        · exact absurd (h.lt _ _ hk') (lt_irrefl _)
      · rcases hcase _ _ hj' with ⟨rfl, rfl⟩ | hk'
        · exact absurd (h.lt _ _ hk) (lt_irrefl _)
        · exact h.inj _ _ _ hk hk'
    · intro l' j hj
      rcases hcase _ _ hj with ⟨rfl, -⟩ | hj
      · exact Or.inr hl.2
      · exact h.bound _ _ hj
    · exact fun p l' o ho => hold _ _ (h.part p l' o ho)
    · intro f l' o hb ho
      obtain ⟨h1, h2, h3⟩ := h.base f l' o hb ho
      exact ⟨h1, hold _ _ h2, h3⟩

lemma part_ok {c : Setting} {s t : St} {p l i : ℕ} (h : Good c s) (ha : askPart c p l s = some (t, i)) :
    Good c t ∧ Ext s t ∧ (∃ g, t.part p l = some (i, g)) ∧ t.space = s.space ∧ t.form = s.form ∧ t.inner = s.inner := by
  unfold askPart at ha
  cases hg : s.part p l with
  | some o =>
    rw [hg] at ha
    obtain ⟨rfl, rfl⟩ := Prod.mk.inj (Option.some.inj ha)
    exact ⟨h, Ext.refl _, ⟨o.2, hg⟩, rfl, rfl, rfl⟩
  | none =>
    rw [hg] at ha
    obtain ⟨⟨u, g⟩, hu, he⟩ := Option.map_eq_some_iff.1 ha
    obtain ⟨rfl, rfl⟩ := Prod.mk.inj he
    obtain ⟨gu, eu, hgl, up, us, uf, ui⟩ := great_ok h hu
    have hn : u.part p l = none := by rw [up]; exact hg
    dsimp only
    refine ⟨⟨gu.zero, fun l i hi => (gu.lt l i hi).trans (Nat.lt_succ_self _), gu.inj, gu.bound, ?_, ?_, ?_, gu.timed, gu.inner⟩,
      ⟨eu.next.trans (Nat.le_succ _), eu.great, fun _ _ _ hh => put_old hn (eu.part _ _ _ hh), eu.space, eu.form, eu.inner⟩, ⟨g, put_new⟩, us, uf, ui⟩
    · intro p' l' o ho
      rcases put_cases ho with ⟨rfl, rfl, rfl⟩ | ho
      · exact hgl
      · exact gu.part _ _ _ ho
    · intro a l' o ho
      obtain ⟨t, ht⟩ := gu.space a l' o ho
      exact ⟨t, put_old hn ht⟩
    · intro f l' o hb ho
      obtain ⟨h1, h2, ⟨t, h3⟩, h4⟩ := gu.base f l' o hb ho
      exact ⟨h1, h2, ⟨t, put_old hn h3⟩, h4⟩

lemma space_ok {c : Setting} {s t : St} {a l i : ℕ} (h : Good c s) (ha : askSpace c a l s = some (t, i)) :
    Good c t ∧ Ext s t ∧ (∃ g, t.space a l = some (i, g)) ∧ t.form = s.form ∧ t.inner = s.inner := by
  unfold askSpace at ha
  cases hg : s.space a l with
  | some o =>
    rw [hg] at ha
    obtain ⟨rfl, rfl⟩ := Prod.mk.inj (Option.some.inj ha)
    exact ⟨h, Ext.refl _, ⟨o.2, hg⟩, rfl, rfl⟩
  | none =>
    rw [hg] at ha
    obtain ⟨⟨u, g⟩, hu, he⟩ := Option.map_eq_some_iff.1 ha
    obtain ⟨rfl, rfl⟩ := Prod.mk.inj he
    obtain ⟨gu, eu, ⟨t, hgl⟩, us, uf, ui⟩ := part_ok h hu
    have hn : u.space a l = none := by rw [us]; exact hg
    dsimp only
    refine ⟨⟨gu.zero, fun l i hi => (gu.lt l i hi).trans (Nat.lt_succ_self _), gu.inj, gu.bound, gu.part, ?_, ?_, gu.timed, gu.inner⟩,
      ⟨eu.next.trans (Nat.le_succ _), eu.great, eu.part, fun _ _ _ hh => put_old hn (eu.space _ _ _ hh), eu.form, eu.inner⟩, ⟨g, put_new⟩, uf, ui⟩
    · intro a' l' o ho
      rcases put_cases ho with ⟨rfl, rfl, rfl⟩ | ho
      · exact ⟨t, hgl⟩
      · exact gu.space _ _ _ ho
    · intro f l' o hb ho
      obtain ⟨h1, h2, h3, ⟨t, h4⟩, h5⟩ := gu.base f l' o hb ho
      exact ⟨h1, h2, h3, ⟨t, put_old hn h4⟩, h5⟩

/-- **Specification.** The forms at times are those of their base forms, each once. -/
def Setting.Linked (c : Setting) : Prop := (∀ f g, g ∈ c.particular f ↔ c.baseOf g = some f) ∧ (∀ f, (c.particular f).Nodup) ∧
  ∀ f b, c.baseOf f = some b → c.baseOf b = none

lemma makeInner_spec (o : FormObj) (l : ℕ) : ∀ (fs : List ℕ) (s : St), fs.Nodup →
    (makeInner o l fs s).great = s.great ∧ (makeInner o l fs s).part = s.part ∧ (makeInner o l fs s).space = s.space ∧ (makeInner o l fs s).form = s.form ∧
    s.next ≤ (makeInner o l fs s).next ∧
    (∀ g l', ¬ (g ∈ fs ∧ l' = l) → (makeInner o l fs s).inner g l' = s.inner g l') ∧
    (∀ g ∈ fs, ∃ o', (makeInner o l fs s).inner g l = some o' ∧ o'.tgm = o.tgm ∧ o'.tpm = o.tpm ∧ o'.space = o.space ∧ o'.base = some o.id)
  | [], s, _ => ⟨rfl, rfl, rfl, rfl, le_refl _, fun _ _ _ => rfl, fun _ h => by cases h⟩
  | f :: fs, s, hn => by
    rw [List.nodup_cons] at hn
    obtain ⟨h1, h2, h3, h4, h5, h6, h7⟩ := makeInner_spec o l fs
      { s with next := s.next + 1, inner := put s.inner f l ⟨s.next, o.tgm, o.tpm, o.space, some o.id⟩ } hn.2
    unfold makeInner
    refine ⟨h1, h2, h3, h4, (Nat.le_succ _).trans h5, fun g l' hg => ?_, fun g hg => ?_⟩
    · rw [h6 g l' fun hh => hg ⟨List.mem_cons_of_mem _ hh.1, hh.2⟩]
      exact if_neg fun hh : g = f ∧ l' = l => hg ⟨hh.1 ▸ List.mem_cons_self, hh.2⟩
    · rcases List.mem_cons.1 hg with rfl | hg
      · rw [h6 g l fun hh => hn.1 hh.1]
        exact ⟨_, put_new, rfl, rfl, rfl, rfl⟩
      · exact h7 g hg

lemma base_ok {c : Setting} (hc : c.Linked) {s t : St} {f l : ℕ} {o : FormObj} (h : Good c s) (hf : c.baseOf f = none) (ha : askBase c f l s = some (t, o)) :
    Good c t ∧ Ext s t ∧ t.form f l = some o ∧ (∀ g, c.baseOf g ≠ none → t.form g = s.form g) := by
  unfold askBase at ha
  cases hg : s.form f l with
  | some o' =>
    rw [hg] at ha
    obtain ⟨rfl, rfl⟩ := Prod.mk.inj (Option.some.inj ha)
    exact ⟨h, Ext.refl _, hg, fun _ _ => rfl⟩
  | none =>
    rw [hg] at ha
    obtain ⟨⟨u, g⟩, hu, ha⟩ := Option.bind_eq_some_iff.1 ha
    obtain ⟨⟨v, p⟩, hv, ha⟩ := Option.bind_eq_some_iff.1 ha
    obtain ⟨⟨w, q⟩, hw, ha⟩ := Option.map_eq_some_iff.1 ha
    obtain ⟨rfl, rfl⟩ := Prod.mk.inj ha
    obtain ⟨gu, eu, hgl, -, -, uf, ui⟩ := great_ok (next_good h) hu
    obtain ⟨gv, ev, ⟨t1, hpl⟩, -, vf, vi⟩ := part_ok gu hv
    obtain ⟨gw, ew, ⟨t2, hql⟩, wf, wi⟩ := space_ok gv hw
    dsimp only at hgl hpl hql uf ui vf vi wf wi hw ⊢
    have e := (eu.trans ev).trans ew
    have esw : Ext s w := ⟨(Nat.le_succ _).trans e.next, e.great, e.part, e.space, e.form, e.inner⟩
    have hn : w.form f l = none := by rw [wf, vf, uf]; exact hg
    set o : FormObj := ⟨s.next, g, p, q, none⟩ with ho
    have hin : ∀ x ∈ c.particular f, w.inner x l = none := fun x hx => by
      cases hi : w.inner x l with
      | none => rfl
      | some o' =>
        obtain ⟨b, ob, hb, hob, -⟩ := gw.inner x l o' hi
        rw [(hc.1 f x).1 hx] at hb
        obtain rfl := Option.some.inj hb
        rw [hn] at hob; cases hob
    obtain ⟨m1, m2, m3, m4, m5, m6, m7⟩ := makeInner_spec o l (c.particular f) { w with form := put w.form f l o } (hc.2.1 f)
    set z := makeInner o l (c.particular f) { w with form := put w.form f l o } with hz
    dsimp only at m1 m2 m3 m4 m5 m6
    have hinner : ∀ x l' o', w.inner x l' = some o' → z.inner x l' = some o' := fun x l' o' hx => by
      rw [m6 x l']
      · exact hx
      · rintro ⟨hm, rfl⟩; rw [hin x hm] at hx; cases hx
    have hform : ∀ x l' o', w.form x l' = some o' → z.form x l' = some o' := fun x l' o' hx => by rw [m4]; exact put_old hn hx
    refine ⟨⟨?_, ?_, ?_, ?_, ?_, ?_, ?_, ?_, ?_⟩, ?_, ?_, ?_⟩
    · rw [m1]; exact gw.zero
    · intro l' i hi; rw [m1] at hi; exact lt_of_lt_of_le (gw.lt _ _ hi) m5
    · rw [m1]; exact gw.inj
    · rw [m1]; exact gw.bound
    · rw [m1, m2]; exact gw.part
    · rw [m2, m3]; exact gw.space
    · intro x l' ox hb hx
      rw [m4] at hx
      rw [m1, m2, m3]
      rcases put_cases hx with ⟨rfl, rfl, rfl⟩ | hx
      · exact ⟨rfl, ew.great _ _ (ev.great _ _ hgl), ⟨t1, ew.part _ _ _ hpl⟩, ⟨t2, hql⟩, m7⟩
      · obtain ⟨h1, h2, h3, h4, h5⟩ := gw.base x l' ox hb hx
        exact ⟨h1, h2, h3, h4, fun y hy => by obtain ⟨o', h6, h7⟩ := h5 y hy; exact ⟨o', hinner _ _ _ h6, h7⟩⟩
    · intro x l' ox hb hx
      rw [m4] at hx
      rcases put_cases hx with ⟨rfl, rfl, rfl⟩ | hx
      · exact absurd hf hb
      · exact hinner _ _ _ (gw.timed x l' ox hb hx)
    · intro x l' ox hx
      by_cases hm : x ∈ c.particular f ∧ l' = l
      · obtain ⟨hm, rfl⟩ := hm
        obtain ⟨o', h1, h2, h3, h4, h5⟩ := m7 x hm
        rw [h1] at hx
        obtain rfl := Option.some.inj hx
        exact ⟨f, o, (hc.1 f x).1 hm, by rw [m4]; exact put_new, h5, h2, h3, h4⟩
      · rw [m6 x l' hm] at hx
        obtain ⟨b, ob, h1, h2, h3⟩ := gw.inner x l' ox hx
        exact ⟨b, ob, h1, hform _ _ _ h2, h3⟩
    · exact ⟨esw.next.trans m5, fun l' i hi => by rw [m1]; exact esw.great _ _ hi, fun _ _ _ hh => by rw [m2]; exact esw.part _ _ _ hh,
        fun _ _ _ hh => by rw [m3]; exact esw.space _ _ _ hh, fun _ _ _ hh => hform _ _ _ (esw.form _ _ _ hh), fun _ _ _ hh => hinner _ _ _ (esw.inner _ _ _ hh)⟩
    · rw [m4]; exact put_new
    · intro x hx
      rw [m4]
      funext l'
      have hne : ¬ (x = f ∧ l' = l) := fun hh => hx (hh.1 ▸ hf)
      unfold put
      rw [if_neg hne, wf, vf, uf]

lemma form_ok {c : Setting} (hc : c.Linked) {s t : St} {f l : ℕ} {o : FormObj} (h : Good c s) (ha : askForm c f l s = some (t, o)) :
    Good c t ∧ Ext s t ∧ t.form f l = some o := by
  unfold askForm at ha
  cases hb : c.baseOf f with
  | none =>
    rw [hb] at ha
    obtain ⟨h1, h2, h3, -⟩ := base_ok hc h hb ha
    exact ⟨h1, h2, h3⟩
  | some b =>
    rw [hb] at ha
    dsimp only at ha
    cases hg : s.form f l with
    | some o' =>
      rw [hg] at ha
      obtain ⟨rfl, rfl⟩ := Prod.mk.inj (Option.some.inj ha)
      exact ⟨h, Ext.refl _, hg⟩
    | none =>
      rw [hg] at ha
      obtain ⟨⟨u, ob⟩, hu, ha⟩ := Option.bind_eq_some_iff.1 ha
      obtain ⟨o', ho', he⟩ := Option.map_eq_some_iff.1 ha
      obtain ⟨rfl, rfl⟩ := Prod.mk.inj he
      obtain ⟨gu, eu, hbl, hsame⟩ := base_ok hc h (hc.2.2 f b hb) hu
      have hn : u.form f l = none := by rw [hsame f (by rw [hb]; simp)]; exact hg
      dsimp only at ho' ⊢
      refine ⟨⟨gu.zero, gu.lt, gu.inj, gu.bound, gu.part, gu.space, ?_, ?_, ?_⟩,
        ⟨eu.next, eu.great, eu.part, eu.space, fun _ _ _ hh => put_old hn (eu.form _ _ _ hh), eu.inner⟩, put_new⟩
      · intro x l' ox hbx hx
        rcases put_cases hx with ⟨rfl, rfl, rfl⟩ | hx
        · rw [hb] at hbx; cases hbx
        · exact gu.base x l' ox hbx hx
      · intro x l' ox hbx hx
        rcases put_cases hx with ⟨rfl, rfl, rfl⟩ | hx
        · exact ho'
        · exact gu.timed x l' ox hbx hx
      · intro x l' ox hx
        obtain ⟨b', ob', h1, h2, h3⟩ := gu.inner x l' ox hx
        exact ⟨b', ob', h1, put_old hn h2, h3⟩

/-! ### When a level is given -/

lemma great_some {c : Setting} {s : St} {l : ℕ} (h : Good c s) : (askGreat c l s).isSome = true ↔ l = 0 ∨ l < c.max := by
  unfold askGreat
  cases hg : s.great l with
  | some i => simpa using h.bound l i hg
  | none =>
    have hl : l ≠ 0 := by
      rintro rfl
      obtain ⟨i, hi⟩ := h.zero
      rw [hi] at hg; cases hg
    dsimp only
    split_ifs with hh
    · simp [hh.2]
    · simp only [Option.isSome_none, Bool.false_eq_true, false_iff]
      rintro (h1 | h1)
      · exact hl h1
      · exact hh ⟨Nat.one_le_iff_ne_zero.2 hl, h1⟩

lemma part_some {c : Setting} {s : St} {p l : ℕ} (h : Good c s) : (askPart c p l s).isSome = true ↔ l = 0 ∨ l < c.max := by
  unfold askPart
  cases hg : s.part p l with
  | some o => simpa using h.bound l _ (h.part p l o hg)
  | none => rw [← great_some h]; simp

lemma space_some {c : Setting} {s : St} {a l : ℕ} (h : Good c s) : (askSpace c a l s).isSome = true ↔ l = 0 ∨ l < c.max := by
  unfold askSpace
  cases hg : s.space a l with
  | some o =>
    obtain ⟨t, ht⟩ := h.space a l o hg
    simpa using h.bound l _ (h.part _ l _ ht)
  | none => rw [← part_some (p := c.spaceMesh a) h]; simp

lemma base_some {c : Setting} {s : St} {f l : ℕ} (h : Good c s) (hf : c.baseOf f = none) : (askBase c f l s).isSome = true ↔ l = 0 ∨ l < c.max := by
  unfold askBase
  cases hg : s.form f l with
  | some o => simpa using h.bound l _ (h.base f l o hf hg).2.1
  | none =>
    have h1 := great_some (l := l) (next_good h)
    cases hu : askGreat c l { s with next := s.next + 1 } with
    | none => rw [hu] at h1; simpa using h1
    | some u =>
      obtain ⟨u, g⟩ := u
      rw [hu] at h1
      have gu := (great_ok (next_good h) hu).1
      have h2 := part_some (p := c.formMesh f) (l := l) gu
      cases hv : askPart c (c.formMesh f) l u with
      | none =>
        rw [hv] at h2
        simpa [hv] using h2
      | some v =>
        obtain ⟨v, p⟩ := v
        have gv := (part_ok gu hv).1
        have h3 := space_some (a := c.formSpace f) (l := l) gv
        simpa [hv] using h3

lemma form_some {c : Setting} (hc : c.Linked) {s : St} {f l : ℕ} (h : Good c s) : (askForm c f l s).isSome = true ↔ l = 0 ∨ l < c.max := by
  unfold askForm
  cases hb : c.baseOf f with
  | none => exact base_some h hb
  | some b =>
    dsimp only
    have hbb := hc.2.2 f b hb
    cases hg : s.form f l with
    | some o =>
      have hin := h.timed f l o (by rw [hb]; simp) hg
      obtain ⟨b', ob, h1, h2, -⟩ := h.inner f l o hin
      rw [hb] at h1
      obtain rfl := Option.some.inj h1
      simpa using h.bound l _ (h.base b l ob hbb h2).2.1
    | none =>
      rw [← base_some h hbb]
      cases hu : askBase c b l s with
      | none => simp
      | some u =>
        obtain ⟨u, ob⟩ := u
        obtain ⟨gu, -, hbl, -⟩ := base_ok hc h hbb hu
        obtain ⟨o', ho', -⟩ := (gu.base b l ob hbb hbl).2.2.2.2 f ((hc.1 b f).2 hb)
        simp [ho']

lemma step_ok {c : Setting} (hc : c.Linked) {s : St} (h : Good c s) (o : Op) : Good c (step c s o).1 ∧ Ext s (step c s o).1 := by
  cases o with
  | great l =>
    unfold step
    dsimp only
    cases hr : (levelOf c l).bind fun l => askGreat c l s with
    | none => exact ⟨h, Ext.refl _⟩
    | some r =>
      obtain ⟨l', -, hl⟩ := Option.bind_eq_some_iff.1 hr
      obtain ⟨t, i⟩ := r
      exact ⟨(great_ok h hl).1, (great_ok h hl).2.1⟩
  | part p l =>
    unfold step
    dsimp only
    cases hr : (levelOf c l).bind fun l => askPart c p l s with
    | none => exact ⟨h, Ext.refl _⟩
    | some r =>
      obtain ⟨l', -, hl⟩ := Option.bind_eq_some_iff.1 hr
      obtain ⟨t, i⟩ := r
      exact ⟨(part_ok h hl).1, (part_ok h hl).2.1⟩
  | space a l =>
    unfold step
    dsimp only
    cases hr : (levelOf c l).bind fun l => askSpace c a l s with
    | none => exact ⟨h, Ext.refl _⟩
    | some r =>
      obtain ⟨l', -, hl⟩ := Option.bind_eq_some_iff.1 hr
      obtain ⟨t, i⟩ := r
      exact ⟨(space_ok h hl).1, (space_ok h hl).2.1⟩
  | form f l =>
    unfold step
    dsimp only
    cases hr : (levelOf c l).bind fun l => askForm c f l s with
    | none => exact ⟨h, Ext.refl _⟩
    | some r =>
      obtain ⟨l', -, hl⟩ := Option.bind_eq_some_iff.1 hr
      obtain ⟨t, i⟩ := r
      exact ⟨(form_ok hc h hl).1, (form_ok hc h hl).2.1⟩

lemma run_ok {c : Setting} (hc : c.Linked) : ∀ (ops : List Op) {s : St}, Good c s → Good c (run c s ops) ∧ Ext s (run c s ops)
  | [], s, h => ⟨h, Ext.refl _⟩
  | o :: ops, s, h => by
    obtain ⟨h1, h2⟩ := step_ok hc h o
    obtain ⟨h3, h4⟩ := run_ok hc ops h1
    exact ⟨h3, h2.trans h4⟩

/-- **Specification.** The level that a request asks for. -/
def Op.level : Op → Option ℕ
  | .great l | .part _ l | .space _ l | .form _ l => l

/-- **C157.** After any requests, a level of a mesh, space or form is given exactly if it is the base or below the maximal number of levels; without
a number it is the finest level. -/
theorem level_given {c : Setting} (hc : c.Linked) (ops : List Op) (o : Op) :
    (step c (run c init ops) o).2.isSome = true ↔
      (∃ l, o.level = some l ∧ (l = 0 ∨ l < c.max)) ∨ (o.level = none ∧ 0 < c.max) := by
  have h := (run_ok hc ops (init_good c)).1
  generalize run c init ops = s at h
  have key : ∀ {α : Type} (l : Option ℕ) (ask : ℕ → Option (St × α)) (g : α → ℕ), (∀ l, (ask l).isSome = true ↔ l = 0 ∨ l < c.max) →
      (((((levelOf c l).bind ask).elim (s, none) fun r => (r.1, some (g r.2))).2.isSome = true) ↔
        (∃ l', l = some l' ∧ (l' = 0 ∨ l' < c.max)) ∨ (l = none ∧ 0 < c.max)) := by
    intro α l ask g hask
    cases l with
    | some l =>
      simp only [levelOf, Option.bind_some, Option.some.injEq, exists_eq_left', reduceCtorEq, false_and, or_false]
      rw [← hask l]
      cases ask l <;> simp
    | none =>
      simp only [levelOf, reduceCtorEq, false_and, exists_false, true_and, false_or]
      by_cases hm : c.max = 0
      · rw [if_pos hm]; simp [hm]
      · rw [if_neg hm, Option.bind_some]
        have h1 := (hask (c.max - 1)).2 (Or.inr (by omega))
        cases ha : ask (c.max - 1) with
        | none => rw [ha] at h1; cases h1
        | some r => simp; omega
  cases o with
  | great l => exact key l _ id fun l => great_some h
  | part p l => exact key l _ id fun l => part_some h
  | space a l => exact key l _ id fun l => space_some h
  | form f l => exact key l _ FormObj.id fun l => form_some hc h

/-- **C157.** A form on a level lives on the meshes and the space of this level: the great mesh of the level, the level of its partial mesh, which is on the
same great mesh, and the level of its space, which is on a partial mesh of the level. A form at a time is on the same ones as its base form on
the level and belongs to it. This holds after any requests, before and afterwards, and all these are the objects that are given when asking for them. -/
theorem form_linked {c : Setting} (hc : c.Linked) (ops : List Op) {f l : ℕ} {t : St} {o : FormObj} (ha : askForm c f l (run c init ops) = some (t, o))
    (more : List Op) :
    let u := run c t more
    let b := (c.baseOf f).getD f
    ∃ ob gm sm, u.form b l = some ob ∧ o.tgm = ob.tgm ∧ o.tpm = ob.tpm ∧ o.space = ob.space ∧
      (c.baseOf f = none → o = ob) ∧ (c.baseOf f ≠ none → o.base = some ob.id) ∧
      u.great l = some o.tgm ∧ u.part (c.formMesh b) l = some (o.tpm, gm) ∧ gm = o.tgm ∧
      u.space (c.formSpace b) l = some (o.space, sm) ∧ u.part (c.spaceMesh (c.formSpace b)) l = some (sm, o.tgm) := by
  have h := (run_ok hc ops (init_good c)).1
  obtain ⟨gt, -, hft⟩ := form_ok hc h ha
  obtain ⟨gu, eu⟩ := run_ok hc more gt
  have hfu := eu.form _ _ _ hft
  dsimp only
  generalize run c t more = u at gu eu hfu
  have links : ∀ b ob, c.baseOf b = none → u.form b l = some ob → ∃ gm sm, u.great l = some ob.tgm ∧ u.part (c.formMesh b) l = some (ob.tpm, gm) ∧ gm = ob.tgm ∧
      u.space (c.formSpace b) l = some (ob.space, sm) ∧ u.part (c.spaceMesh (c.formSpace b)) l = some (sm, ob.tgm) := by
    intro b ob hb hob
    obtain ⟨-, h2, ⟨gm, h3⟩, ⟨sm, h4⟩, -⟩ := gu.base b l ob hb hob
    obtain ⟨t', h5⟩ := gu.space _ _ _ h4
    have h6 := gu.part _ _ _ h3
    have h7 := gu.part _ _ _ h5
    rw [h2] at h6 h7
    obtain rfl := Option.some.inj h6
    obtain rfl := Option.some.inj h7
    exact ⟨_, sm, h2, h3, rfl, h4, h5⟩
  cases hb : c.baseOf f with
  | none =>
    obtain ⟨gm, sm, hl⟩ := links f o hb hfu
    exact ⟨o, gm, sm, hfu, rfl, rfl, rfl, fun _ => rfl, fun hh => absurd rfl hh, hl⟩
  | some b =>
    have hin := gu.timed f l o (by rw [hb]; simp) hfu
    obtain ⟨b', ob, h1, h2, h3, h4, h5, h6⟩ := gu.inner f l o hin
    rw [hb] at h1
    obtain rfl := Option.some.inj h1
    obtain ⟨gm, sm, hl⟩ := links b ob (hc.2.2 f b hb) h2
    refine ⟨ob, gm, sm, h2, h4, h5, h6, fun hh => (by cases hh), fun _ => h3, ?_⟩
    rw [Option.getD_some, h4, h5, h6]
    exact hl

/-- **C157.** Asking again gives the same object, whatever was asked in between. -/
theorem level_same {c : Setting} (hc : c.Linked) (ops more : List Op) (o : Op) {i : ℕ} (h : (step c (run c init ops) o).2 = some i) :
    (step c (run c (step c (run c init ops) o).1 more) o).2 = some i := by
  have hg := (run_ok hc ops (init_good c)).1
  generalize run c init ops = s at h hg
  cases o with
  | great l =>
    unfold step at h ⊢
    dsimp only at h ⊢
    cases hr : (levelOf c l).bind fun l => askGreat c l s with
    | none => rw [hr] at h; cases h
    | some r =>
      obtain ⟨l', hl', hl⟩ := Option.bind_eq_some_iff.1 hr
      obtain ⟨t, j⟩ := r
      rw [hr] at h
      obtain rfl := Option.some.inj h
      obtain ⟨g1, -, h1, -⟩ := great_ok hg hl
      have h2 := (run_ok hc more g1).2.great _ _ h1
      simp only [Option.elim_some, hl', Option.bind_some, askGreat, h2]
  | part p l =>
    unfold step at h ⊢
    dsimp only at h ⊢
    cases hr : (levelOf c l).bind fun l => askPart c p l s with
    | none => rw [hr] at h; cases h
    | some r =>
      obtain ⟨l', hl', hl⟩ := Option.bind_eq_some_iff.1 hr
      obtain ⟨t, j⟩ := r
      rw [hr] at h
      obtain rfl := Option.some.inj h
      obtain ⟨g1, -, ⟨x, h1⟩, -⟩ := part_ok hg hl
      have h2 := (run_ok hc more g1).2.part _ _ _ h1
      simp only [Option.elim_some, hl', Option.bind_some, askPart, h2]
  | space a l =>
    unfold step at h ⊢
    dsimp only at h ⊢
    cases hr : (levelOf c l).bind fun l => askSpace c a l s with
    | none => rw [hr] at h; cases h
    | some r =>
      obtain ⟨l', hl', hl⟩ := Option.bind_eq_some_iff.1 hr
      obtain ⟨t, j⟩ := r
      rw [hr] at h
      obtain rfl := Option.some.inj h
      obtain ⟨g1, -, ⟨x, h1⟩, -⟩ := space_ok hg hl
      have h2 := (run_ok hc more g1).2.space _ _ _ h1
      simp only [Option.elim_some, hl', Option.bind_some, askSpace, h2]
  | form f l =>
    unfold step at h ⊢
    dsimp only at h ⊢
    cases hr : (levelOf c l).bind fun l => askForm c f l s with
    | none => rw [hr] at h; cases h
    | some r =>
      obtain ⟨l', hl', hl⟩ := Option.bind_eq_some_iff.1 hr
      obtain ⟨t, j⟩ := r
      rw [hr] at h
      obtain rfl := Option.some.inj h
      obtain ⟨g1, -, h1⟩ := form_ok hc hg hl
      have h2 := (run_ok hc more g1).2.form _ _ _ h1
      simp only [Option.elim_some, hl', Option.bind_some, askForm, askBase, h2]
      cases c.baseOf f <;> rfl

/-- **C157.** The level of a form is found, after any requests; levels of the great mesh are different objects. -/
theorem level_found {c : Setting} (hc : c.Linked) (ops : List Op) {f l : ℕ} {t : St} {o : FormObj} (ha : askForm c f l (run c init ops) = some (t, o))
    (more : List Op) {bound : ℕ} (hb : l < bound) : findLevel (run c t more) o bound = some l := by
  obtain ⟨ob, gm, sm, -, -, -, -, -, -, hg, -⟩ := form_linked hc ops ha more
  have h := (run_ok hc ops (init_good c)).1
  have gu := (run_ok hc more (form_ok hc h ha).1).1
  unfold findLevel
  cases hf : (List.range bound).find? fun l => (run c t more).great l = some o.tgm with
  | none =>
    have := List.find?_eq_none.1 hf l (List.mem_range.2 hb)
    simp only [decide_eq_true_eq] at this
    exact absurd hg this
  | some l' =>
    have h1 : (run c t more).great l' = some o.tgm := by simpa using List.find?_some hf
    rw [gu.inj _ _ _ h1 hg]

/-- Two spaces on one mesh, a form 0 with the forms 1 and 2 at times. -/
def sample : Setting := ⟨3, fun _ => 0, fun _ => 0, fun f => if f ≤ 2 then 0 else 1, fun f => if f = 1 ∨ f = 2 then some 0 else none,
  fun f => if f = 0 then [1, 2] else []⟩

example : sample.Linked := by
  refine ⟨fun f g => ?_, fun f => ?_, fun f b h => ?_⟩
  · by_cases hf : f = 0
    · subst hf; simp [sample]; tauto
    · by_cases hg : g = 1 ∨ g = 2
      · simp [sample, hf, hg]; exact Ne.symm hf
      · simp [sample, hf, hg]
  · unfold sample; dsimp only; split_ifs <;> simp
  · simp only [sample] at h ⊢
    split_ifs at h
    obtain rfl := Option.some.inj h
    simp

example : (askForm sample 1 2 (run sample init [.form 3 none, .form 1 (some 7), .great (some 1)])).map Prod.snd = some ⟨8, 2, 3, 7, some 6⟩ := by decide +kernel

end Phyem.Passing.Levels
