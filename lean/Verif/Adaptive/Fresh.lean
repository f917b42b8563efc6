import Verif.Adaptive.Lemmas

/-! Everything that is current is of the newest generation, always. -/

namespace Phyem.Adaptive

/-! ### What is always so -/

/-- `Fresh`, with the fields of the forms themselves and what `current_base` remembers. -/
structure Inv (S : Setup) (st : State) (a : Seen) : Prop where
  next : st.next = a.count
  stamp : st.stamp = a.stamp
  mesh : ∀ m ∈ S.meshes, st.mesh m.key = meshAt a.count m
  space : ∀ s ∈ S.spaces, st.space s.key = spaceAt a.count s
  total : ∀ f ∈ S.forms, (st.form f.key).total = a.count
  gens : ∀ f ∈ S.forms, List.Forall₂ (OfGeneration S f) (lastTwo a.count) (st.form f.key).gens
  own : ∀ f ∈ S.forms, f.base = none → (st.form f.key).current.bind (fun o => o.cf) = a.cf f.key
  data : ∀ f ∈ S.forms, f.base = none → (st.form f.key).current.bind (fun o => o.cochain) = a.data f.key
  cache : ∀ n, st.curGen = some n → n ≤ a.count ∧ st.curBase = some (newest S n)
  nothing : a.count = 0 → ∀ k, a.cf k = none

lemma split_last {S : Setup} {f : FormOf} {n : ℕ} {l : List PForm} (h : List.Forall₂ (OfGeneration S f) (lastTwo (n + 1)) l) :
    ∃ l' x, l = l' ++ [x] ∧ List.Forall₂ (OfGeneration S f) (keep (lastTwo n)) l' ∧ OfGeneration S f n x := by
  rw [← keep_lastTwo] at h
  have hne : l ≠ [] := by
    rintro rfl
    have := h.length_eq
    simp at this
  obtain ⟨l', x, rfl⟩ : ∃ l' x, l = l' ++ [x] := ⟨_, _, (List.dropLast_append_getLast hne).symm⟩
  exact ⟨l', x, rfl, (forall₂_last h).1, (forall₂_last h).2⟩

lemma rootOf_eq {S : Setup} (hS : Right S) {f : FormOf} (hf : f ∈ S.forms) : rootOf S f.key = f.base.getD f.key := by
  unfold rootOf
  have : (S.forms.find? fun g => g.key = f.key) = some f := by
    cases hc : S.forms.find? fun g => g.key = f.key with
    | none =>
      rw [List.find?_eq_none] at hc
      exact absurd (by simp) (hc f hf)
    | some g =>
      have h1 := List.mem_of_find?_eq_some hc
      have h2 := List.find?_some hc
      rw [key_inj hS.forms h1 hf (by simpa using h2)]
  rw [this]
  rfl

lemma modify_last {A : Type} {t : Top A} {l : List A} {x : A} (h : t.gens = l ++ [x]) (F : A → A) :
    t.modify F = ⟨l ++ [F x], t.total⟩ := by
  unfold Top.modify Top.current
  rw [h]
  simp

lemma current_last {A : Type} {t : Top A} {l : List A} {x : A} (h : t.gens = l ++ [x]) : t.current = some x := by
  unfold Top.current
  rw [h]
  simp

lemma mem_keep {A : Type} {l : List A} {x : A} (h : x ∈ keep l) : x ∈ l := by
  unfold keep at h
  split_ifs at h
  · exact List.mem_of_mem_drop h
  · exact h

lemma mem_lastTwo {n g : ℕ} (h : g ∈ lastTwo n) : g < n := by
  unfold lastTwo at h
  simpa using List.mem_of_mem_drop h

/-- The forms before the last one are older. -/
lemma older {S : Setup} {f : FormOf} {n : ℕ} {l : List PForm} (h : List.Forall₂ (OfGeneration S f) (keep (lastTwo n)) l) :
    ∀ o ∈ l, o.birth ≠ n + 1 := by
  have key : ∀ (L : List ℕ) (l : List PForm), (∀ g ∈ L, g < n) → List.Forall₂ (OfGeneration S f) L l →
      ∀ o ∈ l, o.birth ≠ n + 1 := by
    intro L l hL h
    induction h with
    | nil => simp
    | cons x _ ih =>
      intro o ho
      rw [List.mem_cons] at ho
      rcases ho with rfl | ho
      · have := hL _ List.mem_cons_self
        rw [x.birth]
        omega
      · exact ih (fun g hg => hL g (List.mem_cons_of_mem _ hg)) o ho
  exact key _ l (fun g hg => mem_lastTwo (mem_keep hg)) h

/-- The field of a form, by the form it is one of. -/
lemma Inv.getCf {S : Setup} (hS : Right S) {st : State} {a : Seen} (h : Inv S st a) {f : FormOf} (hf : f ∈ S.forms) :
    getCf st f.key = a.cf (rootOf S f.key) := by
  rw [rootOf_eq hS hf]
  have hg := h.gens f hf
  cases hn : a.count with
  | zero =>
    rw [hn] at hg
    have : (st.form f.key).gens = [] := by
      have := hg.length_eq
      simpa [lastTwo] using this.symm
    rw [h.nothing hn]
    simp [Adaptive.getCf, Top.current, this]
  | succ n =>
    rw [hn] at hg
    obtain ⟨l, x, h1, h2, h3⟩ := split_last hg
    unfold Adaptive.getCf
    rw [current_last h1]
    simp only [Option.bind_some]
    rw [h3.base]
    cases hb : f.base with
    | none =>
      have := h.own f hf hb
      rw [current_last h1] at this
      simpa using this
    | some b =>
      obtain ⟨g, hg1, hg2, hg3⟩ := hS.form_base f hf b hb
      obtain ⟨l', y, h4, h5, h6⟩ := split_last (hn ▸ h.gens g hg1)
      have := h.own g hg1 hg3
      rw [current_last h4, hg2] at this
      dsimp only [Option.map_some, Option.getD_some]
      rw [← hg2, h4, List.find?_append, List.find?_eq_none.2 (by
        intro o ho
        simpa using older h5 o ho)]
      simp only [Option.none_or]
      rw [List.find?_cons_of_pos (by simp [h6.birth])]
      rw [hg2]
      simpa using this

lemma Inv.fresh {S : Setup} (hS : Right S) {st : State} {a : Seen} (h : Inv S st a) : Fresh S st a :=
  ⟨h.next, h.stamp, h.mesh, h.space, fun f hf => ⟨h.total f hf, h.gens f hf⟩, fun _ hf => h.getCf hS hf, h.data⟩

lemma Inv.init (S : Setup) : Inv S {} {} :=
  ⟨rfl, rfl, fun _ _ => rfl, fun _ _ => rfl, fun _ _ => rfl, fun _ _ => .nil, fun _ _ _ => rfl, fun _ _ _ => rfl,
    fun _ h => by simp at h, fun _ _ => rfl⟩

/-! ### A renewal -/

/-- The new generation of a form, before it is linked. -/
def newForm (S : Setup) (st : State) (f : FormOf) : PForm :=
  match f.base with
  | none => general S.forms f.key (st.form f.key)
  | some b => instant st.form b (st.form f.key)

lemma Inv.renew {S : Setup} (hS : Right S) {st : State} {a : Seen} (h : Inv S st a) (s : ℕ) :
    ∃ st', Adaptive.renew S s st = some st' ∧ Inv S st' (a.renew s) := by
  obtain ⟨mesh, hm1, hm2⟩ := meshes_loop a.count st.mesh S.meshes [] st.mesh (by simpa using hS.meshes)
    (by simpa using hS.before) (by simp) h.mesh
  simp only [List.nil_append] at hm2
  have hmk : ∀ k, k ∈ S.meshes.map (fun m => m.key) →
      (mesh k).total = a.count + 1 ∧ ∃ o, (mesh k).current = some o ∧ o.tgm = a.count := by
    intro k hk
    obtain ⟨m, hm, rfl⟩ := List.mem_map.1 hk
    rw [hm2 m hm]
    exact ⟨rfl, _, meshAt_current _ _, rfl⟩
  obtain ⟨space, hs1, hs2, _⟩ := spaces_loop a.count mesh S.spaces st.space hS.spaces hS.known
    (fun s hs => hmk _ (hS.space_mesh s hs)) h.space
  obtain ⟨hg1, hg2⟩ := general_loop S.forms st.form hS.forms
  obtain ⟨form, hi1, hi2, hi3⟩ := instants_loop st.form S.forms [] (S.forms.foldl renewGeneral st.form)
    (by simpa using hS.forms) (by simpa using hS.form_base) (by
      intro f hf hb
      rw [hg1 f hf, if_pos hb, renewForm_eq]
      rfl) (by simp) (by
      intro f hf b hb
      rw [hg1 f hf, if_neg (by simp [hb])])
  simp only [List.nil_append] at hi2 hi3
  have hfx : ∀ f ∈ S.forms, form f.key = newTop (st.form f.key) (newForm S st f) := by
    intro f hf
    unfold newForm
    cases hb : f.base with
    | none => exact hi2 f hf hb
    | some b => exact hi3 f hf b hb
  obtain ⟨form', hl1, hl2, _⟩ := link_loop a.count mesh space S.forms form st.form
    (fun k => ((S.forms.find? fun f => f.key = k).map (newForm S st)).getD (x0 {})) hS.forms
    (fun f hf => (hmk _ (hS.form_mesh f hf)).2)
    (by
      intro f hf
      obtain ⟨s, hs, he⟩ := List.mem_map.1 (hS.form_space f hf)
      rw [← he, hs2 s hs]
      exact ⟨_, spaceAt_current _ _, rfl⟩)
    (by
      intro f hf
      have : (S.forms.find? fun g => g.key = f.key) = some f := by
        cases hc : S.forms.find? fun g => g.key = f.key with
        | none =>
          rw [List.find?_eq_none] at hc
          exact absurd (by simp) (hc f hf)
        | some g =>
          have h1 := List.mem_of_find?_eq_some hc
          have h2 := List.find?_some hc
          rw [key_inj hS.forms h1 hf (by simpa using h2)]
      rw [this]
      exact hfx f hf)
  have hl3 : ∀ f ∈ S.forms, form' f.key = newTop (st.form f.key) (linked a.count f (newForm S st f)) := by
    intro f hf
    rw [hl2 f hf]
    have : (S.forms.find? fun g => g.key = f.key) = some f := by
      cases hc : S.forms.find? fun g => g.key = f.key with
      | none =>
        rw [List.find?_eq_none] at hc
        exact absurd (by simp) (hc f hf)
      | some g =>
        have h1 := List.mem_of_find?_eq_some hc
        have h2 := List.find?_some hc
        rw [key_inj hS.forms h1 hf (by simpa using h2)]
    rw [this]
    rfl
  refine ⟨_, by
    unfold Adaptive.renew
    rw [h.next, hm1]
    simp only [Option.bind_some]
    rw [hs1]
    simp only [Option.bind_some]
    rw [hi1]
    simp only [Option.bind_some]
    rw [hl1]
    rfl, ?_⟩
  have hof : ∀ f ∈ S.forms, OfGeneration S f a.count (linked a.count f (newForm S st f)) := by
    intro f hf
    have hb1 : (x0 (st.form f.key)).birth = a.count + 1 := by
      show (st.form f.key).total + 1 = _
      rw [h.total f hf]
    unfold newForm
    cases hb : f.base with
    | none => exact ⟨hb1, rfl, rfl, rfl, by rw [hb]; rfl, fun _ => rfl⟩
    | some b =>
      obtain ⟨g, hg1, hg2, hg3⟩ := hS.form_base f hf b hb
      refine ⟨hb1, rfl, rfl, rfl, ?_, fun h' => by rw [hb] at h'; simp at h'⟩
      rw [hb]
      show some (b, (st.form b).total + 1) = _
      rw [← hg2, h.total g hg1]
      rfl
  refine ⟨?_, rfl, hm2, hs2, ?_, ?_, ?_, ?_, ?_, ?_⟩
  · show a.count + 1 = a.count + 1
    rfl
  · intro f hf
    show (form' f.key).total = a.count + 1
    rw [hl3 f hf]
    show (st.form f.key).total + 1 = a.count + 1
    rw [h.total f hf]
  · intro f hf
    show List.Forall₂ _ (lastTwo (a.count + 1)) (form' f.key).gens
    rw [hl3 f hf, ← keep_lastTwo]
    exact forall₂_snoc (forall₂_keep (h.gens f hf)) (hof f hf)
  · intro f hf hb
    show (form' f.key).current.bind _ = a.cf f.key
    rw [hl3 f hf, newTop_current, ← h.own f hf hb]
    unfold newForm
    rw [hb]
    rfl
  · intro f hf hb
    show (form' f.key).current.bind _ = none
    rw [hl3 f hf, newTop_current]
    unfold newForm
    rw [hb]
    rfl
  · intro n hn
    have := h.cache n hn
    exact ⟨Nat.le_succ_of_le this.1, this.2⟩
  · intro h0
    exact absurd h0 (Nat.succ_ne_zero _)

/-! ### A change of a current form -/

/-- A change of the current generation of a form that changes its field or its cochain only. -/
lemma Inv.modify {S : Setup} (hS : Right S) {st : State} {a : Seen} (h : Inv S st a) (hc : a.count ≠ 0) {g : FormOf}
    (hg : g ∈ S.forms) (F : PForm → PForm)
    (hF : ∀ n o, OfGeneration S g n o → OfGeneration S g n (F o)) (a' : Seen) (ha1 : a'.count = a.count)
    (ha2 : a'.stamp = a.stamp)
    (hcf : ∀ f ∈ S.forms, f.base = none → a'.cf f.key = if f.key = g.key then
      ((st.form g.key).current.map F).bind (fun o => o.cf) else a.cf f.key)
    (hda : ∀ f ∈ S.forms, f.base = none → a'.data f.key = if f.key = g.key then
      ((st.form g.key).current.map F).bind (fun o => o.cochain) else a.data f.key) :
    Inv S { st with form := Function.update st.form g.key ((st.form g.key).modify F) } a' := by
  obtain ⟨n, hn⟩ := Nat.exists_eq_succ_of_ne_zero hc
  obtain ⟨l, x, h1, h2, h3⟩ := split_last (show List.Forall₂ (OfGeneration S g) (lastTwo (n + 1)) _ from hn ▸ h.gens g hg)
  have hm := modify_last h1 F
  refine ⟨by rw [ha1]; exact h.next, by rw [ha2]; exact h.stamp, by rw [ha1]; exact h.mesh, by rw [ha1]; exact h.space,
    ?_, ?_, ?_, ?_, by rw [ha1]; exact h.cache, by rw [ha1]; exact fun h0 => absurd h0 hc⟩
  · intro f hf
    rw [ha1]
    by_cases he : f.key = g.key
    · simp only [he, Function.update_self, hm]
      exact h.total g hg
    · simp only [Function.update_of_ne he]
      exact h.total f hf
  · intro f hf
    rw [ha1]
    by_cases he : f.key = g.key
    · rw [key_inj hS.forms hf hg he]
      simp only [Function.update_self, hm]
      rw [hn, Nat.succ_eq_add_one, ← keep_lastTwo]
      exact forall₂_snoc h2 (hF n x h3)
    · simp only [Function.update_of_ne he]
      exact h.gens f hf
  · intro f hf hb
    rw [hcf f hf hb]
    by_cases he : f.key = g.key
    · rw [if_pos he]
      simp only [he, Function.update_self, hm, current_last h1]
      rw [current_last (t := ⟨l ++ [F x], (st.form g.key).total⟩) rfl]
      rfl
    · rw [if_neg he]
      simp only [Function.update_of_ne he]
      exact h.own f hf hb
  · intro f hf hb
    rw [hda f hf hb]
    by_cases he : f.key = g.key
    · rw [if_pos he]
      simp only [he, Function.update_self, hm, current_last h1]
      rw [current_last (t := ⟨l ++ [F x], (st.form g.key).total⟩) rfl]
      rfl
    · rw [if_neg he]
      simp only [Function.update_of_ne he]
      exact h.data f hf hb

lemma Inv.setCf {S : Setup} (hS : Right S) {st : State} {a : Seen} (h : Inv S st a) {f : FormOf} (hf : f ∈ S.forms) (v : ℕ) :
    (a.count = 0 → Adaptive.setCf st f.key v = none) ∧
      (a.count ≠ 0 → ∃ st', Adaptive.setCf st f.key v = some st' ∧
        Inv S st' { a with cf := fun j => if j = rootOf S f.key then some v else a.cf j }) := by
  constructor
  · intro hn
    have hg := h.gens f hf
    rw [hn] at hg
    have : (st.form f.key).gens = [] := by
      have := hg.length_eq
      simpa [lastTwo] using this.symm
    simp [Adaptive.setCf, Top.current, this]
  · intro hc
    obtain ⟨n, hn⟩ := Nat.exists_eq_succ_of_ne_zero hc
    obtain ⟨l, x, h1, _, h3⟩ := split_last (show List.Forall₂ (OfGeneration S f) (lastTwo (n + 1)) _ from hn ▸ h.gens f hf)
    -- the form whose field is set
    obtain ⟨g, hg1, hg2, hg3, hset⟩ : ∃ g ∈ S.forms, g.key = rootOf S f.key ∧ g.base = none ∧ Adaptive.setCf st f.key v =
        some { st with form := Function.update st.form g.key ((st.form g.key).modify fun o => { o with cf := some v }) } := by
      unfold Adaptive.setCf
      rw [current_last h1, rootOf_eq hS hf]
      simp only [Option.map_some]
      rw [h3.base]
      cases hb : f.base with
      | none => exact ⟨f, hf, rfl, hb, rfl⟩
      | some b =>
        obtain ⟨g, hg1, hg2, hg3⟩ := hS.form_base f hf b hb
        refine ⟨g, hg1, hg2, hg3, ?_⟩
        obtain ⟨l', y, h4, h5, h6⟩ := split_last (show List.Forall₂ (OfGeneration S g) (lastTwo (n + 1)) _ from hn ▸ h.gens g hg1)
        dsimp only [Option.map_some]
        rw [← hg2, modify_last h4, h4, List.map_append]
        have e1 : (l'.map fun o => if o.birth = n + 1 then { o with cf := some v } else o) = l' := by
          conv_rhs => rw [← List.map_id l']
          apply List.map_congr_left
          intro o ho
          rw [if_neg (older h5 o ho)]
          rfl
        rw [e1]
        simp [h6.birth]
    obtain ⟨l', y, h4, h5, h6⟩ := split_last (show List.Forall₂ (OfGeneration S g) (lastTwo (n + 1)) _ from hn ▸ h.gens g hg1)
    refine ⟨_, hset, h.modify hS hc hg1 (fun o => { o with cf := some v }) (fun _ _ ho => ⟨ho.birth, ho.tgm, ho.tpm, ho.space, ho.base, ho.ats⟩)
      { a with cf := fun j => if j = rootOf S f.key then some v else a.cf j } rfl rfl ?_ ?_⟩
    · intro p _ _
      rw [← hg2]
      dsimp only
      split_ifs
      · rw [current_last h4]
        rfl
      · rfl
    · intro p hp hpb
      dsimp only
      split_ifs with he
      · rw [he, ← h.data g hg1 hg3, current_last h4]
        rfl
      · rfl

lemma Inv.read {S : Setup} (hS : Right S) {st : State} {a : Seen} (h : Inv S st a) {f : FormOf} (hf : f ∈ S.forms)
    (hb : f.base = none) (s d : ℕ) :
    (a.count = 0 → Adaptive.read S st f.key s d = none) ∧
      (a.count ≠ 0 → ∃ st', Adaptive.read S st f.key s d = some st' ∧ ∃ a', a.step S (.read f.key s d) = some a' ∧
        Inv S st' a') := by
  constructor
  · intro hn
    unfold Adaptive.read
    rw [h.next, if_pos hn]
  · intro hc
    obtain ⟨st1, a1, h1, h2, h3, h4⟩ : ∃ st1 a1, (if st.stamp = some s then some st else Adaptive.renew S s st) = some st1 ∧
        (if a.stamp = some s then a else a.renew s) = a1 ∧ Inv S st1 a1 ∧ a1.count ≠ 0 := by
      rw [h.stamp]
      split_ifs
      · exact ⟨st, a, rfl, rfl, h, hc⟩
      · obtain ⟨st', h1, h2⟩ := h.renew hS s
        exact ⟨st', _, h1, rfl, h2, Nat.succ_ne_zero _⟩
    obtain ⟨n, hn⟩ := Nat.exists_eq_succ_of_ne_zero h4
    obtain ⟨l', y, h5, h6, h7⟩ := split_last (show List.Forall₂ (OfGeneration S f) (lastTwo (n + 1)) _ from hn ▸ h3.gens f hf)
    refine ⟨_, by
      unfold Adaptive.read
      rw [h.next, if_neg hc, h1]
      simp only [Option.bind_some]
      rw [current_last h5]
      rfl, { a1 with data := fun j => if j = f.key then some d else a1.data j }, by
      unfold Seen.step
      dsimp only
      rw [if_neg hc, h2], ?_⟩
    refine h3.modify hS h4 hf (fun o => { o with cochain := some d })
      (fun _ _ ho => ⟨ho.birth, ho.tgm, ho.tpm, ho.space, ho.base, ho.ats⟩)
      { a1 with data := fun j => if j = f.key then some d else a1.data j } rfl rfl ?_ ?_
    · intro p hp hpb
      dsimp only
      split_ifs with he
      · rw [he, ← h3.own f hf hb, current_last h5]
        rfl
      · rfl
    · intro p _ _
      dsimp only
      split_ifs
      · rw [current_last h5]
        rfl
      · rfl

/-! ### What is current -/

lemma form_current {S : Setup} {st : State} {a : Seen} (h : Inv S st a) {n : ℕ} (hn : a.count = n + 1) {f : FormOf}
    (hf : f ∈ S.forms) : ∃ o, (st.form f.key).current = some o ∧ OfGeneration S f n o := by
  obtain ⟨l', y, h5, _, h7⟩ := split_last (show List.Forall₂ (OfGeneration S f) (lastTwo (n + 1)) _ from hn ▸ h.gens f hf)
  exact ⟨y, current_last h5, h7⟩

lemma Inv.currentBase {S : Setup} (hS : Right S) {st : State} {a : Seen} (h : Inv S st a) :
    (a.count = 0 → currentBase S st = none) ∧
      (a.count ≠ 0 → ∃ st', currentBase S st = some (st', a.count, newest S a.count) ∧ Inv S st' a) := by
  unfold Adaptive.currentBase
  cases hm : S.meshes with
  | nil => exact absurd hm hS.some_mesh
  | cons m0 ms =>
    dsimp only
    have h0 : st.mesh m0.key = meshAt a.count m0 := h.mesh m0 (by rw [hm]; simp)
    rw [h0]
    constructor
    · intro hn
      rw [hn]
      rfl
    · intro hc
      obtain ⟨n, hn⟩ := Nat.exists_eq_succ_of_ne_zero hc
      rw [Nat.succ_eq_add_one] at hn
      rw [hn, meshAt_current]
      simp only [Option.bind_some]
      have hmesh : ∀ m ∈ S.meshes, ((st.mesh m.key).current.map fun o => o.tgm) = some n ∧ (st.mesh m.key).total = n + 1 := by
        intro m hm'
        rw [h.mesh m hm', hn, meshAt_current]
        exact ⟨rfl, rfl⟩
      have hspace : ∀ s ∈ S.spaces, ((st.space s.key).current.map fun o => o.tpm.2) = some n ∧
          (st.space s.key).total = n + 1 := by
        intro s hs
        rw [h.space s hs, hn, spaceAt_current]
        exact ⟨rfl, rfl⟩
      have hform : ∀ f ∈ S.forms, ((st.form f.key).current.map fun o => o.tgm) = some (some n) ∧
          ((st.form f.key).current.map fun o => o.birth) = some (n + 1) ∧ (st.form f.key).total = n + 1 := by
        intro f hf
        obtain ⟨o, h1, h2⟩ := form_current h hn hf
        rw [h1, h.total f hf, hn]
        exact ⟨by simp [h2.tgm], by simp [h2.birth], rfl⟩
      rw [← hm]
      rw [if_pos (by
        simp only [Bool.and_eq_true, List.all_eq_true]
        refine ⟨⟨fun m hm' => ?_, fun s hs => ?_⟩, fun f hf => ?_⟩
        · rw [(hmesh m hm').1, (hmesh m hm').2]; simp [meshAt]
        · rw [(hspace s hs).1, (hspace s hs).2]; simp [meshAt]
        · rw [(hform f hf).1, (hform f hf).2.2]; simp [meshAt])]
      have hb : (⟨n, S.meshes.map fun m => (m.key, ((st.mesh m.key).current.map fun o => o.tgm).getD 0),
            S.spaces.map fun s => (s.key, ((st.space s.key).current.map fun o => o.tpm.2).getD 0),
            S.forms.map fun f => (f.key, ((st.form f.key).current.map fun o => o.birth).getD 0)⟩ : Base) =
          newest S (n + 1) := by
        unfold newest
        congr 1
        · apply List.map_congr_left
          intro m hm'
          rw [(hmesh m hm').1]
          rfl
        · apply List.map_congr_left
          intro s hs
          rw [(hspace s hs).1]
          rfl
        · apply List.map_congr_left
          intro f hf
          rw [(hform f hf).2.1]
          rfl
      rw [hb]
      show ∃ st', (if st.curGen = some (n + 1) then st.curBase.map fun b => (st, n + 1, b) else
        some ({ st with curGen := some (n + 1), curBase := some (newest S (n + 1)) }, n + 1, newest S (n + 1))) =
          some (st', n + 1, newest S (n + 1)) ∧ Inv S st' a
      split_ifs with hg
      · rw [(h.cache _ hg).2]
        exact ⟨st, rfl, h⟩
      · refine ⟨_, rfl, ⟨h.next, h.stamp, h.mesh, h.space, h.total, h.gens, h.own, h.data, ?_, h.nothing⟩⟩
        intro k hk
        have : n + 1 = k := by simpa using hk
        rw [hn, ← this]
        exact ⟨le_refl _, rfl⟩

/-! ### All calls -/

lemma Inv.step {S : Setup} (hS : Right S) {st : State} {a : Seen} (h : Inv S st a) {op : Op} (ho : op.Fits S) :
    (a.step S op = none ∧ Adaptive.step S st op = none) ∨
      ∃ a' st', a.step S op = some a' ∧ Adaptive.step S st op = some st' ∧ Inv S st' a' := by
  cases op with
  | renew s =>
    obtain ⟨st', h1, h2⟩ := h.renew hS s
    exact .inr ⟨_, st', rfl, h1, h2⟩
  | read k s d =>
    obtain ⟨f, hf, rfl, hb⟩ := ho
    by_cases hc : a.count = 0
    · exact .inl ⟨if_pos hc, (h.read hS hf hb s d).1 hc⟩
    · obtain ⟨st', h1, a', h2, h3⟩ := (h.read hS hf hb s d).2 hc
      exact .inr ⟨a', st', h2, h1, h3⟩
  | setCf k v =>
    obtain ⟨f, hf, rfl⟩ := ho
    by_cases hc : a.count = 0
    · exact .inl ⟨if_pos hc, (h.setCf hS hf v).1 hc⟩
    · obtain ⟨st', h1, h2⟩ := (h.setCf hS hf v).2 hc
      exact .inr ⟨_, st', if_neg hc, h1, h2⟩
  | base =>
    by_cases hc : a.count = 0
    · refine .inl ⟨if_pos hc, ?_⟩
      unfold Adaptive.step
      rw [(h.currentBase hS).1 hc]
      rfl
    · obtain ⟨st', h1, h2⟩ := (h.currentBase hS).2 hc
      refine .inr ⟨a, st', if_neg hc, ?_, h2⟩
      unfold Adaptive.step
      rw [h1]
      rfl

lemma Inv.run {S : Setup} (hS : Right S) (ops : List Op) (ho : ∀ op ∈ ops, op.Fits S) :
    ∀ {st : State} {a : Seen}, Inv S st a →
      (a.run S ops = none ∧ Adaptive.run S ops st = none) ∨
        ∃ a' st', a.run S ops = some a' ∧ Adaptive.run S ops st = some st' ∧ Inv S st' a' := by
  induction ops with
  | nil => intro st a h; exact .inr ⟨a, st, rfl, rfl, h⟩
  | cons op ops ih =>
    intro st a h
    unfold Seen.run Adaptive.run
    rw [List.foldlM_cons, List.foldlM_cons]
    rcases h.step hS (ho op (by simp)) with ⟨h1, h2⟩ | ⟨a', st', h1, h2, h3⟩
    · rw [h1, h2]
      exact .inl ⟨rfl, rfl⟩
    · rw [h1, h2]
      exact ih (fun op h => ho op (by simp [h])) h3

/-- C131 (partial: for setups that are right). After any calls, everything that is current is of the newest generation: it is
on the great mesh of the last renewal, and refers to objects of that generation only; the generation before is kept as it was;
the analytic fields are the ones that were set last, also before the last renewal, for a form and its forms at time instants
alike; what was read is the cochain of the current form as long as nothing is renewed; and `current_base` returns what is
current. The calls raise where they should, before the first renewal, and nowhere else. -/
theorem always_fresh_partial {S : Setup} (hS : Right S) (ops : List Op) (ho : ∀ op ∈ ops, op.Fits S) :
    match Seen.run S ops {}, run S ops {} with
    | none, none => True
    | some a, some st => Fresh S st a ∧
        (currentBase S st).map (fun r => r.2) = if a.count = 0 then none else some (a.count, newest S a.count)
    | _, _ => False := by
  rcases Inv.run hS ops ho (Inv.init S) with ⟨h1, h2⟩ | ⟨a, st, h1, h2, h3⟩
  · rw [h1, h2]
    trivial
  · rw [h1, h2]
    refine ⟨h3.fresh hS, ?_⟩
    split_ifs with hc
    · rw [(h3.currentBase hS).1 hc]
      rfl
    · obtain ⟨st', h4, _⟩ := (h3.currentBase hS).2 hc
      rw [h4]
      rfl

end Phyem.Adaptive
