import Verif.Instant.Store
import Mathlib.Data.List.Induction
import Mathlib.Tactic.Common

/-!
# What one reads after any history
-/

namespace Phyem.Instant.Store

open Phyem

/-! ## Specification -/

/-- Object `k` uses object `i`: it is `i`, or what it keeps asks an object that uses `i`. -/
inductive Uses (s : St) : ℕ → ℕ → Prop
  | self (k : ℕ) : Uses s k k
  | ask {k i j : ℕ} {o : Obj} (h : s.objs[k]? = some o) (hr : o.src.ref = some j) (hu : Uses s j i) : Uses s k i

/-- The object an operation changes in place: a cochain that is changed, a vector that is customized or renewed. -/
def changed (s : St) : Op → Option ℕ
  | .change f t _ => Dict.get s.bound (f, t)
  | .customize j _ _ => some j
  | .renew j _ => some j
  | _ => none

/-- The operation gives form `f` a new cochain at time `t`. -/
def Assigns (f : ℕ) (t : ℚ) : Op → Prop
  | .set g u _ => g = f ∧ u = t
  | .setVec g u _ => g = f ∧ u = t
  | .override g u _ => g = f ∧ u = t
  | _ => False

/-- The operation changes the cochain of form `f` at time `t` in place. -/
def Changes (f : ℕ) (t : ℚ) : Op → Prop
  | .change g u _ => g = f ∧ u = t
  | _ => False

/-- The operation changes no object in place. -/
def Pure : Op → Prop
  | .change .. => False
  | .customize .. => False
  | .renew .. => False
  | _ => True

/-- The operation touches vector `j`. -/
def Touches (j : ℕ) : Op → Prop
  | .customize i _ _ => i = j
  | .renew i _ => i = j
  | _ => False

/-! ## Lemmas -/

/-- What holds in every state: references go backwards, forms have objects that are cochains, and no two have the same. -/
structure WF (s : St) : Prop where
  back : ∀ (k : ℕ) (o : Obj) (i : ℕ), s.objs[k]? = some o → o.src.ref = some i → i < k
  inst : ∀ (key : ℕ × ℚ) (i : ℕ), Dict.get s.bound key = some i → ∃ o, s.objs[i]? = some o ∧ o.kind = .inst ∧ o.cus = []
  inj : ∀ (a b : ℕ × ℚ) (i : ℕ), Dict.get s.bound a = some i → Dict.get s.bound b = some i → a = b
  keys : (Dict.keys s.bound).Nodup

lemma evalAll_snoc (l : List Obj) (o : Obj) :
    evalAll (l ++ [o]) = evalAll l ++ [o.eval fun i => (evalAll l).getD i fun _ => []] := by
  simp [evalAll, List.foldl_append]

lemma evalAll_length (l : List Obj) : (evalAll l).length = l.length := by
  induction l using List.reverseRecOn with
  | nil => rfl
  | append_singleton l o ih => rw [evalAll_snoc]; simp [ih]

lemma evalAll_prefix (l m : List Obj) : ∃ r, evalAll (l ++ m) = evalAll l ++ r := by
  induction m using List.reverseRecOn with
  | nil => exact ⟨[], by simp⟩
  | append_singleton m o ih =>
    obtain ⟨r, hr⟩ := ih
    rw [← List.append_assoc, evalAll_snoc, hr]
    exact ⟨_, List.append_assoc _ _ _⟩

lemma getD_prefix (l m : List Obj) (i : ℕ) (h : i < l.length) (d : Data) :
    (evalAll (l ++ m)).getD i d = (evalAll l).getD i d := by
  obtain ⟨r, hr⟩ := evalAll_prefix l m
  rw [hr, List.getD_append _ _ _ _ (by rw [evalAll_length]; exact h)]

lemma eval_congr {o : Obj} {v w : ℕ → Data} (h : ∀ i, o.src.ref = some i → v i = w i) : o.eval v = o.eval w := by
  obtain ⟨kd, src, cus⟩ := o
  funext e
  simp only [Obj.eval]
  cases Dict.get cus e with
  | some v => rfl
  | none =>
    cases src with
    | data d => rfl
    | cob E i => simp only [h i rfl]
    | same i => simp only [h i rfl]
    | scaled c i => simp only [h i rfl]

/-- An object is read by asking the objects it refers to. -/
lemma value_eq {s : St} (hw : WF s) {k : ℕ} {o : Obj} (h : s.objs[k]? = some o) : s.value k = o.eval s.value := by
  have hk : k < s.objs.length := (List.getElem?_eq_some_iff.1 h).1
  have hs : s.objs = s.objs.take k ++ ([o] ++ s.objs.drop (k + 1)) := by
    have e : s.objs[k] = o := (List.getElem?_eq_some_iff.1 h).2
    rw [← e, List.singleton_append, ← List.drop_eq_getElem_cons hk, List.take_append_drop]
  have hl : (s.objs.take k).length = k := by simp; omega
  have hv : ∀ i, i < k → s.value i = (evalAll (s.objs.take k)).getD i fun _ => [] := by
    intro i hi
    unfold St.value
    conv_lhs => rw [hs]
    exact getD_prefix _ _ _ (by omega) _
  have : s.value k = o.eval fun i => (evalAll (s.objs.take k)).getD i fun _ => [] := by
    unfold St.value
    conv_lhs => rw [hs, ← List.append_assoc]
    rw [getD_prefix _ _ _ (by simp; omega), evalAll_snoc, List.getD_append_right _ _ _ _ (by rw [evalAll_length]; omega),
      evalAll_length, hl]
    simp
  rw [this]
  exact eval_congr fun i hi => (hv i (hw.back k o i h hi)).symm

/-- Reading depends only on the objects that are used. -/
lemma value_congr {s s' : St} (hw : WF s) (hw' : WF s') (k : ℕ) :
    k < s.objs.length → (∀ i, Uses s k i → s'.objs[i]? = s.objs[i]?) → s'.value k = s.value k := by
  induction k using Nat.strong_induction_on with
  | _ k ih =>
    intro hk h
    have e : s.objs[k]? = some s.objs[k] := List.getElem?_eq_getElem hk
    rw [value_eq hw e, value_eq hw' ((h k (.self k)).trans e)]
    refine eval_congr fun i hi => ?_
    have hik := hw.back k _ i e hi
    exact ih i hik (by omega) fun j hj => h j (.ask e hi hj)

lemma uses_lt {s : St} (hw : WF s) {k i : ℕ} (h : Uses s k i) (hk : k < s.objs.length) : i < s.objs.length := by
  induction h with
  | self k => exact hk
  | ask ho hr _ ih => exact ih (lt_trans (hw.back _ _ _ ho hr) hk)

lemma wf_make {s : St} (hw : WF s) {o : Obj} (h : ∀ i, o.src.ref = some i → i < s.objs.length) : WF (s.make o) := by
  refine ⟨?_, ?_, hw.inj, hw.keys⟩
  · intro k p i hp hi
    simp only [St.make, List.getElem?_append] at hp
    split at hp
    · exact hw.back k p i hp hi
    · have : k - s.objs.length = 0 := by
        by_contra hne
        rw [List.getElem?_eq_none (by simp; omega)] at hp
        simp at hp
      rw [this] at hp
      cases hp
      have := h i hi
      omega
  · intro key i hi
    obtain ⟨o', h1, h2⟩ := hw.inst key i hi
    refine ⟨o', ?_, h2⟩
    simp only [St.make]
    rw [List.getElem?_append_left (List.getElem?_eq_some_iff.1 h1).1, h1]

lemma wf_bind {s : St} (hw : WF s) {f : ℕ} {t : ℚ} {src : Src} (h : ∀ i, src.ref = some i → i < s.objs.length) :
    WF (s.bind f t src) := by
  have h0 := wf_make hw (o := ⟨.inst, src, []⟩) h
  refine ⟨h0.back, ?_, ?_, Dict.nodup_put _ _ _ hw.keys⟩
  · intro key i hi
    simp only [St.bind, Dict.get_put] at hi ⊢
    split at hi
    · cases hi
      exact ⟨⟨.inst, src, []⟩, by simp, rfl, rfl⟩
    · exact h0.inst key i hi
  · intro a b i ha hb
    have hlt : ∀ key, Dict.get s.bound key ≠ some s.objs.length := by
      intro key hk
      obtain ⟨o, ho, -⟩ := hw.inst key _ hk
      have := (List.getElem?_eq_some_iff.1 ho).1
      omega
    simp only [St.bind, Dict.get_put] at ha hb
    split at ha <;> split at hb
    · subst_vars; simp_all
    · cases ha; exact absurd hb (hlt _)
    · cases hb; exact absurd ha (hlt _)
    · exact hw.inj a b i ha hb

lemma bound_lt {s : St} (hw : WF s) {key : ℕ × ℚ} {i : ℕ} (h : Dict.get s.bound key = some i) : i < s.objs.length := by
  obtain ⟨o, ho, -⟩ := hw.inst key i h
  exact (List.getElem?_eq_some_iff.1 ho).1

lemma kind_lt {s : St} {j : ℕ} {k : Kind} (h : s.kind j = some k) : j < s.objs.length := by
  unfold St.kind at h
  cases e : s.objs[j]? with
  | none => rw [e] at h; simp at h
  | some o => exact (List.getElem?_eq_some_iff.1 e).1

lemma wf_set {s : St} (hw : WF s) {j : ℕ} {o o' : Obj} (h : s.objs[j]? = some o) (hk : o'.kind = o.kind)
    (hr : ∀ i, o'.src.ref = some i → o.src.ref = some i) (hc : o.kind = .inst → o'.cus = []) : WF ⟨s.objs.set j o', s.bound⟩ := by
  have hj := (List.getElem?_eq_some_iff.1 h).1
  refine ⟨?_, ?_, hw.inj, hw.keys⟩
  · intro k p i hp hi
    by_cases hjk : j = k
    · subst hjk
      rw [List.getElem?_set_self hj] at hp
      cases hp
      exact hw.back _ o i h (hr i hi)
    · rw [List.getElem?_set_ne hjk] at hp
      exact hw.back k p i hp hi
  · intro key i hi
    obtain ⟨p, h1, h2, h3⟩ := hw.inst key i hi
    simp only [List.getElem?_set]
    split
    · subst_vars
      rw [h] at h1
      cases h1
      exact ⟨o', by simp [hj], hk.trans h2, hc h2⟩
    · exact ⟨p, h1, h2, h3⟩

/-- Cochains of the derivative: what the loop over the times of `f` does. -/
lemma derive_spec (f f' : ℕ) (E : ℕ → List ℚ → List ℚ) (hff : f ≠ f') (l : List ((ℕ × ℚ) × ℕ)) :
    ∀ s : St, WF s → (∀ p ∈ l, Dict.get s.bound p.1 = some p.2) → (l.map Prod.fst).Nodup → (∀ p ∈ l, p.1.1 ≠ f') →
      WF (derive f f' E l s) ∧ (∃ m, (derive f f' E l s).objs = s.objs ++ m) ∧
      (∀ key, key.1 ≠ f' → Dict.get (derive f f' E l s).bound key = Dict.get s.bound key) ∧
      (∀ t i, ((f, t), i) ∈ l → ∃ k, Dict.get (derive f f' E l s).bound (f', t) = some k ∧
        (derive f f' E l s).objs[k]? = some ⟨.inst, .cob E i, []⟩) ∧
      (∀ t, (∀ i, ((f, t), i) ∉ l) → Dict.get (derive f f' E l s).bound (f', t) = Dict.get s.bound (f', t)) := by
  induction l with
  | nil =>
    intro s hw _ _ _
    exact ⟨hw, ⟨[], by simp [derive]⟩, fun _ _ => rfl, by simp, fun _ _ => rfl⟩
  | cons p l ih =>
    intro s hw hl hn hf
    obtain ⟨⟨g, t⟩, i⟩ := p
    simp only [List.map_cons, List.nodup_cons] at hn
    have hi : Dict.get s.bound (g, t) = some i := hl ((g, t), i) (List.mem_cons_self ..)
    by_cases hg : g = f
    · subst hg
      have e : derive g f' E (((g, t), i) :: l) s = derive g f' E l (s.bind f' t (.cob E i)) := by
        simp [derive]
      rw [e]
      have hw' : WF (s.bind f' t (.cob E i)) := wf_bind hw (by intro j hj; cases hj; exact bound_lt hw hi)
      have hkeep : ∀ key : ℕ × ℚ, key.1 ≠ f' →
          Dict.get (s.bind f' t (.cob E i)).bound key = Dict.get s.bound key := by
        intro key hk
        simp only [St.bind, Dict.get_put]
        rw [if_neg]
        rintro rfl
        exact hk rfl
      obtain ⟨h1, ⟨m, h2⟩, h3, h4, h5⟩ := ih _ hw' (fun p hp => by
        rw [hkeep _ (hf p (List.mem_cons_of_mem _ hp))]
        exact hl p (List.mem_cons_of_mem _ hp)) hn.2 (fun p hp => hf p (List.mem_cons_of_mem _ hp))
      refine ⟨h1, ⟨_, by rw [h2]; exact List.append_assoc _ _ _⟩, fun key hk => (h3 key hk).trans (hkeep key hk), ?_, ?_⟩
      · intro u j hj
        rcases List.mem_cons.1 hj with hj | hj
        · cases hj
          refine ⟨s.objs.length, ?_, ?_⟩
          · rw [h5 t]
            · simp [St.bind, Dict.get_put]
            · intro j hj
              exact hn.1 (List.mem_map.2 ⟨_, hj, rfl⟩)
          · rw [h2]
            simp [St.bind]
        · exact h4 u j hj
      · intro u hu
        rw [h5 u fun j hj => hu j (List.mem_cons_of_mem _ hj)]
        simp only [St.bind, Dict.get_put]
        rw [if_neg]
        intro h
        simp only [Prod.mk.injEq, true_and] at h
        subst h
        exact hu i (List.mem_cons_self ..)
    · have e : derive f f' E (((g, t), i) :: l) s = derive f f' E l s := by
        simp [derive, hg]
      rw [e]
      obtain ⟨h1, h2, h3, h4, h5⟩ := ih _ hw (fun p hp => hl p (List.mem_cons_of_mem _ hp)) hn.2
        (fun p hp => hf p (List.mem_cons_of_mem _ hp))
      refine ⟨h1, h2, h3, ?_, fun u hu => h5 u fun j hj => hu j (List.mem_cons_of_mem _ hj)⟩
      intro u j hj
      rcases List.mem_cons.1 hj with hj | hj
      · cases hj; exact absurd rfl hg
      · exact h4 u j hj

lemma derive_none (f f' : ℕ) (E : ℕ → List ℚ → List ℚ) (l : List ((ℕ × ℚ) × ℕ)) (h : ∀ p ∈ l, p.1.1 ≠ f) (s : St) :
    derive f f' E l s = s := by
  induction l with
  | nil => rfl
  | cons p l ih =>
    have hp := h p (List.mem_cons_self ..)
    simp only [derive, if_neg hp]
    exact ih fun q hq => h q (List.mem_cons_of_mem _ hq)

/-- What `d` does in a state in which the new name is free. -/
lemma step_d {s : St} (hw : WF s) {f f' : ℕ} {E : ℕ → List ℚ → List ℚ} (hfree : ∀ p ∈ s.bound, p.1.1 ≠ f') :
    WF (step s (.d f f' E)) ∧ (∃ m, (step s (.d f f' E)).objs = s.objs ++ m) ∧
      (∀ key, key.1 ≠ f' → Dict.get (step s (.d f f' E)).bound key = Dict.get s.bound key) ∧
      (∀ t i, Dict.get s.bound (f, t) = some i → ∃ k, Dict.get (step s (.d f f' E)).bound (f', t) = some k ∧
        (step s (.d f f' E)).objs[k]? = some ⟨.inst, .cob E i, []⟩) := by
  have e : step s (.d f f' E) = derive f f' E s.bound s := by
    simp only [step]
    rw [if_neg]
    rintro ⟨p, hp, h⟩
    exact hfree p hp h
  rw [e]
  by_cases hff : f = f'
  · subst hff
    rw [derive_none f f E s.bound hfree s]
    refine ⟨hw, ⟨[], by simp⟩, fun _ _ => rfl, fun t i hi => ?_⟩
    exact absurd rfl (hfree _ (Dict.get_mem _ _ _ hi))
  · obtain ⟨h1, h2, h3, h4, -⟩ := derive_spec f f' E hff s.bound s hw
      (fun p hp => Dict.get_of_mem _ hw.keys _ _ hp) hw.keys hfree
    exact ⟨h1, h2, h3, fun t i hi => h4 t i (Dict.get_mem _ _ _ hi)⟩

/-- Everything about one step: it keeps the invariant, all objects but the changed one, and all cochains that are not assigned. -/
lemma step_spec {s : St} (hw : WF s) (op : Op) :
    WF (step s op) ∧ (∀ k, k < s.objs.length → changed s op ≠ some k → (step s op).objs[k]? = s.objs[k]?) ∧
      (∀ f t i, Dict.get s.bound (f, t) = some i → ¬ Assigns f t op → Dict.get (step s op).bound (f, t) = some i) ∧
      s.objs.length ≤ (step s op).objs.length := by
  have happ : ∀ (m : List Obj) k, k < s.objs.length → (s.objs ++ m)[k]? = s.objs[k]? := fun m k hk =>
    List.getElem?_append_left hk
  have hmk : ∀ o, (∀ i, o.src.ref = some i → i < s.objs.length) → WF (s.make o) ∧
      (∀ k, k < s.objs.length → (s.make o).objs[k]? = s.objs[k]?) ∧
      (∀ f t i, Dict.get s.bound (f, t) = some i → Dict.get (s.make o).bound (f, t) = some i) ∧
      s.objs.length ≤ (s.make o).objs.length := fun o h =>
    ⟨wf_make hw h, fun k hk => happ _ k hk, fun _ _ _ h => h, by simp [St.make]⟩
  have hbd : ∀ f t src, (∀ i, src.ref = some i → i < s.objs.length) → WF (s.bind f t src) ∧
      (∀ k, k < s.objs.length → (s.bind f t src).objs[k]? = s.objs[k]?) ∧
      (∀ g u i, Dict.get s.bound (g, u) = some i → ¬ (f = g ∧ t = u) → Dict.get (s.bind f t src).bound (g, u) = some i) ∧
      s.objs.length ≤ (s.bind f t src).objs.length := fun f t src h =>
    ⟨wf_bind hw h, fun k hk => happ _ k hk, fun g u i hi hne => by
      simp only [St.bind, Dict.get_put]
      rw [if_neg, hi]
      intro h
      simp only [Prod.mk.injEq] at h
      exact hne (by tauto), by simp [St.bind]⟩
  have hst : ∀ j o o', s.objs[j]? = some o → o'.kind = o.kind → (∀ i, o'.src.ref = some i → o.src.ref = some i) →
      (o.kind = .inst → o'.cus = []) → WF ⟨s.objs.set j o', s.bound⟩ ∧
      (∀ k, k < s.objs.length → some j ≠ some k → (s.objs.set j o')[k]? = s.objs[k]?) := fun j o o' h1 h2 h3 h4 =>
    ⟨wf_set hw h1 h2 h3 h4, fun k _ hne => by rw [List.getElem?_set_ne (fun h => hne (by rw [h]))]⟩
  have hid : WF s ∧ (∀ k, k < s.objs.length → s.objs[k]? = s.objs[k]?) ∧
      (∀ f t i, Dict.get s.bound (f, t) = some i → Dict.get s.bound (f, t) = some i) ∧ s.objs.length ≤ s.objs.length :=
    ⟨hw, fun _ _ => rfl, fun _ _ _ h => h, le_refl _⟩
  cases op with
  | set f t d =>
    obtain ⟨h1, h2, h3, h4⟩ := hbd f t (.data d) (by intro i h; cases h)
    exact ⟨h1, fun k hk _ => h2 k hk, fun g u i hi hn => h3 g u i hi hn, h4⟩
  | setVec f t j =>
    simp only [step]
    split
    · rename_i hj
      obtain ⟨h1, h2, h3, h4⟩ := hbd f t (.same j) (by intro i h; cases h; exact kind_lt hj)
      exact ⟨h1, fun k hk _ => h2 k hk, fun g u i hi hn => h3 g u i hi hn, h4⟩
    · exact ⟨hid.1, fun k hk _ => rfl, fun g u i hi _ => hi, le_refl _⟩
  | override f t j =>
    simp only [step]
    split
    · obtain ⟨h1, h2, h3, h4⟩ := hbd f t (.data (s.value j)) (by intro i h; cases h)
      exact ⟨h1, fun k hk _ => h2 k hk, fun g u i hi hn => h3 g u i hi hn, h4⟩
    · exact ⟨hid.1, fun k hk _ => rfl, fun g u i hi _ => hi, le_refl _⟩
  | d f f' E =>
    by_cases hfree : ∃ p ∈ s.bound, p.1.1 = f'
    · have e : step s (.d f f' E) = s := by simp only [step]; rw [if_pos hfree]
      rw [e]
      exact ⟨hid.1, fun k hk _ => rfl, fun g u i hi _ => hi, le_refl _⟩
    · have hfree' : ∀ p ∈ s.bound, p.1.1 ≠ f' := fun p hp h => hfree ⟨p, hp, h⟩
      obtain ⟨h1, ⟨m, h2⟩, h3, h4⟩ := step_d hw (f := f) (E := E) hfree'
      refine ⟨h1, fun k hk _ => by rw [h2]; exact happ m k hk, fun g u i hi _ => ?_, by rw [h2]; simp⟩
      rw [h3 (g, u) (hfree' _ (Dict.get_mem _ _ _ hi)), hi]
  | change f t g =>
    simp only [step, changed]
    cases hb : Dict.get s.bound (f, t) with
    | none => exact ⟨hid.1, fun k hk _ => rfl, fun g u i hi _ => hi, le_refl _⟩
    | some i =>
      obtain ⟨o, ho, hk, hc⟩ := hw.inst _ i hb
      obtain ⟨h1, h2⟩ := hst i o ⟨.inst, .data (g (s.value i)), []⟩ ho hk.symm (by intro j h; cases h) (fun _ => rfl)
      exact ⟨h1, h2, fun g u j hj _ => hj, by simp⟩
  | static f t =>
    simp only [step]
    cases hb : Dict.get s.bound (f, t) with
    | none => exact ⟨hid.1, fun k hk _ => rfl, fun g u i hi _ => hi, le_refl _⟩
    | some i =>
      obtain ⟨h1, h2, h3, h4⟩ := hmk ⟨.cvec, .same i, []⟩ (by intro j h; cases h; exact bound_lt hw hb)
      exact ⟨h1, fun k hk _ => h2 k hk, fun g u j hj _ => h3 g u j hj, h4⟩
  | vec d =>
    obtain ⟨h1, h2, h3, h4⟩ := hmk ⟨.vec, .data d, []⟩ (by intro j h; cases h)
    exact ⟨h1, fun k hk _ => h2 k hk, fun g u j hj _ => h3 g u j hj, h4⟩
  | scale c j =>
    simp only [step]
    split
    · rename_i hj
      obtain ⟨h1, h2, h3, h4⟩ := hmk ⟨.vec, .scaled c j, []⟩ (by intro i h; cases h; exact kind_lt hj)
      exact ⟨h1, fun k hk _ => h2 k hk, fun g u j hj _ => h3 g u j hj, h4⟩
    · exact ⟨hid.1, fun k hk _ => rfl, fun g u i hi _ => hi, le_refl _⟩
  | combine op j k =>
    simp only [step]
    split
    · obtain ⟨h1, h2, h3, h4⟩ := hmk ⟨.vec, .data fun e => op (s.value j e) (s.value k e), []⟩ (by intro i h; cases h)
      exact ⟨h1, fun k hk _ => h2 k hk, fun g u j hj _ => h3 g u j hj, h4⟩
    · exact ⟨hid.1, fun k hk _ => rfl, fun g u i hi _ => hi, le_refl _⟩
  | customize j e v =>
    simp only [step, changed]
    cases ho : s.objs[j]? with
    | none => exact ⟨hid.1, fun k hk _ => rfl, fun g u i hi _ => hi, le_refl _⟩
    | some o =>
      dsimp only
      split
      · exact ⟨hid.1, fun k hk _ => rfl, fun g u i hi _ => hi, le_refl _⟩
      · rename_i hk
        obtain ⟨h1, h2⟩ := hst j o { o with cus := Dict.put o.cus e v } ho rfl (fun i h => h) (fun h => absurd h hk)
        exact ⟨h1, h2, fun g u j hj _ => hj, by simp⟩
  | renew j d =>
    simp only [step, changed]
    cases ho : s.objs[j]? with
    | none => exact ⟨hid.1, fun k hk _ => rfl, fun g u i hi _ => hi, le_refl _⟩
    | some o =>
      dsimp only
      split
      · exact ⟨hid.1, fun k hk _ => rfl, fun g u i hi _ => hi, le_refl _⟩
      · rename_i hk
        obtain ⟨h1, h2⟩ := hst j o ⟨o.kind, .data d, []⟩ ho rfl (by intro i h; cases h) (fun _ => rfl)
        exact ⟨h1, h2, fun g u j hj _ => hj, by simp⟩

lemma run_wf {s : St} (hw : WF s) (ops : List Op) : WF (run s ops) := by
  induction ops generalizing s with
  | nil => exact hw
  | cons op ops ih => exact ih (step_spec hw op).1

lemma init_wf : WF St.init := ⟨by simp [St.init], by simp [St.init, Dict.get], by simp [St.init, Dict.get],
  by simp [St.init, Dict.keys]⟩

/-- Objects stay as long as nothing changes them. -/
lemma run_obj {s : St} (hw : WF s) {k : ℕ} {o : Obj} (h : s.objs[k]? = some o) (ops : List Op)
    (hn : ∀ op ∈ ops, ¬ Touches k op) (hi : o.kind = .inst → ∀ op ∈ ops, ∀ f t g, op ≠ .change f t g) :
    (run s ops).objs[k]? = some o := by
  induction ops generalizing s with
  | nil => exact h
  | cons op ops ih =>
    obtain ⟨h1, h2, -, -⟩ := step_spec hw op
    refine ih h1 ?_ (fun p hp => hn p (List.mem_cons_of_mem _ hp)) (fun hk p hp => hi hk p (List.mem_cons_of_mem _ hp))
    rw [h2 k (List.getElem?_eq_some_iff.1 h).1, h]
    have ht := hn op (List.mem_cons_self ..)
    intro hc
    cases op <;> simp only [changed, Touches, reduceCtorEq, Option.some.injEq] at hc ht
    · rename_i f t g
      obtain ⟨o', ho', hk, -⟩ := hw.inst _ _ hc
      rw [h] at ho'
      cases ho'
      exact hi hk _ (List.mem_cons_self ..) f t g rfl
    · exact ht hc
    · exact ht hc

/-- A form keeps its cochain object as long as it is not given another. -/
lemma run_bound {f : ℕ} {t : ℚ} (post : List Op) (hp : ∀ op ∈ post, ¬ Assigns f t op) {s : St} (hw : WF s) {i : ℕ}
    (hi : Dict.get s.bound (f, t) = some i) : Dict.get (run s post).bound (f, t) = some i := by
  induction post generalizing s with
  | nil => exact hi
  | cons op post ih =>
    obtain ⟨g1, -, g3, -⟩ := step_spec hw op
    exact ih (fun q hq => hp q (List.mem_cons_of_mem _ hq)) g1 (g3 f t i hi (hp op (List.mem_cons_self ..)))

/-! ## Theorems -/

/-- **What an object gives changes only when an object it uses is changed in place.** In every state that a program reaches, after any
further operation, every object that existed gives the same values, unless the operation changes in place this object or one that it asks.
In particular giving a form a new cochain, deriving, adding or scaling changes no existing object. -/
theorem value_frame (ops : List Op) (op : Op) (k : ℕ) (hk : k < (run .init ops).objs.length)
    (h : ∀ i, changed (run .init ops) op = some i → ¬ Uses (run .init ops) k i) :
    (step (run .init ops) op).value k = (run .init ops).value k := by
  have hw := run_wf init_wf ops
  obtain ⟨h1, h2, -, -⟩ := step_spec hw op
  refine value_congr hw h1 k hk fun i hi => ?_
  have hlt := uses_lt hw hi hk
  exact h2 i hlt fun hc => h i hc hi

/-- **The derivative follows the cochain object.** After `f' = f.d()`, and then any operations which give neither form a new cochain at `t`
and do not change that of `f'` in place: at time `t`, `f'` gives `E` times what `f` gives *now*, whatever was changed in place, customized
or renewed in between. -/
theorem d_follows (ops : List Op) (f f' : ℕ) (E : ℕ → List ℚ → List ℚ) (t : ℚ) (post : List Op)
    (hfree : ∀ p ∈ (run .init ops).bound, p.1.1 ≠ f') (hf : ((run .init ops).read f t).isSome)
    (hpost : ∀ op ∈ post, ¬ Assigns f t op ∧ ¬ Assigns f' t op ∧ ¬ Changes f' t op) :
    ∃ v, (run .init (ops ++ .d f f' E :: post)).read f t = some v ∧
      (run .init (ops ++ .d f f' E :: post)).read f' t = some fun e => E e (v e) := by
  have hw := run_wf init_wf ops
  have e : run .init (ops ++ .d f f' E :: post) = run (step (run .init ops) (.d f f' E)) post := by
    simp [run, List.foldl_append]
  rw [e]
  obtain ⟨i, hi⟩ : ∃ i, Dict.get (run .init ops).bound (f, t) = some i := by
    unfold St.read at hf
    cases hb : Dict.get (run .init ops).bound (f, t) with
    | none => rw [hb] at hf; simp at hf
    | some i => exact ⟨i, rfl⟩
  have hff : f ≠ f' := hfree _ (Dict.get_mem _ _ _ hi)
  obtain ⟨h1, -, h3, h4⟩ := step_d hw (f := f) (E := E) hfree
  obtain ⟨k, hk, ho⟩ := h4 t i hi
  have hfi := (h3 (f, t) hff).trans hi
  generalize step (run .init ops) (.d f f' E) = s at h1 hk ho hfi
  clear hfree hf h3 h4 hi hw e ops
  have key : ∀ post : List Op, (∀ op ∈ post, ¬ Assigns f t op ∧ ¬ Assigns f' t op ∧ ¬ Changes f' t op) → ∀ s : St, WF s →
      Dict.get s.bound (f, t) = some i → Dict.get s.bound (f', t) = some k → s.objs[k]? = some ⟨.inst, .cob E i, []⟩ →
      WF (run s post) ∧ Dict.get (run s post).bound (f, t) = some i ∧ Dict.get (run s post).bound (f', t) = some k ∧
        (run s post).objs[k]? = some ⟨.inst, .cob E i, []⟩ := by
    intro post
    induction post with
    | nil => exact fun _ s a b c d => ⟨a, b, c, d⟩
    | cons op post ih =>
      intro hp s hw hb hb' ho
      obtain ⟨g1, g2, g3, -⟩ := step_spec hw op
      obtain ⟨p1, p2, p3⟩ := hp op (List.mem_cons_self ..)
      by_cases hc : changed s op = some k
      · cases op <;> simp only [changed, reduceCtorEq, Option.some.injEq] at hc
        · rename_i g u h
          have := hw.inj _ _ _ hc hb'
          simp only [Prod.mk.injEq] at this
          exact absurd this p3
        · rename_i j e v
          subst hc
          have : step s (.customize j e v) = s := by simp [step, ho]
          exact ih (fun q hq => hp q (List.mem_cons_of_mem _ hq)) _ (by rw [this]; exact hw) (by rw [this]; exact hb)
            (by rw [this]; exact hb') (by rw [this]; exact ho)
        · rename_i j d
          subst hc
          have : step s (.renew j d) = s := by simp [step, ho]
          exact ih (fun q hq => hp q (List.mem_cons_of_mem _ hq)) _ (by rw [this]; exact hw) (by rw [this]; exact hb)
            (by rw [this]; exact hb') (by rw [this]; exact ho)
      · exact ih (fun q hq => hp q (List.mem_cons_of_mem _ hq)) _ g1 (g3 f t i hb p1) (g3 f' t k hb' p2)
          ((g2 k (List.getElem?_eq_some_iff.1 ho).1 hc).trans ho)
  obtain ⟨w, b, b', o⟩ := key post hpost s h1 hfi hk ho
  refine ⟨(run s post).value i, by simp [St.read, b], ?_⟩
  simp only [St.read, b', Option.map_some, value_eq w o]
  rfl

/-- **The derivative keeps its values if nothing is changed in place.** After `f' = f.d()`, and then any operations that change no cochain
and no vector in place and do not give `f'` a new cochain at `t`: `f'` gives `E` times what `f` gave *when `d` was taken*, whatever new
cochains `f` was given. -/
theorem d_keeps (ops : List Op) (f f' : ℕ) (E : ℕ → List ℚ → List ℚ) (t : ℚ) (v : Data) (post : List Op)
    (hfree : ∀ p ∈ (run .init ops).bound, p.1.1 ≠ f') (hf : (run .init ops).read f t = some v)
    (hpost : ∀ op ∈ post, Pure op ∧ ¬ Assigns f' t op) :
    (run .init (ops ++ .d f f' E :: post)).read f' t = some fun e => E e (v e) := by
  have hw := run_wf init_wf ops
  have e : run .init (ops ++ .d f f' E :: post) = run (step (run .init ops) (.d f f' E)) post := by
    simp [run, List.foldl_append]
  rw [e]
  obtain ⟨i, hi, hv⟩ : ∃ i, Dict.get (run .init ops).bound (f, t) = some i ∧ (run .init ops).value i = v := by
    unfold St.read at hf
    cases hb : Dict.get (run .init ops).bound (f, t) with
    | none => rw [hb] at hf; simp at hf
    | some i => rw [hb] at hf; exact ⟨i, rfl, by simpa using hf⟩
  obtain ⟨h1, -, -, h4⟩ := step_d hw (f := f) (E := E) hfree
  obtain ⟨k, hk, ho⟩ := h4 t i hi
  have hvi : (step (run .init ops) (.d f f' E)).value i = v := by
    rw [value_frame ops _ i (bound_lt hw hi) (by intro j hj; simp [changed] at hj), hv]
  have hvk : (step (run .init ops) (.d f f' E)).value k = fun e => E e (v e) := by
    rw [value_eq h1 ho, ← hvi]; rfl
  generalize step (run .init ops) (.d f f' E) = s at h1 hk hvk
  have key : ∀ post : List Op, (∀ op ∈ post, Pure op ∧ ¬ Assigns f' t op) → ∀ s : St, WF s →
      Dict.get s.bound (f', t) = some k →
      Dict.get (run s post).bound (f', t) = some k ∧ (run s post).value k = s.value k := by
    intro post
    induction post with
    | nil => exact fun _ s _ b => ⟨b, rfl⟩
    | cons op post ih =>
      intro hp s hw hb
      obtain ⟨p1, p2⟩ := hp op (List.mem_cons_self ..)
      obtain ⟨g1, g2, g3, -⟩ := step_spec hw op
      have hc : changed s op = none := by cases op <;> simp_all [changed, Pure]
      obtain ⟨r1, r2⟩ := ih (fun q hq => hp q (List.mem_cons_of_mem _ hq)) (step s op) g1 (g3 f' t k hb p2)
      refine ⟨r1, r2.trans ?_⟩
      refine value_congr hw g1 k (bound_lt hw hb) fun j hj => ?_
      have hlt := uses_lt hw hj (bound_lt hw hb)
      exact g2 j hlt (by rw [hc]; simp)
  obtain ⟨r1, r2⟩ := key post hpost s h1 hk
  simp only [St.read, r1, Option.map_some, r2, hvk]

/-- **A multiple of a vector follows the vector.** After `w = c * v` (or `- v`), and then any operations that do not customize or renew `w`
itself, `w` gives `c` times what `v` gives *now*. -/
theorem scale_follows (ops : List Op) (c : ℚ) (j : ℕ) (hj : (run .init ops).kind j = some .vec) (post : List Op)
    (hpost : ∀ op ∈ post, ¬ Touches (run .init ops).objs.length op) :
    (run .init (ops ++ .scale c j :: post)).value (run .init ops).objs.length =
      fun e => ((run .init (ops ++ .scale c j :: post)).value j e).map fun x => c * x := by
  have hw := run_wf init_wf ops
  have e : run .init (ops ++ .scale c j :: post) = run (step (run .init ops) (.scale c j)) post := by
    simp [run, List.foldl_append]
  have hs : step (run .init ops) (.scale c j) = (run .init ops).make ⟨.vec, .scaled c j, []⟩ := by simp [step, hj]
  have ho := run_obj (step_spec hw (.scale c j)).1 (k := (run .init ops).objs.length) (o := ⟨.vec, .scaled c j, []⟩)
    (by rw [hs]; simp [St.make]) post hpost (by simp)
  rw [e, value_eq (run_wf (step_spec hw (.scale c j)).1 post) ho]
  rfl

/-- **A sum of vectors does not follow them.** After `w = u + v` (or `-`, of vectors or cochains), and then any operations that do not
customize or renew `w` itself, `w` gives what `u` and `v` gave *when it was computed*. -/
theorem combine_keeps (ops : List Op) (g : List ℚ → List ℚ → List ℚ) (i j : ℕ)
    (hi : (run .init ops).kind i = some .vec ∨ (run .init ops).kind i = some .inst) (hj : ((run .init ops).kind j).isSome)
    (post : List Op) (hpost : ∀ op ∈ post, ¬ Touches (run .init ops).objs.length op) :
    (run .init (ops ++ .combine g i j :: post)).value (run .init ops).objs.length =
      fun e => g ((run .init ops).value i e) ((run .init ops).value j e) := by
  have hw := run_wf init_wf ops
  have e : run .init (ops ++ .combine g i j :: post) = run (step (run .init ops) (.combine g i j)) post := by
    simp [run, List.foldl_append]
  have hs : step (run .init ops) (.combine g i j) =
      (run .init ops).make ⟨.vec, .data fun e => g ((run .init ops).value i e) ((run .init ops).value j e), []⟩ := by
    simp only [step]; rw [if_pos ⟨hi, hj⟩]
  have ho := run_obj (step_spec hw (.combine g i j)).1 (k := (run .init ops).objs.length)
    (o := ⟨.vec, .data fun e => g ((run .init ops).value i e) ((run .init ops).value j e), []⟩)
    (by rw [hs]; simp [St.make]) post hpost (by simp)
  rw [e, value_eq (run_wf (step_spec hw (.combine g i j)).1 post) ho]
  rfl

/-- **A cochain that was given a vector follows the vector.** After `f[t].cochain = v`, and then any operations that give `f` no other
cochain at `t` and change none in place, `f` at `t` gives what the vector gives *now*, with later customizations. -/
theorem set_vector_follows (ops : List Op) (f : ℕ) (t : ℚ) (j : ℕ) (hj : (run .init ops).kind j = some .vec) (post : List Op)
    (hpost : ∀ op ∈ post, ¬ Assigns f t op ∧ (∀ g u h, op ≠ .change g u h) ∧ ¬ Touches (run .init ops).objs.length op) :
    (run .init (ops ++ .setVec f t j :: post)).read f t = some ((run .init (ops ++ .setVec f t j :: post)).value j) := by
  have hw := run_wf init_wf ops
  have e : run .init (ops ++ .setVec f t j :: post) = run (step (run .init ops) (.setVec f t j)) post := by
    simp [run, List.foldl_append]
  have hs : step (run .init ops) (.setVec f t j) = (run .init ops).bind f t (.same j) := by simp [step, hj]
  have hw' := (step_spec hw (.setVec f t j)).1
  have ho := run_obj hw' (k := (run .init ops).objs.length) (o := ⟨.inst, .same j, []⟩)
    (by rw [hs]; simp [St.bind]) post (fun op h => (hpost op h).2.2) (fun _ op h => (hpost op h).2.1)
  have := run_bound post (fun op h => (hpost op h).1) hw' (i := (run .init ops).objs.length) (by rw [hs]; simp [St.bind, Dict.get_put])
  rw [e]
  simp only [St.read, this, Option.map_some, value_eq (run_wf hw' post) ho]
  rfl

/-- **A cochain vector follows the cochain object.** After `v = f.cochain.static_vec(t)`, and then any operations that do not customize
or renew `v` itself and do not give `f` a new cochain at `t`, `v` gives what `f` gives at `t` *now*. -/
theorem static_follows (ops : List Op) (f : ℕ) (t : ℚ) (hf : ((run .init ops).read f t).isSome) (post : List Op)
    (hpost : ∀ op ∈ post, ¬ Assigns f t op ∧ ¬ Touches (run .init ops).objs.length op) :
    (run .init (ops ++ .static f t :: post)).read f t =
      some ((run .init (ops ++ .static f t :: post)).value (run .init ops).objs.length) := by
  have hw := run_wf init_wf ops
  have e : run .init (ops ++ .static f t :: post) = run (step (run .init ops) (.static f t)) post := by
    simp [run, List.foldl_append]
  obtain ⟨i, hi⟩ : ∃ i, Dict.get (run .init ops).bound (f, t) = some i := by
    unfold St.read at hf
    cases hb : Dict.get (run .init ops).bound (f, t) with
    | none => rw [hb] at hf; simp at hf
    | some i => exact ⟨i, rfl⟩
  have hs : step (run .init ops) (.static f t) = (run .init ops).make ⟨.cvec, .same i, []⟩ := by simp [step, hi]
  have hw' := (step_spec hw (.static f t)).1
  have ho := run_obj hw' (k := (run .init ops).objs.length) (o := ⟨.cvec, .same i, []⟩)
    (by rw [hs]; simp [St.make]) post (fun op h => (hpost op h).2) (by simp)
  have := run_bound post (fun op h => (hpost op h).1) hw' (i := i) (by rw [hs]; exact hi)
  rw [e]
  simp only [St.read, this, Option.map_some, value_eq (run_wf hw' post) ho]
  rfl

/-- **Writing a cochain vector back takes its values.** After `v.override()`, and then any operations that change nothing in place and do not
give `f` another cochain at `t`, `f` gives at `t` what the vector gave *when it was written back*. -/
theorem override_keeps (ops : List Op) (f : ℕ) (t : ℚ) (j : ℕ) (hj : (run .init ops).kind j = some .cvec) (post : List Op)
    (hpost : ∀ op ∈ post, ¬ Assigns f t op ∧ (∀ g u h, op ≠ .change g u h) ∧ ¬ Touches (run .init ops).objs.length op) :
    (run .init (ops ++ .override f t j :: post)).read f t = some ((run .init ops).value j) := by
  have hw := run_wf init_wf ops
  have e : run .init (ops ++ .override f t j :: post) = run (step (run .init ops) (.override f t j)) post := by
    simp [run, List.foldl_append]
  have hs : step (run .init ops) (.override f t j) = (run .init ops).bind f t (.data ((run .init ops).value j)) := by
    simp [step, hj]
  have hw' := (step_spec hw (.override f t j)).1
  have ho := run_obj hw' (k := (run .init ops).objs.length) (o := ⟨.inst, .data ((run .init ops).value j), []⟩)
    (by rw [hs]; simp [St.bind]) post (fun op h => (hpost op h).2.2) (fun _ op h => (hpost op h).2.1)
  have := run_bound post (fun op h => (hpost op h).1) hw' (i := (run .init ops).objs.length)
    (by rw [hs]; simp [St.bind, Dict.get_put])
  rw [e]
  simp only [St.read, this, Option.map_some, value_eq (run_wf hw' post) ho]
  rfl

/-- **What is put in is read.** In every state: a form that is given data has them at this time, and other forms and times have the object
they had; a cochain that is changed has the changed values; a vector that is customized gives the new values in this element and what it
gave in the others; a vector whose data are renewed gives the new data, without its customizations. -/
theorem reads_back (ops : List Op) :
    (∀ f t d, (step (run .init ops) (.set f t d)).read f t = some d ∧
      ∀ g u, (g, u) ≠ (f, t) → (step (run .init ops) (.set f t d)).read g u = (run .init ops).read g u) ∧
    (∀ f t g v, (run .init ops).read f t = some v → (step (run .init ops) (.change f t g)).read f t = some (g v)) ∧
    (∀ j e v, (run .init ops).kind j = some .vec ∨ (run .init ops).kind j = some .cvec →
      (step (run .init ops) (.customize j e v)).value j e = v ∧
      ∀ e', e' ≠ e → (step (run .init ops) (.customize j e v)).value j e' = (run .init ops).value j e') ∧
    (∀ j d, (run .init ops).kind j = some .vec ∨ (run .init ops).kind j = some .cvec →
      (step (run .init ops) (.renew j d)).value j = d) := by
  have hw := run_wf init_wf ops
  have hfr := fun op k => value_frame ops op k
  generalize run .init ops = s at hw hfr
  have obj : ∀ j, s.kind j = some .vec ∨ s.kind j = some .cvec → ∃ o, s.objs[j]? = some o ∧ o.kind ≠ .inst := by
    intro j h
    unfold St.kind at h
    cases ho : s.objs[j]? with
    | none => rw [ho] at h; simp at h
    | some o =>
      rw [ho] at h
      refine ⟨o, rfl, fun hk => ?_⟩
      simp [hk] at h
  refine ⟨fun f t d => ⟨?_, fun g u hne => ?_⟩, fun f t g v hv => ?_, fun j e v hj => ?_, fun j d hj => ?_⟩
  · have w := (step_spec hw (.set f t d)).1
    have ho : (step s (.set f t d)).objs[s.objs.length]? = some ⟨.inst, .data d, []⟩ := by simp [step, St.bind]
    have hb : Dict.get (step s (.set f t d)).bound (f, t) = some s.objs.length := by simp [step, St.bind, Dict.get_put]
    simp only [St.read, hb, Option.map_some, value_eq w ho]
    rfl
  · have hb : Dict.get (step s (.set f t d)).bound (g, u) = Dict.get s.bound (g, u) := by
      simp only [step, St.bind, Dict.get_put]
      rw [if_neg hne]
    simp only [St.read, hb]
    cases hg : Dict.get s.bound (g, u) with
    | none => rfl
    | some i =>
      simp only [Option.map_some]
      rw [hfr (.set f t d) i (bound_lt hw hg) (by intro i hi; simp [changed] at hi)]
  · unfold St.read at hv
    cases hb : Dict.get s.bound (f, t) with
    | none => rw [hb] at hv; simp at hv
    | some i =>
      rw [hb] at hv
      have hv : s.value i = v := by simpa using hv
      have w := (step_spec hw (.change f t g)).1
      have hs : step s (.change f t g) = ⟨s.objs.set i ⟨.inst, .data (g (s.value i)), []⟩, s.bound⟩ := by simp [step, hb]
      have ho : (step s (.change f t g)).objs[i]? = some ⟨.inst, .data (g v), []⟩ := by
        rw [hs, ← hv]
        exact List.getElem?_set_self (bound_lt hw hb)
      have hb' : Dict.get (step s (.change f t g)).bound (f, t) = some i := by rw [hs]; exact hb
      simp only [St.read, hb', Option.map_some, value_eq w ho]
      rfl
  · obtain ⟨o, ho, hk⟩ := obj j hj
    have hlt := (List.getElem?_eq_some_iff.1 ho).1
    have w := (step_spec hw (.customize j e v)).1
    have hs : step s (.customize j e v) = ⟨s.objs.set j { o with cus := Dict.put o.cus e v }, s.bound⟩ := by
      simp [step, ho, hk]
    have ho' : (step s (.customize j e v)).objs[j]? = some { o with cus := Dict.put o.cus e v } := by
      rw [hs]; exact List.getElem?_set_self hlt
    rw [value_eq w ho']
    refine ⟨by simp [Obj.eval, Dict.get_put], fun e' he => ?_⟩
    rw [value_eq hw ho]
    have hsame : ∀ i, o.src.ref = some i → (step s (.customize j e v)).value i = s.value i := by
      intro i hi
      have hij := hw.back j o i ho hi
      refine value_congr hw w i (by omega) fun m hm => ?_
      have hmi : m ≤ i := by
        clear hi hij
        induction hm with
        | self k => exact le_refl _
        | ask h1 h2 _ ih => exact ih.trans (hw.back _ _ _ h1 h2).le
      rw [hs]
      exact List.getElem?_set_ne (by omega)
    have hev : ∀ w : ℕ → Data, ({ o with cus := Dict.put o.cus e v } : Obj).eval w e' = o.eval w e' := by
      intro w
      simp only [Obj.eval, Dict.get_put, if_neg he]
    rw [hev, eval_congr hsame]
  · obtain ⟨o, ho, hk⟩ := obj j hj
    have hlt := (List.getElem?_eq_some_iff.1 ho).1
    have w := (step_spec hw (.renew j d)).1
    have hs : step s (.renew j d) = ⟨s.objs.set j ⟨o.kind, .data d, []⟩, s.bound⟩ := by simp [step, ho, hk]
    have ho' : (step s (.renew j d)).objs[j]? = some ⟨o.kind, .data d, []⟩ := by
      rw [hs]; exact List.getElem?_set_self hlt
    rw [value_eq w ho']
    rfl

example : (run .init ([.set 0 0 (fun _ => [1])] ++ .static 0 0 :: [.change 0 0 fun _ _ => [2]])).read 0 0 =
    some ((run .init ([.set 0 0 (fun _ => [1])] ++ .static 0 0 :: [.change 0 0 fun _ _ => [2]])).value 1) :=
  static_follows [.set 0 0 (fun _ => [1])] 0 0 rfl [.change 0 0 fun _ _ => [2]] (by simp [Assigns, Touches])

example : (run .init ([.set 0 0 (fun _ => [1]), .static 0 0, .customize 1 0 [7]] ++ .override 0 0 1 ::
      [.customize 1 0 [9]])).read 0 0 =
    some ((run .init [.set 0 0 (fun _ => [1]), .static 0 0, .customize 1 0 [7]]).value 1) :=
  override_keeps [.set 0 0 (fun _ => [1]), .static 0 0, .customize 1 0 [7]] 0 0 1 rfl [.customize 1 0 [9]]
    (by
      have : (run .init [.set 0 0 (fun _ => [1]), .static 0 0, .customize 1 0 [7]]).objs.length = 2 := rfl
      simp [this, Assigns, Touches])

/-! ## Where it fails -/

/-- Differences on an element with three values. -/
def diff : ℕ → List ℚ → List ℚ := fun _ l => match l with
  | [a, b, c] => [b - a, c - b]
  | _ => []

/-- A program that sets form 0 at time 0, takes `d`, and does something else. -/
def prog (op : Op) : St := run .init [.set 0 0 (fun _ => [0, 1, 3]), .d 0 1 diff, op]

/-- **`d` is neither a copy nor always the derivative.** If the cochain of `f` is changed in place, `f.d()` changes with it, so it is not a
copy; if `f` is given a new cochain at the same time, `f.d()` keeps the old one, so it is not the derivative of `f`. -/
theorem d_refuted :
    (((prog (.change 0 0 fun _ _ => [0, 0, 0])).read 1 0).map fun v => v 0) = some [0, 0] ∧
    (((prog (.set 0 0 fun _ => [0, 0, 0])).read 1 0).map fun v => v 0) = some [1, 2] ∧
    (((prog (.set 0 0 fun _ => [0, 0, 0])).read 0 0).map fun v => v 0) = some [0, 0, 0] := by
  decide +kernel

/-- **Computed vectors are not alike.** Of a vector that is customized afterwards, the multiple by 2 changes and the sum with itself does
not; so `2 * v` and `v + v`, equal when computed, give different values later. -/
theorem scale_refuted :
    let s := run .init [.vec (fun _ => [1, 2]), .scale 2 0, .combine (List.zipWith (· + ·)) 0 0]
    let s' := step s (.customize 0 0 [5, 5])
    s.value 1 0 = s.value 2 0 ∧ s'.value 1 0 = [10, 10] ∧ s'.value 2 0 = [2, 4] := by
  decide +kernel

/-- The statement `f[t].cochain += v`: the cochain is changed (`instant.py:236-262`), then the setter is called with the cochain itself
(`addons/static.py:54-62`), which `_receive` does not take (`instant.py:69-70`): the statement raises, and the cochain has been
changed. -/
def augment (s : St) (f : ℕ) (t : ℚ) (g : Data → Data) : St × Bool := (step s (.change f t g), true)

/-- **A statement that raises has changed the cochain.** -/
theorem augment_refuted : ∃ (ops : List Op) (g : Data → Data),
    (augment (run .init ops) 0 0 g).2 = true ∧
      (((run .init ops).read 0 0).map fun v => v 0) = some [1] ∧
      ((augment (run .init ops) 0 0 g).1.read 0 0).map (fun v => v 0) = some [2] :=
  ⟨[.set 0 0 fun _ => [1]], fun v e => (v e).map fun x => 2 * x, by decide +kernel⟩

/-! ## The hypotheses can be met -/

example : ∃ v, (run .init ([.set 0 0 (fun _ => [0, 1, 3])] ++ .d 0 1 diff :: [.change 0 0 fun _ _ => [0, 2, 2], .static 0 0,
      .customize 2 0 [7]])).read 0 0 = some v ∧
    (run .init ([.set 0 0 (fun _ => [0, 1, 3])] ++ .d 0 1 diff :: [.change 0 0 fun _ _ => [0, 2, 2], .static 0 0,
      .customize 2 0 [7]])).read 1 0 = some fun e => diff e (v e) :=
  d_follows _ 0 1 diff 0 _ (by decide +kernel) (by decide +kernel) (by simp [Assigns, Changes])

example : (run .init ([.set 0 0 (fun _ => [0, 1, 3])] ++ .d 0 1 diff :: [.set 0 0 fun _ => [0, 2, 2], .static 0 0])).read 1 0 =
    some fun e => diff e [0, 1, 3] :=
  d_keeps _ 0 1 diff 0 _ _ (by decide +kernel) rfl (by simp [Assigns, Pure])

example : (run .init ([.vec (fun _ => [1, 2])] ++ .scale 2 0 :: [.customize 0 0 [5, 5]])).value 1 =
    fun e => ((run .init ([.vec (fun _ => [1, 2])] ++ .scale 2 0 :: [.customize 0 0 [5, 5]])).value 0 e).map fun x => 2 * x :=
  scale_follows [.vec (fun _ => [1, 2])] 2 0 rfl [.customize 0 0 [5, 5]] (by simp [Touches, run, step, St.make, St.init])

example : (run .init ([.vec (fun _ => [1, 2])] ++ .combine (List.zipWith (· + ·)) 0 0 :: [.customize 0 0 [5, 5]])).value 1 0 =
    [2, 4] := by
  rw [show (1 : ℕ) = (run .init [.vec (fun _ => [1, 2])]).objs.length from rfl,
    combine_keeps [.vec (fun _ => [1, 2])] (List.zipWith (· + ·)) 0 0 (.inl rfl) rfl [.customize 0 0 [5, 5]]
      (by simp [Touches, run, step, St.make, St.init])]
  decide +kernel

example : (step (run .init [.vec (fun _ => [1, 2]), .scale 2 0, .vec (fun _ => [3])]) (.customize 2 0 [5])).value 1 =
    (run .init [.vec (fun _ => [1, 2]), .scale 2 0, .vec (fun _ => [3])]).value 1 := by
  refine value_frame _ _ 1 (by decide +kernel) fun i hi hu => ?_
  have hi : 2 = i := by simpa [changed] using hi
  subst hi
  cases hu with
  | ask ho hr hu =>
    cases ho
    cases hr
    cases hu with
    | ask ho hr _ => cases ho; cases hr

example : (run .init ([.vec (fun _ => [1, 2])] ++ .setVec 0 0 0 :: [.customize 0 0 [5, 5]])).read 0 0 =
    some ((run .init ([.vec (fun _ => [1, 2])] ++ .setVec 0 0 0 :: [.customize 0 0 [5, 5]])).value 0) :=
  set_vector_follows [.vec (fun _ => [1, 2])] 0 0 0 rfl [.customize 0 0 [5, 5]]
    (by simp [Touches, Assigns, run, step, St.make, St.init])

end Phyem.Instant.Store
