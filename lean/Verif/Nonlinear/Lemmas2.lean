import Verif.Nonlinear.Lemmas

open scoped BigOperators

namespace Phyem.Nonlinear

variable {K : Type} [CommRing K]

/-- Providers with nothing in the places of `S`. -/
def provAt (n : ℕ) (S : ℕ → Bool) (V : ℕ → ℕ → Arr1 K) : List (Provider K) :=
  (List.range n).map fun l => if S l then none else some (V l)

theorem getD_map_range {α : Type} (f : ℕ → α) (n l : ℕ) (d : α) (h : l < n) : ((List.range n).map f).getD l d = f l := by
  rw [List.getD_eq_getElem _ _ (by simpa using h)]; simp

/-- The entries that remain after the elimination of all places but those in `S`. -/
def remain (a : Arr K) (n : ℕ) (S : ℕ → Bool) (v : ℕ → ℕ → K) (r : List ℕ) : K :=
  (((indices a.shape).filter fun idx => ((List.range n).filter S).map (fun l => idx.getD l 0) = r).map fun idx =>
    a.val idx * ∏ l ∈ (Finset.range n).filter (fun l => S l = false), v l (idx.getD l 0)).sum

theorem filter_zip_map {α β : Type} (l : List α) (g : List β) (h : l.length = g.length) (P : β → Bool) (da : α) (db : β) :
    ((l.zip g).filter fun x => P x.2).map Prod.fst = ((List.range l.length).filter fun i => P (g.getD i db)).map (l.getD · da) := by
  induction l generalizing g with
  | nil => simp
  | cons a l ih =>
    cases g with
    | nil => simp at h
    | cons b g =>
      have ih := ih g (by simpa using h)
      simp only [List.zip_cons_cons, List.filter_cons, List.length_cons, List.range_succ_eq_map, List.getD_cons_zero]
      have h2 : (List.filter (fun i => P ((b :: g).getD i db)) (List.map Nat.succ (List.range l.length)))
          = ((List.range l.length).filter fun i => P (g.getD i db)).map Nat.succ := by
        rw [List.filter_map]; rfl
      rw [h2]
      by_cases hb : P b
      · simp only [hb, if_true, List.map_cons, ih, List.map_map, List.getD_cons_zero]
        congr 1
      · simp only [hb, Bool.false_eq_true, if_false, ih, List.map_map]
        apply List.map_congr_left
        intro i _
        simp

theorem eliminate_some (elements : List ℕ) (t : Term K) (S : ℕ → Bool) (V : ℕ → ℕ → Arr1 K) (dims : ℕ → ℕ → ℕ)
    (hfew : t.corr.length < 14)
    (hshape : ∀ e ∈ elements, (t.op.entries e).shape = (List.range t.corr.length).map (dims e))
    (hV : ∀ e ∈ elements, ∀ l < t.corr.length, S l = false → (V l e).1 = dims e l)
    (hS : ∃ l < t.corr.length, S l = true) (hS' : ∃ l < t.corr.length, S l = false) :
    ∃ data, t.eliminate elements (provAt t.corr.length S V)
        = some (data, ((List.range t.corr.length).filter S).map (t.corr.getD · ⟨0, .generic 0⟩)) ∧
      ∀ e ∈ elements, (data e).shape = ((List.range t.corr.length).filter S).map (dims e) ∧
        ∀ r, (data e).val r = remain (t.op.entries e) t.corr.length S (fun l => (V l e).2) r := by
  set n := t.corr.length with hn
  have hlen : (provAt n S V).length = n := by simp [provAt]
  have hget : ∀ l < n, (provAt n S V).getD l none = if S l then none else some (V l) := by
    intro l hl; unfold provAt; rw [getD_map_range _ _ _ _ hl]
  have hnot : ¬ (provAt n S V).all Option.isNone = true := by
    obtain ⟨l, hl, hs⟩ := hS'
    rw [List.all_eq_true]
    intro h
    have := h (some (V l)) (by
      unfold provAt
      rw [List.mem_map]
      exact ⟨l, by simpa using hl, by simp [hs]⟩)
    simp at this
  have hcorr : (((t.corr.zip (provAt n S V)).filter fun x => x.2.isNone).map Prod.fst)
      = ((List.range n).filter S).map (t.corr.getD · ⟨0, .generic 0⟩) := by
    rw [filter_zip_map t.corr (provAt n S V) (by simp [provAt, hn]) _ ⟨0, .generic 0⟩ none]
    congr 1
    apply List.filter_congr
    intro l hl
    rw [hget l (by simpa using hl)]
    cases S l <;> simp
  have hcne : ((List.range n).filter S).map (t.corr.getD · ⟨0, .generic 0⟩) ≠ [] := by
    obtain ⟨l, hl, hs⟩ := hS
    intro h
    rw [List.map_eq_nil_iff] at h
    have : l ∈ (List.range n).filter S := by simp [hl, hs]
    rw [h] at this
    simp at this
  set pe := fun e => (provAt n S V).map fun p => p.map fun c => c e with hpe
  have hpelen : ∀ e, (pe e).length = n := by intro e; simp [hpe, hlen]
  have hpeget : ∀ e, ∀ l < n, (pe e).getD l none = if S l then none else some (V l e) := by
    intro e l hl
    rw [hpe]
    simp only [provAt, List.map_map]
    rw [getD_map_range _ _ _ _ hl]
    simp only [Function.comp_apply]
    cases S l <;> simp
  have hopen : ∀ e, open_ (pe e) = (List.range n).filter S := by
    intro e
    unfold open_
    rw [hpelen]
    apply List.filter_congr
    intro l hl
    rw [hpeget e l (by simpa using hl)]
    cases S l <;> simp
  have hcall : ∀ e ∈ elements, ∃ a, t.op.call e (pe e) = some a ∧ a.shape = ((List.range n).filter S).map (dims e) ∧
      ∀ r, a.val r = remain (t.op.entries e) n S (fun l => (V l e).2) r := by
    intro e he
    obtain ⟨a, h1, h2, h3⟩ := call_some t.op e (pe e) (by rw [hshape e he, hpelen]; simp) (by rw [hpelen]; exact hfew) (by
      intro l v hv
      have hl : l < n := by
        by_contra hl
        rw [List.getElem?_eq_none (by rw [hpelen]; omega)] at hv
        simp at hv
      have h4 := hpeget e l hl
      rw [List.getD_eq_getElem?_getD, hv] at h4
      simp only [Option.getD_some] at h4
      cases hs : S l
      · rw [hs] at h4
        simp only [Bool.false_eq_true, if_false, Option.some.injEq] at h4
        rw [hshape e he, List.getElem?_map, List.getElem?_range hl, h4, hV e he l hl hs]
        rfl
      · rw [hs] at h4; simp at h4)
    refine ⟨a, h1, ?_, ?_⟩
    · rw [h2, hopen]
      apply List.map_congr_left
      intro l hl
      rw [List.mem_filter, List.mem_range] at hl
      rw [hshape e he, getD_map_range _ _ _ _ hl.1]
    · intro r
      obtain ⟨l, hl, hs⟩ := hS'
      rw [h3 ⟨V l e, by
        have h4 := hpeget e l hl
        rw [hs] at h4
        rw [List.getD_eq_getElem _ _ (by rw [hpelen]; exact hl)] at h4
        simp only [Bool.false_eq_true, if_false] at h4
        rw [← h4]; exact List.getElem_mem _⟩ r, hopen]
      unfold remain
      congr 1
      apply List.map_congr_left
      intro idx _
      congr 1
      rw [hpelen, Finset.prod_filter]
      apply Finset.prod_congr rfl
      intro l hl
      rw [hpeget e l (by simpa using hl)]
      cases S l <;> simp
  refine ⟨fun e => (t.op.call e (pe e)).getD ⟨[], fun _ => 0⟩, ?_, ?_⟩
  · unfold Term.eliminate
    rw [if_neg (by rw [hlen]; push Not; exact ⟨hnot, hn⟩)]
    simp only []
    rw [hcorr, if_pos]
    refine ⟨hcne, ?_⟩
    rw [List.all_eq_true]
    intro e he
    obtain ⟨a, h1, _⟩ := hcall e he
    change (t.op.call e (pe e)).isSome = true
    rw [h1]; rfl
  · intro e he
    obtain ⟨a, h1, h2, h3⟩ := hcall e he
    simp only [h1, Option.getD_some]
    exact ⟨h2, h3⟩

/-! ### Places -/

theorem place_getD (corr : List Operand) (hn : (corr.map Operand.key).Nodup) (pairs : List (Operand × (ℕ → Arr1 K))) (l : ℕ)
    (hl : l < corr.length) : (place corr pairs).length = corr.length ∧ (place corr pairs).getD l none =
      pairs.foldl (fun c p => if (corr.getD l ⟨0, .generic 0⟩).key = p.1.key then some p.2 else c) none := by
  have : ∀ (pairs : List (Operand × (ℕ → Arr1 K))) (L : List (Provider K)), L.length = corr.length →
      (pairs.foldl (fun l p =>
        match corr.findIdx? fun cp => cp.key == p.1.key with
        | some i => l.set i (some p.2)
        | none => l) L).length = corr.length ∧
      (pairs.foldl (fun l p =>
        match corr.findIdx? fun cp => cp.key == p.1.key with
        | some i => l.set i (some p.2)
        | none => l) L).getD l none =
      pairs.foldl (fun c p => if (corr.getD l ⟨0, .generic 0⟩).key = p.1.key then some p.2 else c) (L.getD l none) := by
    intro pairs
    induction pairs with
    | nil => intro L hL; exact ⟨hL, rfl⟩
    | cons p pairs ih =>
      intro L hL
      simp only [List.foldl_cons]
      cases hf : corr.findIdx? fun cp => cp.key == p.1.key with
      | none =>
        have h2 := ih L hL
        refine ⟨h2.1, ?_⟩
        simp only []
        rw [h2.2, if_neg]
        rw [List.findIdx?_eq_none_iff] at hf
        rw [List.getD_eq_getElem _ _ hl]
        simpa using hf _ (List.getElem_mem hl)
      | some i =>
        have h2 := ih (L.set i (some p.2)) (by simpa using hL)
        refine ⟨h2.1, ?_⟩
        simp only []
        rw [h2.2]
        congr 1
        rw [List.findIdx?_eq_some_iff_getElem] at hf
        obtain ⟨hi, hk, _⟩ := hf
        rw [beq_iff_eq] at hk
        rw [List.getD_eq_getElem _ _ hl, List.getD_eq_getElem _ _ (by rw [List.length_set]; omega), List.getElem_set]
        by_cases hil : i = l
        · subst hil
          rw [if_pos rfl, if_pos hk]
        · rw [if_neg hil, if_neg, List.getD_eq_getElem _ _ (by omega)]
          intro h
          apply hil
          have h3 : (corr.map Operand.key)[i]'(by simpa using hi) = (corr.map Operand.key)[l]'(by simpa using hl) := by
            simp [hk, h]
          exact (List.Nodup.getElem_inj_iff hn).mp h3
  have h2 := this pairs (corr.map fun _ => none) (by simp)
  refine ⟨h2.1, ?_⟩
  have h3 : (corr.map fun _ => (none : Provider K)).getD l none = none := by
    rw [List.getD_eq_getElem _ _ (by simpa using hl)]; simp
  have h4 := h2.2
  rw [h3] at h4
  exact h4

section sys

variable (s : Sys K) (x : ℕ → ℕ → ℕ → K)

theorem pairs_keys : (s.pairs x).map (fun p => p.1.key) = s.unknowns.map Operand.key := by
  simp only [Sys.pairs, List.map_map]
  have : ((fun p : Operand × (ℕ → Arr1 K) => p.1.key) ∘ fun u : Operand × ℕ => (u.1, fun e => (s.m u.2 e, x u.2 e)))
      = Operand.key ∘ Prod.fst := by funext u; rfl
  rw [this, ← List.map_map]
  rw [List.zipIdx_map_fst]

theorem mem_pairs {j : ℕ} (hj : j < s.unknowns.length) : (s.unknowns[j], fun e => (s.m j e, x j e)) ∈ s.pairs x := by
  simp only [Sys.pairs, List.mem_map]
  refine ⟨(s.unknowns[j], j), ?_, rfl⟩
  rw [List.mem_zipIdx_iff_getElem?]
  simp [hj]

variable {s} {i : ℕ} {t : Term K}

theorem TermFits.place_lt (h : TermFits s i t) : s.testPlace i t < t.corr.length := by
  have := List.idxOf_lt_length_of_mem h.test
  simpa [Sys.testPlace] using this

theorem TermFits.key_place (h : TermFits s i t) {l : ℕ} (hl : l < t.corr.length) :
    (t.corr.map Operand.key).getD l (.generic 0) = (s.tests i).key ↔ l = s.testPlace i t := by
  rw [List.getD_eq_getElem _ _ (by simpa using hl)]
  have h1 : (t.corr.map Operand.key)[s.testPlace i t]'(by simpa using h.place_lt) = (s.tests i).key :=
    List.getElem_idxOf (by simpa [Sys.testPlace] using h.place_lt)
  rw [← h1]
  exact h.distinct.getElem_inj_iff

theorem TermFits.unknown_lt (h : TermFits s i t) {l : ℕ} (hl : l < t.corr.length) (hk : l ≠ s.testPlace i t) :
    s.unknownAt t l < s.unknowns.length ∧
      (s.unknowns.map Operand.key)[s.unknownAt t l]? = some ((t.corr.map Operand.key).getD l (.generic 0)) := by
  have hm : (t.corr.map Operand.key).getD l (.generic 0) ∈ t.corr.map Operand.key := by
    rw [List.getD_eq_getElem _ _ (by simpa using hl)]; exact List.getElem_mem _
  have h2 := (h.unknowns _ hm).resolve_left (fun h3 => hk ((h.key_place hl).mp h3))
  have h3 := List.idxOf_lt_length_of_mem h2
  refine ⟨by simpa [Sys.unknownAt] using h3, ?_⟩
  unfold Sys.unknownAt
  rw [List.getElem?_eq_getElem h3]
  congr 1
  exact List.getElem_idxOf h3

theorem corr_key (l : ℕ) : (t.corr.map Operand.key).getD l (.generic 0) = (t.corr.getD l ⟨0, .generic 0⟩).key := by
  rw [show (Key.generic 0) = Operand.key ⟨0, .generic 0⟩ from rfl, List.getD_map]

theorem ext_getD {α : Type} (d : α) (l l' : List α) (h : l.length = l'.length) (h2 : ∀ i < l.length, l.getD i d = l'.getD i d) : l = l' := by
  apply List.ext_getElem h
  intro i h3 h4
  have := h2 i h3
  rwa [List.getD_eq_getElem _ _ h3, List.getD_eq_getElem _ _ h4] at this

/-- The vectors that are put into the places of a term. -/
def vecs (s : Sys K) (x : ℕ → ℕ → ℕ → K) (t : Term K) (l e : ℕ) : Arr1 K := (s.m (s.unknownAt t l) e, x (s.unknownAt t l) e)

theorem place_eq (hs : Fits s) (hi : i < s.rows) (h : TermFits s i t) :
    place t.corr (s.pairs x) = provAt t.corr.length (fun l => decide (l = s.testPlace i t)) (vecs s x t) := by
  have hlen : (place t.corr (s.pairs x)).length = t.corr.length := (place_getD t.corr h.distinct _ _ h.place_lt).1
  apply ext_getD none _ _ (by rw [hlen]; simp [provAt])
  intro l hl
  rw [hlen] at hl
  rw [(place_getD t.corr h.distinct _ l hl).2]
  unfold provAt
  rw [getD_map_range _ _ _ _ hl]
  by_cases hk : l = s.testPlace i t
  · simp only [hk, decide_true, if_true]
    apply foldl_none (fun p : Operand × (ℕ → Arr1 K) => p.1.key) (fun p => some p.2)
    intro p hp he
    have h1 := (h.key_place h.place_lt).mpr rfl
    rw [corr_key] at h1
    apply hs.tests i hi
    rw [← h1, he, ← pairs_keys s x]
    exact List.mem_map_of_mem (f := fun p : Operand × (ℕ → Arr1 K) => p.1.key) hp
  · simp only [hk, decide_false, Bool.false_eq_true, if_false]
    obtain ⟨h1, h2⟩ := h.unknown_lt hl hk
    rw [foldl_some (fun p : Operand × (ℕ → Arr1 K) => p.1.key) (fun p => some p.2) _ _ _ (by rw [pairs_keys]; exact hs.distinct)
      _ (mem_pairs s x h1)]
    · rfl
    · rw [← corr_key]
      rw [List.getElem?_map, List.getElem?_eq_getElem h1] at h2
      simpa using h2.symm

theorem lastPair_eq (hs : Fits s) (h : TermFits s i t) {p : ℕ} (hp : p < t.corr.length) {u : Operand}
    (hu : u.key = (t.corr.map Operand.key).getD p (.generic 0)) :
    (t.corr.map fun cp => lastPair cp (s.known x t (s.tests i) u))
      = provAt t.corr.length (fun l => decide (l = s.testPlace i t ∨ l = p)) (vecs s x t) := by
  apply ext_getD none _ _ (by simp [provAt])
  intro l hl
  simp only [List.length_map] at hl
  unfold provAt
  rw [getD_map_range _ _ _ _ hl, List.getD_eq_getElem _ _ (by simpa using hl), List.getElem_map]
  have haddr : ((s.known x t (s.tests i) u).map fun q => q.1.addr).Nodup := by
    simp only [Sys.known, List.map_map]
    refine List.Nodup.sublist ?_ h.objects
    exact (List.filter_sublist (l := t.corr)).map Operand.addr
  have hobj : ∀ cp ∈ t.corr, cp.addr = t.corr[l].addr → cp = t.corr[l] := by
    intro cp hcp he
    exact List.inj_on_of_nodup_map h.objects hcp (List.getElem_mem hl) he
  have hkl : (t.corr.map Operand.key).getD l (.generic 0) = t.corr[l].key := by
    rw [List.getD_eq_getElem _ _ (by simpa using hl), List.getElem_map]
  have hkp : (t.corr[l].key = u.key) ↔ l = p := by
    rw [hu, ← hkl, List.getD_eq_getElem _ _ (by simpa using hl), List.getD_eq_getElem _ _ (by simpa using hp)]
    exact h.distinct.getElem_inj_iff
  have hkt : (t.corr[l].key = (s.tests i).key) ↔ l = s.testPlace i t := by
    rw [← hkl]; exact h.key_place hl
  by_cases hk : l = s.testPlace i t ∨ l = p
  · simp only [hk, decide_true, if_true]
    unfold lastPair
    apply foldl_none (fun p : Operand × Provider K => p.1.addr) (fun p => p.2)
    intro q hq he
    simp only [Sys.known, List.mem_map, List.mem_filter] at hq
    obtain ⟨cp, ⟨h1, h2⟩, rfl⟩ := hq
    have := hobj cp h1 he.symm
    subst this
    simp only [Bool.not_eq_true', Bool.or_eq_false_iff, beq_eq_false_iff_ne] at h2
    rcases hk with hk | hk
    · exact h2.2 (hkt.mpr hk)
    · exact h2.1 (hkp.mpr hk)
  · simp only [hk, decide_false, Bool.false_eq_true, if_false]
    push Not at hk
    obtain ⟨h1, h2⟩ := h.unknown_lt hl hk.1
    unfold lastPair
    rw [foldl_some (fun p : Operand × Provider K => p.1.addr) (fun p => p.2) _ _ _ haddr
      (t.corr[l], ((s.pairs x).find? fun p => p.1.key == t.corr[l].key).map Prod.snd) _ rfl]
    · rw [find_some (fun p : Operand × (ℕ → Arr1 K) => p.1.key) _ _ (by rw [pairs_keys]; exact hs.distinct) _ (mem_pairs s x h1)]
      · rfl
      · rw [List.getElem?_map, List.getElem?_eq_getElem h1, hkl] at h2
        simpa using h2
    · simp only [Sys.known, List.mem_map, List.mem_filter]
      refine ⟨t.corr[l], ⟨List.getElem_mem hl, ?_⟩, rfl⟩
      simp only [Bool.not_eq_true', Bool.or_eq_false_iff, beq_eq_false_iff_ne]
      exact ⟨fun h3 => hk.2 (hkp.mp h3), fun h3 => hk.1 (hkt.mp h3)⟩

theorem filter_one {n k : ℕ} (hk : k < n) : ((List.range n).filter fun l => decide (l = k)) = [k] := by
  rw [show (fun l => decide (l = k)) = (· == k) from rfl, List.filter_beq, List.count_eq_one_of_mem List.nodup_range (by simpa using hk)]
  rfl

theorem filter_two {n k p : ℕ} (hk : k < n) (hp : p < n) (h : k < p) :
    ((List.range n).filter fun l => decide (l = k ∨ l = p)) = [k, p] := by
  apply List.Perm.eq_of_pairwise' (r := (· < ·))
  · exact List.Pairwise.filter _ List.pairwise_lt_range
  · simpa using h
  · rw [List.perm_ext_iff_of_nodup]
    · intro a
      simp only [List.mem_filter, List.mem_range, decide_eq_true_eq, List.mem_cons, List.not_mem_nil, or_false]
      constructor
      · exact fun h => h.2
      · rintro (rfl | rfl) <;> simp [*]
    · exact List.Nodup.filter _ List.nodup_range
    · simp; omega

end sys

end Phyem.Nonlinear
