import Verif.Nonlinear.Lemmas2

open scoped BigOperators

namespace Phyem.Nonlinear

variable {K : Type} [CommRing K] {s : Sys K} {i : ℕ} {t : Term K}

/-- Index `r` in place `k`, index `c` in place `p`, vectors in all other places. -/
def contract2 (a : Arr K) (k p r c : ℕ) (v : ℕ → ℕ → K) : K :=
  (((indices a.shape).filter fun idx => idx.getD k 0 = r ∧ idx.getD p 0 = c).map fun idx =>
    a.val idx * ∏ l ∈ ((Finset.range a.shape.length).erase k).erase p, v l (idx.getD l 0)).sum

theorem shape_length (h : TermFits s i t) {e : ℕ} (he : e ∈ s.elements) : (t.op.entries e).shape.length = t.corr.length := by
  rw [h.shape e he]; simp

theorem evaluate_eq (x : ℕ → ℕ → ℕ → K) (hs : Fits s) (hi : i < s.rows) (h : TermFits s i t) :
    ∃ v, t.evaluate s.elements (s.n i) (s.pairs x) = some v ∧ ∀ e ∈ s.elements, ∀ r,
      v e r = contract (t.op.entries e) (s.testPlace i t) r fun l c => x (s.unknownAt t l) e c := by
  set k := s.testPlace i t with hk
  have hkn : k < t.corr.length := h.place_lt
  obtain ⟨data, h1, h2⟩ := eliminate_some s.elements t (fun l => decide (l = k)) (vecs s x t) (s.dofs i t) h.few h.shape
    (by
      intro e _ l _ hl
      simp only [decide_eq_false_iff_not] at hl
      simp only [vecs, Sys.dofs, ← hk, if_neg hl])
    ⟨k, hkn, by simp⟩ ⟨if k = 0 then 1 else 0, by have := h.many; split <;> omega, by split <;> simp <;> omega⟩
  rw [filter_one hkn] at h1 h2
  have hv : ∀ e ∈ s.elements, toVector (s.n i e) (data e) = some fun r => (data e).val [r] := by
    intro e he
    have hsh := (h2 e he).1
    simp only [List.map_cons, List.map_nil, Sys.dofs, ← hk, if_true] at hsh
    unfold toVector
    rw [hsh]
    simp
  refine ⟨fun e => (toVector (s.n i e) (data e)).getD fun _ => 0, ?_, ?_⟩
  · unfold Term.evaluate
    rw [place_eq x hs hi h, h1]
    simp only [Option.bind_some]
    rw [if_pos]
    rw [List.all_eq_true]
    intro e he
    rw [hv e he]; rfl
  · intro e he r
    simp only [hv e he, Option.getD_some]
    rw [(h2 e he).2]
    unfold remain contract
    rw [filter_one hkn, shape_length h he]
    have h3 : (Finset.range t.corr.length).filter (fun l => decide (l = k) = false) = (Finset.range t.corr.length).erase k := by
      ext l; simp [and_comm]
    rw [h3]
    congr 1
    congr 1
    apply List.filter_congr
    intro idx _
    simp

theorem known_length (x : ℕ → ℕ → ℕ → K) (h : TermFits s i t) {p : ℕ} (hp : p < t.corr.length) {u : Operand}
    (hu : u.key = (t.corr.map Operand.key).getD p (.generic 0)) (hs : Fits s) :
    ((t.corr.map fun cp => lastPair cp (s.known x t (s.tests i) u)).filter Option.isNone).length
      + (s.known x t (s.tests i) u).length = t.corr.length := by
  rw [lastPair_eq x hs h hp hu]
  unfold provAt
  rw [List.filter_map, List.length_map]
  have h1 : (Option.isNone ∘ fun l => if decide (l = s.testPlace i t ∨ l = p) = true then (none : Provider K) else some (vecs s x t l))
      = fun l => decide (l = s.testPlace i t ∨ l = p) := by
    funext l
    simp only [Function.comp_apply]
    by_cases hl : l = s.testPlace i t ∨ l = p <;> simp [hl]
  rw [h1]
  simp only [Sys.known, List.length_map]
  have h2 : t.corr.filter (fun cp => !(cp.key == u.key || cp.key == (s.tests i).key))
      = ((List.range t.corr.length).filter fun l => !decide (l = s.testPlace i t ∨ l = p)).map (t.corr.getD · ⟨0, .generic 0⟩) := by
    have h3 : t.corr = (List.range t.corr.length).map (t.corr.getD · ⟨0, .generic 0⟩) := by
      apply List.ext_getElem
      · simp
      · intro l h4 h5
        simp [List.getElem?_eq_getElem h4]
    conv_lhs => rw [h3]
    rw [List.filter_map]
    congr 1
    apply List.filter_congr
    intro l hl
    rw [List.mem_range] at hl
    simp only [Function.comp_apply]
    congr 1
    rw [← corr_key]
    have h4 := h.key_place hl
    have h5 : (t.corr.map Operand.key).getD l (.generic 0) = u.key ↔ l = p := by
      rw [hu, List.getD_eq_getElem _ _ (by simpa using hl), List.getD_eq_getElem _ _ (by simpa using hp)]
      exact h.distinct.getElem_inj_iff
    rw [Bool.eq_iff_iff]
    simp only [Bool.or_eq_true, beq_iff_eq, h4, h5, decide_eq_true_eq]
    exact or_comm
  rw [h2, List.length_map]
  have h6 := List.length_eq_length_filter_add (l := List.range t.corr.length) (fun l => decide (l = s.testPlace i t ∨ l = p))
  rw [List.length_range] at h6
  exact h6.symm

theorem derivative_eq (x : ℕ → ℕ → ℕ → K) (hs : Fits s) (h : TermFits s i t) {p : ℕ} (hp : p < t.corr.length)
    (hpk : p ≠ s.testPlace i t) {u : Operand} (hu : u.key = (t.corr.map Operand.key).getD p (.generic 0)) :
    ∃ D, t.derivative s.elements (s.tests i) u (s.known x t (s.tests i) u) = some (some D) ∧ ∀ e ∈ s.elements, ∀ r c,
      D e r c = contract2 (t.op.entries e) (s.testPlace i t) p r c fun l c => x (s.unknownAt t l) e c := by
  set k := s.testPlace i t with hk
  have hkn : k < t.corr.length := h.place_lt
  have hum : u.key ∈ t.corr.map Operand.key := by
    rw [hu, List.getD_eq_getElem _ _ (by simpa using hp)]; exact List.getElem_mem _
  obtain ⟨data, h1, h2⟩ := eliminate_some s.elements t (fun l => decide (l = k ∨ l = p)) (vecs s x t) (s.dofs i t) h.few h.shape
    (by
      intro e _ l _ hl
      simp only [decide_eq_false_iff_not] at hl
      push Not at hl
      simp only [vecs, Sys.dofs, ← hk, if_neg hl.1])
    ⟨k, hkn, by simp⟩
    (by
      have := h.many
      by_cases h0 : k = 0 ∨ p = 0
      · by_cases h1 : k = 1 ∨ p = 1
        · exact ⟨2, by omega, by simp; omega⟩
        · exact ⟨1, by omega, by simp; omega⟩
      · exact ⟨0, by omega, by simp; omega⟩)
  have hkk : (t.corr.getD k ⟨0, .generic 0⟩).key = (s.tests i).key := by
    rw [← corr_key]; exact (h.key_place hkn).mpr rfl
  have hkp : (t.corr.getD p ⟨0, .generic 0⟩).key = u.key := by
    rw [← corr_key]; exact hu.symm
  have hne : (s.tests i).key ≠ u.key := by
    rw [hu]; intro h3; exact hpk ((h.key_place hp).mp h3.symm)
  have hset : (Finset.range t.corr.length).filter (fun l => decide (l = k ∨ l = p) = false)
      = ((Finset.range t.corr.length).erase k).erase p := by
    ext l; simp; tauto
  unfold Term.derivative
  rw [if_neg (not_not.mpr h.test), if_neg (not_not.mpr hum)]
  simp only []
  rw [if_pos (known_length x h hp hu hs), lastPair_eq x hs h hp hu, ← hk, h1]
  simp only [Option.bind_some]
  rcases Nat.lt_or_gt_of_ne hpk with hlt | hlt
  · have hf : ((List.range t.corr.length).filter fun l => decide (l = k ∨ l = p)) = [p, k] := by
      rw [← filter_two hp hkn hlt]
      apply List.filter_congr; intro l _; simp [or_comm]
    rw [hf] at h2 ⊢
    rw [if_pos (by rw [List.all_eq_true]; intro e he; rw [(h2 e he).1]; rfl)]
    rw [if_neg (by simp only [List.map_cons, List.map_nil, hkk, hkp]; intro h3; simp only [List.cons.injEq] at h3; exact hne h3.1.symm),
      if_pos (by simp only [List.map_cons, List.map_nil, hkk, hkp])]
    refine ⟨_, rfl, ?_⟩
    intro e he r c
    rw [(h2 e he).2]
    unfold remain contract2
    rw [hf, shape_length h he, hset]
    congr 1
    congr 1
    apply List.filter_congr
    intro idx _
    simp [and_comm]
  · rw [filter_two hkn hp hlt] at h2 ⊢
    rw [if_pos (by rw [List.all_eq_true]; intro e he; rw [(h2 e he).1]; rfl)]
    rw [if_pos (by simp only [List.map_cons, List.map_nil, hkk, hkp])]
    refine ⟨_, rfl, ?_⟩
    intro e he r c
    rw [(h2 e he).2]
    unfold remain contract2
    rw [filter_two hkn hp hlt, shape_length h he, hset]
    congr 1
    congr 1
    apply List.filter_congr
    intro idx _
    simp

/-! ### Sums over the terms of a row -/

theorem foldlM_sum {α β : Type} (terms : List α) (f : α → Option (β → K)) (sgn : α → Bool) (el : Set β) (v : α → β → K)
    (h : ∀ t ∈ terms, ∃ w, f t = some w ∧ ∀ b ∈ el, w b = v t b) (c : β → K) :
    ∃ g, terms.foldlM (fun g t => (f t).map fun w b => if sgn t then g b + w b else g b + -w b) c = some g ∧
      ∀ b ∈ el, g b = c b + (terms.map fun t => (if sgn t then 1 else -1) * v t b).sum := by
  induction terms generalizing c with
  | nil => exact ⟨c, rfl, fun b _ => by simp⟩
  | cons t terms ih =>
    obtain ⟨w, hw, hv⟩ := h t (by simp)
    obtain ⟨g, hg, hgv⟩ := ih (fun t' ht' => h t' (by simp [ht'])) (fun b => if sgn t then c b + w b else c b + -w b)
    refine ⟨g, ?_, ?_⟩
    · simp only [List.foldlM_cons, hw, Option.map_some, Option.bind_eq_bind, Option.bind_some]
      exact hg
    · intro b hb
      rw [hgv b hb, hv b hb]
      simp only [List.map_cons, List.sum_cons]
      cases sgn t <;> simp <;> ring

theorem nonlinear_eq (x : ℕ → ℕ → ℕ → K) (hs : Fits s) (hi : i < s.rows) :
    ∃ f, s.nonlinear x i = some f ∧ ∀ e ∈ s.elements, ∀ r, f e r = ((s.terms i).map fun t => (if t.2 then 1 else -1) *
      contract (t.1.op.entries e) (s.testPlace i t.1) r fun l c => x (s.unknownAt t.1 l) e c).sum := by
  have hev := fun t ht => evaluate_eq x hs hi (hs.terms i hi t ht)
  obtain ⟨g, hg, hgv⟩ := foldlM_sum (s.terms i)
    (fun t => (t.1.evaluate s.elements (s.n i) (s.pairs x)).map fun (v : ℕ → ℕ → K) (b : ℕ × ℕ) => v b.1 b.2) (fun t => t.2)
    {b | b.1 ∈ s.elements}
    (fun t b => contract (t.1.op.entries b.1) (s.testPlace i t.1) b.2 fun l c => x (s.unknownAt t.1 l) b.1 c)
    (by
      intro t ht
      obtain ⟨v, hv, hv2⟩ := hev t ht
      exact ⟨fun b => v b.1 b.2, by rw [hv]; rfl, fun b hb => hv2 b.1 hb b.2⟩) (fun _ => 0)
  refine ⟨fun e r => g (e, r), ?_, ?_⟩
  · unfold Sys.nonlinear
    have h2 : ∀ (terms : List (Term K × Bool)) (c : ℕ → ℕ → K) (g : ℕ × ℕ → K),
        terms.foldlM (fun (g : ℕ × ℕ → K) t => ((t.1.evaluate s.elements (s.n i) (s.pairs x)).map
          fun (v : ℕ → ℕ → K) (b : ℕ × ℕ) => v b.1 b.2).map
          fun w b => if t.2 then g b + w b else g b + -w b) (fun b => c b.1 b.2) = some g →
        terms.foldlM (fun f t => (t.1.evaluate s.elements (s.n i) (s.pairs x)).map fun v e r =>
          if t.2 then f e r + v e r else f e r + -v e r) c = some fun e r => g (e, r) := by
      intro terms
      induction terms with
      | nil =>
        intro c g h
        simp only [List.foldlM_nil, Option.pure_def, Option.some.injEq] at h ⊢
        subst h; rfl
      | cons t terms ih =>
        intro c g h
        simp only [List.foldlM_cons] at h ⊢
        cases hv : t.1.evaluate s.elements (s.n i) (s.pairs x) with
        | none => rw [hv] at h; simp at h
        | some v =>
          rw [hv] at h
          simp only [Option.map_some, Option.bind_eq_bind, Option.bind_some] at h ⊢
          exact ih (fun e r => if t.2 then c e r + v e r else c e r + -v e r) g h
    exact h2 (s.terms i) (fun _ _ => 0) g hg
  · intro e he r
    change g (e, r) = _
    rw [hgv (e, r) he]
    simp

/-- The place of an unknown in a term. -/
def placeOf (t : Term K) (u : Operand) : ℕ := (t.corr.map Operand.key).idxOf u.key

theorem lhs_eq (x : ℕ → ℕ → ℕ → K) (hs : Fits s) (hi : i < s.rows) {j : ℕ} (hj : j < s.unknowns.length) :
    ∃ L, s.lhs x i j = some L ∧ ∀ e ∈ s.elements, ∀ r c, L e r c = s.A i j e r c +
      ((s.terms i).map fun t => (if t.2 then 1 else -1) *
        if s.unknowns[j].key ∈ t.1.corr.map Operand.key then
          contract2 (t.1.op.entries e) (s.testPlace i t.1) (placeOf t.1 s.unknowns[j]) r c fun l c => x (s.unknownAt t.1 l) e c
        else 0).sum := by
  unfold Sys.lhs
  rw [List.getElem?_eq_getElem hj, Option.bind_some]
  have hmem : s.unknowns[j].key ∈ s.unknowns.map Operand.key := List.mem_map_of_mem (List.getElem_mem hj)
  have hterms := hs.terms i hi
  generalize s.A i j = M
  revert hterms M
  induction s.terms i with
  | nil => intro _ M; exact ⟨M, rfl, by simp⟩
  | cons t terms ih =>
    intro hterms M
    have ht := hterms t (by simp)
    simp only [List.foldlM_cons]
    rw [if_neg (not_not.mpr ht.test)]
    by_cases hu : s.unknowns[j].key ∈ t.1.corr.map Operand.key
    · rw [if_pos hu]
      have hp : placeOf t.1 s.unknowns[j] < t.1.corr.length := by
        simpa [placeOf] using List.idxOf_lt_length_of_mem hu
      have hkey : s.unknowns[j].key = (t.1.corr.map Operand.key).getD (placeOf t.1 s.unknowns[j]) (.generic 0) := by
        rw [List.getD_eq_getElem _ _ (by simpa using hp)]
        exact (List.getElem_idxOf (by simpa [placeOf] using hp)).symm
      have hpk : placeOf t.1 s.unknowns[j] ≠ s.testPlace i t.1 := by
        intro h
        have h2 := (ht.key_place hp).mpr h
        rw [← hkey] at h2
        exact hs.tests i hi (h2 ▸ hmem)
      obtain ⟨D, hD, hDv⟩ := derivative_eq x hs ht hp hpk hkey
      rw [hD]
      simp only [Option.bind_some, Option.map_some, Option.bind_eq_bind]
      obtain ⟨L, hL, hLv⟩ := ih (fun t' ht' => hterms t' (by simp [ht']))
        (fun e r c => if t.2 then M e r c + D e r c else M e r c + -D e r c)
      refine ⟨L, hL, ?_⟩
      intro e he r c
      rw [hLv e he r c, hDv e he r c]
      simp only [List.map_cons, List.sum_cons, if_pos hu]
      cases t.2 <;> simp <;> ring
    · rw [if_neg hu]
      simp only [Option.bind_eq_bind, Option.bind_some]
      obtain ⟨L, hL, hLv⟩ := ih (fun t' ht' => hterms t' (by simp [ht'])) M
      refine ⟨L, hL, ?_⟩
      intro e he r c
      rw [hLv e he r c]
      simp only [List.map_cons, List.sum_cons, if_neg hu]
      ring

/-! ### Sums over the unknowns -/

theorem sum_by_value {α : Type} (l : List α) (n : ℕ) (h : α → ℕ) (hh : ∀ a ∈ l, h a < n) (G : α → K) (d : ℕ → K) :
    ∑ c ∈ Finset.range n, ((l.filter fun a => h a = c).map G).sum * d c = (l.map fun a => G a * d (h a)).sum := by
  induction l with
  | nil => simp
  | cons a l ih =>
    rw [List.map_cons, List.sum_cons, ← ih fun b hb => hh b (by simp [hb])]
    have h1 : G a * d (h a) = ∑ c ∈ Finset.range n, if h a = c then G a * d c else 0 := by
      rw [Finset.sum_ite_eq, if_pos (by simpa using hh a (by simp))]
    rw [h1, ← Finset.sum_add_distrib]
    apply Finset.sum_congr rfl
    intro c _
    by_cases hc : h a = c
    · simp only [List.filter_cons, hc, decide_true, if_true, List.map_cons, List.sum_cons]; ring
    · simp [List.filter_cons, hc]

/-- A block applied to an increment. -/
theorem sum_contract2 (h : TermFits s i t) {e : ℕ} (he : e ∈ s.elements) {p : ℕ} (hp : p < t.corr.length)
    (hpk : p ≠ s.testPlace i t) (r : ℕ) (v : ℕ → ℕ → K) (d : ℕ → K) :
    ∑ c ∈ Finset.range (s.m (s.unknownAt t p) e), contract2 (t.op.entries e) (s.testPlace i t) p r c v * d c
      = (((indices (t.op.entries e).shape).filter fun idx => idx.getD (s.testPlace i t) 0 = r).map fun idx =>
          (t.op.entries e).val idx * (∏ l ∈ ((Finset.range t.corr.length).erase (s.testPlace i t)).erase p, v l (idx.getD l 0))
          * d (idx.getD p 0)).sum := by
  rw [← sum_by_value (((indices (t.op.entries e).shape).filter fun idx => idx.getD (s.testPlace i t) 0 = r))
    (s.m (s.unknownAt t p) e) (fun idx => idx.getD p 0) _
    (fun idx => (t.op.entries e).val idx * (∏ l ∈ ((Finset.range t.corr.length).erase (s.testPlace i t)).erase p, v l (idx.getD l 0))) d]
  · apply Finset.sum_congr rfl
    intro c _
    unfold contract2
    rw [shape_length h he]
    congr 3
    rw [List.filter_filter]
    apply List.filter_congr
    intro idx _
    simp [and_comm]
  · intro idx hidx
    rw [List.mem_filter] at hidx
    have h1 := (mem_indices hidx.1).2 p (by rw [shape_length h he]; exact hp)
    rw [h.shape e he, getD_map_range _ _ _ _ hp] at h1
    simpa [Sys.dofs, hpk] using h1

/-- A sum over the unknowns of a term is a sum over its places. -/
theorem sum_unknowns (hs : Fits s) (hi : i < s.rows) (h : TermFits s i t) (F : ℕ → ℕ → K) :
    (∑ j ∈ Finset.range s.unknowns.length,
      if (s.unknowns.getD j ⟨0, .generic 0⟩).key ∈ t.corr.map Operand.key then F j (placeOf t (s.unknowns.getD j ⟨0, .generic 0⟩)) else 0)
    = ∑ p ∈ (Finset.range t.corr.length).erase (s.testPlace i t), F (s.unknownAt t p) p := by
  rw [← Finset.sum_filter]
  have keyget : ∀ j, (hj : j < s.unknowns.length) → (s.unknowns.getD j ⟨0, .generic 0⟩).key = (s.unknowns.map Operand.key)[j]'(by simpa using hj) := by
    intro j hj; rw [List.getD_eq_getElem _ _ hj, List.getElem_map]
  have placelt : ∀ j, (s.unknowns.getD j ⟨0, .generic 0⟩).key ∈ t.corr.map Operand.key →
      placeOf t (s.unknowns.getD j ⟨0, .generic 0⟩) < t.corr.length := by
    intro j hj; simpa [placeOf] using List.idxOf_lt_length_of_mem hj
  have placekey : ∀ j, (hj : (s.unknowns.getD j ⟨0, .generic 0⟩).key ∈ t.corr.map Operand.key) →
      (t.corr.map Operand.key).getD (placeOf t (s.unknowns.getD j ⟨0, .generic 0⟩)) (.generic 0)
        = (s.unknowns.getD j ⟨0, .generic 0⟩).key := by
    intro j hj
    rw [List.getD_eq_getElem _ _ (by simpa using placelt j hj)]
    exact List.getElem_idxOf (List.idxOf_lt_length_of_mem hj)
  have back : ∀ j, j < s.unknowns.length → (s.unknowns.getD j ⟨0, .generic 0⟩).key ∈ t.corr.map Operand.key →
      s.unknownAt t (placeOf t (s.unknowns.getD j ⟨0, .generic 0⟩)) = j := by
    intro j hj hm
    unfold Sys.unknownAt
    rw [placekey j hm, keyget j hj]
    exact hs.distinct.idxOf_getElem _ _
  refine Finset.sum_nbij' (fun j => placeOf t (s.unknowns.getD j ⟨0, .generic 0⟩)) (fun p => s.unknownAt t p) ?_ ?_ ?_ ?_ ?_
  · intro j hj
    simp only [Finset.mem_filter, Finset.mem_range] at hj
    simp only [Finset.mem_erase, Finset.mem_range]
    refine ⟨?_, placelt j hj.2⟩
    intro hk
    have h2 := (h.key_place (placelt j hj.2)).mpr hk
    rw [placekey j hj.2, keyget j hj.1] at h2
    exact hs.tests i hi (h2 ▸ List.getElem_mem _)
  · intro p hp
    simp only [Finset.mem_erase, Finset.mem_range] at hp
    obtain ⟨h1, h2⟩ := h.unknown_lt hp.2 hp.1
    simp only [Finset.mem_filter, Finset.mem_range]
    refine ⟨h1, ?_⟩
    rw [keyget _ h1]
    rw [List.getElem?_eq_getElem (by simpa using h1)] at h2
    rw [Option.some.inj h2, List.getD_eq_getElem _ _ (by simpa using hp.2)]
    exact List.getElem_mem _
  · intro j hj
    simp only [Finset.mem_filter, Finset.mem_range] at hj
    exact back j hj.1 hj.2
  · intro p hp
    simp only [Finset.mem_erase, Finset.mem_range] at hp
    obtain ⟨h1, h2⟩ := h.unknown_lt hp.2 hp.1
    unfold placeOf
    rw [keyget _ h1]
    rw [List.getElem?_eq_getElem (by simpa using h1)] at h2
    rw [Option.some.inj h2, List.getD_eq_getElem _ _ (by simpa using hp.2)]
    exact h.distinct.idxOf_getElem _ _
  · intro j hj
    simp only [Finset.mem_filter, Finset.mem_range] at hj
    rw [back j hj.1 hj.2]

end Phyem.Nonlinear
