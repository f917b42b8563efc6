import Verif.Nonlinear.Lemmas3
import Mathlib.Analysis.Calculus.Deriv.Mul
import Mathlib.Analysis.Calculus.Deriv.Add
import Mathlib.Data.Rat.Cast.Defs
import Mathlib.Tactic.LinearCombination

/-!
C89: the linear system of a Newton iteration is the linearisation of the nonlinear system.
C92: Picard iterations.
-/

open scoped BigOperators

namespace Phyem.Nonlinear

/-! ### A system -/

/-- The unknowns `u` and `w` of an example. -/
def exU : List Operand := [⟨31, .copy 0 0⟩, ⟨32, .copy 1 0⟩]

/-- The forms `w, v, u` of a term. -/
def exC1 : List Operand := [⟨10, .copy 1 0⟩, ⟨11, .generic 7⟩, ⟨12, .copy 0 0⟩]

/-- The forms `u, w, v` of a term. -/
def exC2 : List Operand := [⟨20, .copy 0 0⟩, ⟨21, .copy 1 0⟩, ⟨22, .generic 7⟩]

/-- A system of two unknowns `u` (two dofs) and `w` (one dof) and a test form `v` (two dofs), on two elements, with two terms:
`2 a(w, v, u)` and `-c(u, w, v)`. -/
def exS {K : Type} [CommRing K] : Sys K where
  elements := [0, 1]
  rows := 1
  A := fun _ j _ r c => if j = 0 ∧ r = c then 1 else 0
  b := fun _ e r => if e = 0 ∧ r = 0 then 3 else 1
  terms := fun _ =>
    [(⟨.scaled 2 (.array fun _ => ⟨[1, 2, 2], fun i => if i.getD 1 0 = i.getD 2 0 then 1 else 5⟩), exC1⟩, true),
     (⟨.array fun e => ⟨[2, 1, 2], fun i => if i.getD 0 0 = 0 ∧ e = 1 then 1 else 2⟩, exC2⟩, false)]
  tests := fun _ => ⟨30, .generic 7⟩
  unknowns := exU
  n := fun _ _ => 2
  m := fun j _ => if j = 0 then 2 else 1

/-- It meets the hypotheses of the theorems. -/
theorem exS_fits {K : Type} [CommRing K] : Fits (exS (K := K)) := by
  refine ⟨show (exU.map _).Nodup by decide, fun i _ => show Key.generic 7 ∉ exU.map _ by decide, ?_⟩
  intro i hi t ht
  have ht' : t ∈ [_, _] := ht
  rw [List.mem_cons, List.mem_singleton] at ht'
  rcases ht' with rfl | rfl
  · exact ⟨show exC1.length < 14 by decide, show 3 ≤ exC1.length by decide, show (exC1.map _).Nodup by decide,
      show (exC1.map _).Nodup by decide, show Key.generic 7 ∈ exC1.map _ by decide,
      show ∀ k ∈ exC1.map Operand.key, k = .generic 7 ∨ k ∈ exU.map Operand.key by decide, fun e _ => rfl⟩
  · exact ⟨show exC2.length < 14 by decide, show 3 ≤ exC2.length by decide, show (exC2.map _).Nodup by decide,
      show (exC2.map _).Nodup by decide, show Key.generic 7 ∈ exC2.map _ by decide,
      show ∀ k ∈ exC2.map Operand.key, k = .generic 7 ∨ k ∈ exU.map Operand.key by decide, fun e _ => rfl⟩

/-! ### The right side -/

/-- The right side of a Newton iteration is minus the residual of the iterate. -/
theorem newton_rhs {K : Type} [CommRing K] (s : Sys K) (hs : Fits s) (x : ℕ → ℕ → ℕ → K) {i : ℕ} (hi : i < s.rows) :
    ∃ f, s.negF x i = some f ∧ ∀ e ∈ s.elements, ∀ r, f e r = -s.residual x i e r := by
  obtain ⟨f, hf, hfv⟩ := nonlinear_eq x hs hi
  refine ⟨_, by rw [Sys.negF, hf]; rfl, ?_⟩
  intro e he r
  simp only [hfv e he r, Sys.residual, sum_range_list]
  ring

/-! ### The left side -/

theorem hasDerivAt_list_sum {α : Type} (l : List α) (f : α → ℝ → ℝ) (f' : α → ℝ) (x : ℝ)
    (h : ∀ a ∈ l, HasDerivAt (f a) (f' a) x) : HasDerivAt (fun τ => (l.map fun a => f a τ).sum) ((l.map f').sum) x := by
  induction l with
  | nil => simpa using hasDerivAt_const x (0 : ℝ)
  | cons a l ih =>
    simp only [List.map_cons, List.sum_cons]
    exact (h a (by simp)).add (ih fun b hb => h b (by simp [hb]))

/-- The derivative of a term: one place at a time takes the increment. -/
theorem hasDerivAt_contract {s : Sys ℝ} {i : ℕ} {t : Term ℝ} (h : TermFits s i t) {e : ℕ} (he : e ∈ s.elements) (r : ℕ)
    (v w : ℕ → ℕ → ℝ) :
    HasDerivAt (fun τ => contract (t.op.entries e) (s.testPlace i t) r fun l c => v l c + τ * w l c)
      (∑ p ∈ (Finset.range t.corr.length).erase (s.testPlace i t),
        ∑ c ∈ Finset.range (s.m (s.unknownAt t p) e), contract2 (t.op.entries e) (s.testPlace i t) p r c v * w p c) 0 := by
  have h1 : (∑ p ∈ (Finset.range t.corr.length).erase (s.testPlace i t),
        ∑ c ∈ Finset.range (s.m (s.unknownAt t p) e), contract2 (t.op.entries e) (s.testPlace i t) p r c v * w p c)
      = (((indices (t.op.entries e).shape).filter fun idx => idx.getD (s.testPlace i t) 0 = r).map fun idx =>
          (t.op.entries e).val idx * ∑ p ∈ (Finset.range t.corr.length).erase (s.testPlace i t),
            (∏ l ∈ ((Finset.range t.corr.length).erase (s.testPlace i t)).erase p, v l (idx.getD l 0)) * w p (idx.getD p 0)).sum := by
    rw [Finset.sum_congr rfl fun p hp => sum_contract2 h he (by simp at hp; exact hp.2) (by simp at hp; exact hp.1) r v (w p)]
    induction ((indices (t.op.entries e).shape).filter fun idx => idx.getD (s.testPlace i t) 0 = r) with
    | nil => simp
    | cons idx l ih =>
      simp only [List.map_cons, List.sum_cons, Finset.sum_add_distrib, ih]
      congr 1
      rw [Finset.mul_sum]
      apply Finset.sum_congr rfl
      intro p _
      ring
  rw [h1]
  unfold contract
  apply hasDerivAt_list_sum
  intro idx _
  apply HasDerivAt.const_mul
  rw [shape_length h he]
  have h2 := HasDerivAt.fun_finsetProd (u := (Finset.range t.corr.length).erase (s.testPlace i t))
    (f := fun l (τ : ℝ) => v l (idx.getD l 0) + τ * w l (idx.getD l 0)) (f' := fun l => w l (idx.getD l 0)) (x := (0 : ℝ)) (by
      intro l _
      have := ((hasDerivAt_id (0 : ℝ)).mul_const (w l (idx.getD l 0))).const_add (v l (idx.getD l 0))
      simpa using this)
  simpa using h2

/-- The blocks of a Newton iteration applied to an increment. -/
theorem lhs_apply {K : Type} [CommRing K] (s : Sys K) (hs : Fits s) (x d : ℕ → ℕ → ℕ → K) {i : ℕ} (hi : i < s.rows) {e : ℕ}
    (he : e ∈ s.elements) (r : ℕ) :
    (∑ j ∈ Finset.range s.unknowns.length, ∑ c ∈ Finset.range (s.m j e),
        ((s.lhs x i j).getD fun _ _ _ => 0) e r c * d j e c)
      = (∑ j ∈ Finset.range s.unknowns.length, ∑ c ∈ Finset.range (s.m j e), s.A i j e r c * d j e c)
      + ((s.terms i).map fun t => (if t.2 then 1 else -1) *
        ∑ p ∈ (Finset.range t.1.corr.length).erase (s.testPlace i t.1), ∑ c ∈ Finset.range (s.m (s.unknownAt t.1 p) e),
          contract2 (t.1.op.entries e) (s.testPlace i t.1) p r c (fun l c => x (s.unknownAt t.1 l) e c)
            * d (s.unknownAt t.1 p) e c).sum := by
  have hL : ∀ j < s.unknowns.length, ∀ c, ((s.lhs x i j).getD fun _ _ _ => 0) e r c = s.A i j e r c +
      ((s.terms i).map fun t => (if t.2 then 1 else -1) *
        if (s.unknowns.getD j ⟨0, .generic 0⟩).key ∈ t.1.corr.map Operand.key then
          contract2 (t.1.op.entries e) (s.testPlace i t.1) (placeOf t.1 (s.unknowns.getD j ⟨0, .generic 0⟩)) r c
            fun l c => x (s.unknownAt t.1 l) e c
        else 0).sum := by
    intro j hj c
    obtain ⟨L, hL, hLv⟩ := lhs_eq x hs hi hj
    rw [hL, Option.getD_some, hLv e he r c, List.getD_eq_getElem _ _ hj]
  rw [Finset.sum_congr rfl fun j hj => Finset.sum_congr rfl fun c _ => by rw [hL j (by simpa using hj) c]]
  have hterms := hs.terms i hi
  revert hterms
  clear hL
  induction s.terms i with
  | nil => intro _; simp
  | cons t terms ih =>
    intro hterms
    have ih := ih fun t' ht' => hterms t' (by simp [ht'])
    simp only [List.map_cons, List.sum_cons]
    have h1 := sum_unknowns hs hi (hterms t (by simp)) fun j p => ∑ c ∈ Finset.range (s.m j e),
      contract2 (t.1.op.entries e) (s.testPlace i t.1) p r c (fun l c => x (s.unknownAt t.1 l) e c) * d j e c
    rw [← h1]
    have h2 : ∀ a b c : K, a + (b + c) = (a + c) + b := fun a b c => by ring
    rw [h2, ← ih, Finset.mul_sum, ← Finset.sum_add_distrib]
    apply Finset.sum_congr rfl
    intro j _
    by_cases hm : (s.unknowns.getD j ⟨0, .generic 0⟩).key ∈ t.1.corr.map Operand.key
    · simp only [hm, if_true]
      rw [Finset.mul_sum, ← Finset.sum_add_distrib]
      apply Finset.sum_congr rfl
      intro c _
      ring
    · simp only [hm, if_false]
      rw [mul_zero, add_zero]
      apply Finset.sum_congr rfl
      intro c _
      ring

/-- The blocks of a Newton iteration exist and, applied to any increment, give the derivative of the residual of the iterate in the
direction of the increment. -/
theorem newton_lhs (s : Sys ℝ) (hs : Fits s) (x : ℕ → ℕ → ℕ → ℝ) {i : ℕ} (hi : i < s.rows) :
    ∃ L : ℕ → ℕ → ℕ → ℕ → ℝ, (∀ j < s.unknowns.length, s.lhs x i j = some (L j)) ∧
      ∀ (d : ℕ → ℕ → ℕ → ℝ), ∀ e ∈ s.elements, ∀ r,
        HasDerivAt (fun τ => s.residual (fun j e c => x j e c + τ * d j e c) i e r)
          (∑ j ∈ Finset.range s.unknowns.length, ∑ c ∈ Finset.range (s.m j e), L j e r c * d j e c) 0 := by
  refine ⟨fun j => (s.lhs x i j).getD fun _ _ _ => 0, ?_, ?_⟩
  · intro j hj
    obtain ⟨L, hL, _⟩ := lhs_eq x hs hi hj
    simp only [hL, Option.getD_some]
  intro d e he r
  rw [lhs_apply s hs x d hi he r]
  unfold Sys.residual
  apply HasDerivAt.sub_const
  apply HasDerivAt.add
  · apply HasDerivAt.fun_sum
    intro j _
    apply HasDerivAt.fun_sum
    intro c _
    apply HasDerivAt.const_mul
    have := ((hasDerivAt_id (0 : ℝ)).mul_const (d j e c)).const_add (x j e c)
    simpa using this
  · apply hasDerivAt_list_sum
    intro t ht
    apply HasDerivAt.const_mul
    exact hasDerivAt_contract (hs.terms i hi t ht) he r (fun l c => x (s.unknownAt t.1 l) e c) fun l c => d (s.unknownAt t.1 l) e c

/-! ### Terms that are refused -/

theorem countP_lt {α : Type} (l : List α) (P Q : α → Bool) (h : ∀ a ∈ l, P a = true → Q a = true) (a : α) (ha : a ∈ l)
    (hP : P a = false) (hQ : Q a = true) : l.countP P < l.countP Q := by
  induction l with
  | nil => simp at ha
  | cons b l ih =>
    rw [List.countP_cons, List.countP_cons]
    rcases List.mem_cons.mp ha with rfl | ha
    · have := List.countP_mono_left (p := P) (q := Q) (l := l) fun x hx => h x (by simp [hx])
      simp [hP, hQ]; omega
    · have h1 := ih (fun x hx => h x (by simp [hx])) ha
      have h2 := h b (by simp)
      cases hPb : P b <;> cases hQb : Q b <;> simp_all <;> omega

theorem foldlM_refused {α β : Type} (g : β → α → Option β) (a : α) (hb : ∀ b, g b a = none) :
    ∀ (l : List α) (b : β), a ∈ l → l.foldlM g b = none
  | [], _, h => by simp at h
  | a' :: l, b, h => by
    rw [List.foldlM_cons]
    rcases List.mem_cons.mp h with rfl | h
    · rw [hb]; rfl
    · cases hg : g b a' with
      | none => rfl
      | some b' => exact foldlM_refused g a hb l b' h

section refused

variable {K : Type} [CommRing K] (s : Sys K) (x : ℕ → ℕ → ℕ → K) (i : ℕ) (t : Term K) (sg : Bool)

theorem find_unknown_none {q : Operand} (hq : q.key ∉ s.unknowns.map Operand.key) :
    ((s.pairs x).find? fun p => p.1.key == q.key) = none := by
  rw [List.find?_eq_none]
  intro p hp
  simp only [beq_iff_eq]
  intro he
  apply hq
  rw [← he, ← pairs_keys s x]
  exact List.mem_map_of_mem (f := fun p : Operand × (ℕ → Arr1 K) => p.1.key) hp

theorem lastPair_none_of_mem (hobj : (t.corr.map Operand.addr).Nodup) {u cp : Operand} (hcp : cp ∈ t.corr)
    (h : (cp.key == u.key || cp.key == (s.tests i).key) = true) : lastPair cp (s.known x t (s.tests i) u) = none := by
  unfold lastPair
  apply foldl_none (fun p : Operand × Provider K => p.1.addr) (fun p => p.2)
  intro q hq he
  simp only [Sys.known, List.mem_map, List.mem_filter] at hq
  obtain ⟨cp', ⟨h1, h2⟩, rfl⟩ := hq
  have := List.inj_on_of_nodup_map hobj hcp h1 he
  subst this
  rw [h] at h2
  simp at h2

theorem lastPair_none_of_known (hobj : (t.corr.map Operand.addr).Nodup) {u cp : Operand} (hcp : cp ∈ t.corr)
    (h : cp.key ∉ s.unknowns.map Operand.key) : lastPair cp (s.known x t (s.tests i) u) = none := by
  by_cases hm : (cp.key == u.key || cp.key == (s.tests i).key) = true
  · exact lastPair_none_of_mem s x i t hobj hcp hm
  · unfold lastPair
    have haddr : ((s.known x t (s.tests i) u).map fun q => q.1.addr).Nodup := by
      simp only [Sys.known, List.map_map]
      refine List.Nodup.sublist ?_ hobj
      exact (List.filter_sublist (l := t.corr)).map Operand.addr
    rw [foldl_some (fun p : Operand × Provider K => p.1.addr) (fun p => p.2) _ _ _ haddr
      (cp, ((s.pairs x).find? fun p => p.1.key == cp.key).map Prod.snd) _ rfl]
    · rw [find_unknown_none s x h]; rfl
    · simp only [Sys.known, List.mem_map, List.mem_filter]
      exact ⟨cp, ⟨hcp, by simpa using hm⟩, rfl⟩

/-- The derivative is refused if another form is no unknown, or if test form and unknown occur three times or more. -/
theorem derivative_none (elements : List ℕ) (hobj : (t.corr.map Operand.addr).Nodup) {u : Operand}
    (hu : u.key ∈ t.corr.map Operand.key)
    (hbad : (∃ cp ∈ t.corr, cp.key ≠ (s.tests i).key ∧ cp.key ≠ u.key ∧ cp.key ∉ s.unknowns.map Operand.key) ∨
      3 ≤ (t.corr.filter fun cp => cp.key == u.key || cp.key == (s.tests i).key).length) :
    t.derivative elements (s.tests i) u (s.known x t (s.tests i) u) = none := by
  unfold Term.derivative
  by_cases h1 : (s.tests i).key ∈ t.corr.map Operand.key
  · rw [if_neg (not_not.mpr h1), if_neg (not_not.mpr hu)]
    simp only []
    split_ifs with h4
    · rcases hbad with ⟨cp, hcp, hb1, hb2, hb3⟩ | hbad
      · exfalso
        rw [List.filter_map, List.length_map, ← List.countP_eq_length_filter] at h4
        have h5 : (s.known x t (s.tests i) u).length
            = t.corr.countP fun cp => !(cp.key == u.key || cp.key == (s.tests i).key) := by
          simp [Sys.known, List.countP_eq_length_filter]
        have h6 := List.length_eq_countP_add_countP (l := t.corr) fun cp : Operand => (cp.key == u.key || cp.key == (s.tests i).key)
        have h7 := countP_lt t.corr (fun cp => (cp.key == u.key || cp.key == (s.tests i).key))
          (Option.isNone ∘ fun cp => lastPair cp (s.known x t (s.tests i) u)) (by
            intro a ha hP
            simp only [Function.comp_apply]
            rw [lastPair_none_of_mem s x i t hobj ha hP]; rfl) cp hcp (by simp [hb1, hb2]) (by
            simp only [Function.comp_apply]
            rw [lastPair_none_of_known s x i t hobj hcp hb3]; rfl)
        simp only [Bool.not_eq_true, Bool.decide_eq_false] at h6
        rw [h5] at h4
        omega
      · cases he : t.eliminate elements (t.corr.map fun cp => lastPair cp (s.known x t (s.tests i) u)) with
        | none => rfl
        | some r =>
          have hlen : 3 ≤ r.2.length := by
            unfold Term.eliminate at he
            split_ifs at he with h5
            simp only [] at he
            split_ifs at he with h6
            simp only [Option.some.injEq] at he
            rw [← he]
            simp only [List.length_map]
            refine hbad.trans ?_
            have h7 : ∀ (l : List Operand) (f : Operand → Provider K), (l.zip (l.map f)).filter (fun x => x.2.isNone)
                = (l.filter fun a => (f a).isNone).map fun a => (a, f a) := by
              intro l f
              induction l with
              | nil => rfl
              | cons a l ih =>
                rw [List.map_cons, List.zip_cons_cons, List.filter_cons, List.filter_cons, ih]
                cases h8 : (f a).isNone <;> simp
            rw [h7, List.length_map, ← List.countP_eq_length_filter, ← List.countP_eq_length_filter]
            apply List.countP_mono_left
            intro cp hcp h8
            rw [lastPair_none_of_mem s x i t hobj hcp h8]; rfl
          simp only [Option.bind_some]
          split_ifs with h5 h6 h7
          · have := congrArg List.length h6; simp at this; omega
          · have := congrArg List.length h7; simp at this; omega
          · rfl
          · rfl
    · rfl
  · rw [if_pos h1]

/-- A term whose forms are not all different, or in which another form than the test form is no unknown, makes the Newton iteration
fail. -/
theorem newton_refuses (ht : (t, sg) ∈ s.terms i) (hobj : (t.corr.map Operand.addr).Nodup) (htests : (s.tests i).key ∉ s.unknowns.map Operand.key)
    (hbad : ¬ (t.corr.map Operand.key).Nodup ∨
      ∃ cp ∈ t.corr, cp.key ≠ (s.tests i).key ∧ cp.key ∉ s.unknowns.map Operand.key) :
    s.negF x i = none ∨ ∃ j < s.unknowns.length, s.lhs x i j = none := by
  by_cases hex : ∃ cp ∈ t.corr, cp.key ∈ s.unknowns.map Operand.key
  · right
    -- an unknown for which the derivative fails
    have key : ∀ j, (hj : j < s.unknowns.length) → ((s.tests i).key ∉ t.corr.map Operand.key ∨
        (s.unknowns[j].key ∈ t.corr.map Operand.key ∧
        ((∃ cp ∈ t.corr, cp.key ≠ (s.tests i).key ∧ cp.key ≠ s.unknowns[j].key ∧ cp.key ∉ s.unknowns.map Operand.key) ∨
        3 ≤ (t.corr.filter fun cp => cp.key == s.unknowns[j].key || cp.key == (s.tests i).key).length))) →
        s.lhs x i j = none := by
      intro j hj hcase
      unfold Sys.lhs
      rw [List.getElem?_eq_getElem hj, Option.bind_some]
      apply foldlM_refused _ (t, sg) _ _ _ ht
      intro M
      simp only []
      rcases hcase with h1 | ⟨h1, h2⟩
      · rw [if_pos h1]
      · rw [if_pos h1, derivative_none s x i t s.elements hobj h1 h2]
        simp
    by_cases htest : (s.tests i).key ∈ t.corr.map Operand.key
    · obtain ⟨cp, hcp, hcu⟩ := hex
      have idx : ∀ k ∈ s.unknowns.map Operand.key, ∃ j, ∃ hj : j < s.unknowns.length, s.unknowns[j].key = k := by
        intro k hk
        obtain ⟨u, hu, rfl⟩ := List.mem_map.mp hk
        obtain ⟨j, hj, rfl⟩ := List.getElem_of_mem hu
        exact ⟨j, hj, rfl⟩
      by_cases hknown : ∃ cp ∈ t.corr, cp.key ≠ (s.tests i).key ∧ cp.key ∉ s.unknowns.map Operand.key
      · obtain ⟨q, hq, hq1, hq2⟩ := hknown
        obtain ⟨j, hj, hjk⟩ := idx _ hcu
        refine ⟨j, hj, key j hj (Or.inr ⟨?_, Or.inl ⟨q, hq, hq1, ?_, hq2⟩⟩)⟩
        · rw [hjk]; exact List.mem_map_of_mem hcp
        · rw [hjk]; intro h; rw [h] at hq2; exact hq2 hcu
      · have hdup := hbad.resolve_right hknown
        -- a key that occurs twice
        have hd : ∃ k, 2 ≤ (t.corr.filter fun cp => cp.key == k).length := by
          by_contra hno
          push Not at hno
          apply hdup
          rw [List.nodup_iff_count_le_one]
          intro k
          have h1 := hno k
          rw [List.count, List.countP_map, List.countP_eq_length_filter]
          simp only [Function.comp_def]
          omega
        obtain ⟨k, hk⟩ := hd
        have hkm : ∃ q ∈ t.corr, q.key = k := by
          have h1 : (t.corr.filter fun cp => cp.key == k) ≠ [] := by intro h; rw [h] at hk; simp at hk
          obtain ⟨q, hq⟩ := List.exists_mem_of_ne_nil _ h1
          rw [List.mem_filter] at hq
          exact ⟨q, hq.1, by simpa using hq.2⟩
        obtain ⟨q, hq, rfl⟩ := hkm
        have three : ∀ a b : Key, a ≠ b → a ∈ t.corr.map Operand.key → 2 ≤ (t.corr.filter fun cp => cp.key == b).length →
            3 ≤ (t.corr.filter fun cp => cp.key == a || cp.key == b).length := by
          intro a b hab ha hb
          obtain ⟨c, hc, hca⟩ := List.mem_map.mp ha
          rw [← List.countP_eq_length_filter] at hb ⊢
          have := countP_lt t.corr (fun cp => cp.key == b) (fun cp => cp.key == a || cp.key == b)
            (by intro c _ h; simp only [h, Bool.or_true]) c hc (by simpa [hca] using hab) (by simp [hca])
          omega
        by_cases hqt : q.key = (s.tests i).key
        · obtain ⟨j, hj, hjk⟩ := idx _ hcu
          have hjm : s.unknowns[j].key ∈ t.corr.map Operand.key := by rw [hjk]; exact List.mem_map_of_mem hcp
          have hjt : s.unknowns[j].key ≠ (s.tests i).key := by
            intro h
            exact htests (h ▸ List.mem_map_of_mem (List.getElem_mem hj))
          exact ⟨j, hj, key j hj (Or.inr ⟨hjm, Or.inr (three _ _ hjt hjm (hqt ▸ hk))⟩)⟩
        · have hqu : q.key ∈ s.unknowns.map Operand.key := by
            by_contra h
            exact hknown ⟨q, hq, hqt, h⟩
          obtain ⟨j, hj, hjk⟩ := idx _ hqu
          refine ⟨j, hj, key j hj (Or.inr ⟨by rw [hjk]; exact List.mem_map_of_mem hq, Or.inr ?_⟩)⟩
          have h3 := three (s.tests i).key q.key (Ne.symm hqt) htest hk
          rw [hjk]
          refine le_of_le_of_eq h3 ?_
          congr 2
          funext c
          rw [Bool.or_comm]
    · obtain ⟨cp, hcp, hcu⟩ := hex
      have : 0 < s.unknowns.length := by
        obtain ⟨u, hu, _⟩ := List.mem_map.mp hcu
        exact List.length_pos_of_mem hu
      exact ⟨0, this, key 0 this (Or.inl htest)⟩
  · left
    push Not at hex
    have hpl : ∀ (pairs : List (Operand × (ℕ → Arr1 K))) (L : List (Provider K)),
        (∀ p ∈ pairs, ∀ cp ∈ t.corr, cp.key ≠ p.1.key) → pairs.foldl (fun l p =>
        match t.corr.findIdx? fun cp => cp.key == p.1.key with
        | some i => l.set i (some p.2)
        | none => l) L = L := by
      intro pairs
      induction pairs with
      | nil => intro L _; rfl
      | cons p pairs ih =>
        intro L h
        simp only [List.foldl_cons]
        have h1 : (t.corr.findIdx? fun cp => cp.key == p.1.key) = none := by
          rw [List.findIdx?_eq_none_iff]
          intro cp hcp
          simpa using h p (by simp) cp hcp
        rw [h1]
        exact ih L fun q hq => h q (by simp [hq])
    have hev : t.evaluate s.elements (s.n i) (s.pairs x) = none := by
      have h1 : place t.corr (s.pairs x) = t.corr.map fun _ => none := hpl (s.pairs x) _ (by
        intro p hp cp hcp he
        apply hex cp hcp
        rw [he, ← pairs_keys s x]
        exact List.mem_map_of_mem (f := fun p : Operand × (ℕ → Arr1 K) => p.1.key) hp)
      unfold Term.evaluate
      rw [h1]
      unfold Term.eliminate
      rw [if_pos (Or.inl (by simp))]
      rfl
    unfold Sys.negF Sys.nonlinear
    rw [foldlM_refused _ (t, sg) _ _ _ ht]
    · rfl
    · intro b
      simp only [hev, Option.map_none]

/-- The same form at both sides of the test form, in two objects. -/
def exR {K : Type} [CommRing K] (k : ℕ) (a : List ℕ → K) : Term K :=
  ⟨.array fun _ => ⟨[k, 2, k], a⟩, [⟨10, .copy 0 0⟩, ⟨11, .generic 7⟩, ⟨12, .copy 0 0⟩]⟩

/-- A known form in place of an unknown. -/
def exK {K : Type} [CommRing K] : Term K :=
  ⟨.array fun _ => ⟨[2, 2, 1], fun _ => 1⟩, [⟨10, .copy 0 0⟩, ⟨11, .generic 7⟩, ⟨12, .copy 5 0⟩]⟩

example : ((exR (K := ℚ) 1 fun _ => 1).corr.map Operand.addr).Nodup ∧ ¬ ((exR (K := ℚ) 1 fun _ => 1).corr.map Operand.key).Nodup ∧
    ((exS (K := ℚ)).tests 0).key ∉ (exS (K := ℚ)).unknowns.map Operand.key ∧
    ((exK (K := ℚ)).corr.map Operand.addr).Nodup ∧
    ∃ cp ∈ (exK (K := ℚ)).corr, cp.key ≠ ((exS (K := ℚ)).tests 0).key ∧ cp.key ∉ (exS (K := ℚ)).unknowns.map Operand.key := by
  decide +kernel

end refused

/-- **C89.** A term with the test form but without the unknown contributes nothing to the derivative, and it is not refused. -/
theorem derivative_absent {K : Type} [CommRing K] (elements : List ℕ) (t : Term K) (test unknown : Operand)
    (known : List (Operand × Provider K)) (h1 : test.key ∈ t.corr.map Operand.key)
    (h2 : unknown.key ∉ t.corr.map Operand.key) : t.derivative elements test unknown known = some none := by
  unfold Term.derivative
  rw [if_neg (not_not.mpr h1), if_pos h2]

/-- **C89.** Which arrays serve as the vector of an element with `n` dofs: `n` entries, or one column of `n` entries, in this order. -/
theorem array_as_vector {K : Type} [CommRing K] (n : ℕ) (a : Arr K) (w : ℕ → K) :
    toVector n a = some w ↔ a.shape = [n] ∧ (w = fun i => a.val [i]) ∨ a.shape = [n, 1] ∧ (w = fun i => a.val [i, 0]) := by
  unfold toVector
  split
  · rename_i k hk
    rw [hk]
    by_cases h : k = n
    · simp [h, eq_comm]
    · simp [h]
  · rename_i k hk
    rw [hk]
    by_cases h : k = n
    · simp [h, eq_comm]
    · simp [h]
  · rename_i h1 h2
    constructor
    · intro h; simp at h
    · rintro (⟨h, _⟩ | ⟨h, _⟩)
      · exact absurd h (h1 n)
      · exact absurd h (h2 n)

end Phyem.Nonlinear
