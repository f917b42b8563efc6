import Verif.Assembly.Spec
import Mathlib.Algebra.BigOperators.Group.Finset.Sigma
import Mathlib.Tactic.Linarith
import Mathlib.Tactic.Ring

/-!
Lemmas on assembling.
-/

namespace Phyem.Assembly

open Finset

theorem gather_some {g : List ℕ} : ∀ {ks : List ℕ}, (∀ k ∈ ks, k < g.length) →
    gather g ks = some (ks.map fun k => g.getD k 0) := by
  intro ks
  induction ks with
  | nil => intro _; rfl
  | cons k ks ih =>
    intro h
    have hk : k < g.length := h k (by simp)
    simp only [gather, List.getElem?_eq_getElem hk, ih fun k' hk' => h k' (by simp [hk']), List.map_cons,
      List.getD_eq_getElem?_getD, Option.getD_some]

theorem same_some {g : List ℕ} {j num : ℕ} (h : num = 0 ∨ j < g.length) :
    same g j num = some (List.replicate num (g.getD j 0)) := by
  unfold same
  split_ifs with h0
  · subst h0; rfl
  · rcases h with h | h
    · exact absurd h h0
    · simp [List.getElem?_eq_getElem h]

/-- Sum over a slice. -/
theorem slice_sum {α : Type} (g : α → ℚ) : ∀ (P : List α) (a b : ℕ),
    ((slice P a b).map g).sum = ∑ p ∈ range P.length, if a ≤ p ∧ p < b then ((P[p]?).map g).getD 0 else 0 := by
  intro P
  induction P with
  | nil => intro a b; simp [slice]
  | cons q P ih =>
    intro a b
    rw [List.length_cons, Finset.sum_range_succ']
    cases b with
    | zero => simp [slice]
    | succ b =>
      cases a with
      | zero =>
        have h := ih 0 b
        unfold slice at h ⊢
        simp only [List.take_succ_cons, List.drop_zero, List.map_cons, List.sum_cons] at h ⊢
        rw [h]
        simp [add_comm]
      | succ a =>
        have h := ih a b
        unfold slice at h ⊢
        simp only [List.take_succ_cons, List.drop_succ_cons] at h ⊢
        rw [h]
        simp

theorem slice_length {α : Type} (xs : List α) (a b : ℕ) (h : b ≤ xs.length) : (slice xs a b).length = b - a := by
  unfold slice
  rw [List.length_drop, List.length_take, Nat.min_eq_left h]

theorem slice_append {α : Type} (xs : List α) {a b c : ℕ} (h : a ≤ b) (h' : b ≤ c) :
    slice xs a c = slice xs a b ++ slice xs b c := by
  unfold slice
  have : xs.take c = xs.take b ++ (xs.take c).drop b := by
    have := List.take_append_drop b (xs.take c)
    rw [List.take_take, Nat.min_eq_left h'] at this
    exact this.symm
  conv_lhs => rw [this]
  by_cases hb : b ≤ xs.length
  · rw [List.drop_append_of_le_length (by rw [List.length_take, Nat.min_eq_left hb]; exact h)]
  · have h1 : (xs.take c).drop b = [] := by
      apply List.drop_eq_nil_of_le; rw [List.length_take]; omega
    rw [h1]; simp

theorem zip_slice {α β : Type} (xs : List α) (ys : List β) (a b : ℕ) :
    (slice xs a b).zip (slice ys a b) = slice (xs.zip ys) a b := by
  unfold slice
  simp only [List.zip, List.drop_zipWith, List.take_zipWith]

theorem zip_replicate_map {α β γ δ : Type} (f : α → β) (m : γ) : ∀ (xs : List α) (ds : List δ) (n : ℕ), n = xs.length →
    (xs.map f).zip ((List.replicate n m).zip ds) = (xs.zip ds).map fun q => (f q.1, m, q.2) := by
  intro xs
  induction xs with
  | nil => intro ds n h; simp
  | cons x xs ih =>
    intro ds n h
    subst h
    cases ds with
    | nil => simp
    | cons d ds => simp [List.replicate_succ, ih]

/-- What the loop over the slots collects. -/
theorem places_spec (minor major indices : List ℕ) (data : List ℚ) (hi : ∀ k ∈ indices, k < minor.length)
    (hdl : data.length = indices.length) (F : ℕ → ℕ → ℚ → ℚ) : ∀ (ps : List ℕ) (j a last : ℕ), ps.head? = some a → ps.getLast? = some last →
    ps.Pairwise (· ≤ ·) → last ≤ indices.length → j + ps.length ≤ major.length + 1 →
    ∃ x y, places minor major indices j ps = some (x, y) ∧ x.length = last - a ∧ y.length = last - a ∧
      (∀ n ∈ x, n ∈ minor) ∧ (∀ n ∈ y, n ∈ major) ∧
      (((x.zip (y.zip (slice data a last))).map fun t => F t.1 t.2.1 t.2.2).sum =
        ∑ k ∈ range (ps.length - 1), ∑ p ∈ range (indices.zip data).length,
          if ps.getD k 0 ≤ p ∧ p < ps.getD (k + 1) 0 then
            F (minor.getD (indices.getD p 0) 0) (major.getD (j + k) 0) (data.getD p 0) else 0) := by
  intro ps
  induction ps with
  | nil => intro j a last h; simp at h
  | cons a' ps ih =>
    intro j a last h1 h2 h3 h4 h5
    simp only [List.head?_cons, Option.some.injEq] at h1
    subst h1
    cases ps with
    | nil =>
      simp only [List.getLast?_singleton, Option.some.injEq] at h2
      subst h2
      exact ⟨[], [], rfl, by simp, by simp, by simp, by simp, by simp⟩
    | cons b ps =>
      have h2' : (b :: ps).getLast? = some last := by rw [← h2, List.getLast?_cons_cons]
      have h3' := (List.pairwise_cons.mp h3)
      have hab : a' ≤ b := h3'.1 b (by simp)
      have hbl : b ≤ last := by
        have hm := List.mem_of_getLast? h2'
        rcases List.mem_cons.mp hm with e | hm
        · omega
        · exact (List.pairwise_cons.mp h3'.2).1 _ hm
      obtain ⟨x, y, e1, e2, e3, e4, e5, e6⟩ := ih (j + 1) b last rfl h2' h3'.2 h4 (by
        simp only [List.length_cons] at h5 ⊢; omega)
      have hj : j < major.length := by simp only [List.length_cons] at h5; omega
      have hsl : ∀ k ∈ slice indices a' b, k < minor.length := fun k hk =>
        hi k (List.mem_of_mem_take (List.mem_of_mem_drop hk))
      have hl := slice_length indices a' b (by omega)
      refine ⟨(slice indices a' b).map (fun k => minor.getD k 0) ++ x, List.replicate (b - a') (major.getD j 0) ++ y,
        ?_, ?_, ?_, ?_, ?_, ?_⟩
      · simp only [places, gather_some hsl, same_some (Or.inr hj), e1]
      · rw [List.length_append, List.length_map, hl, e2]; omega
      · rw [List.length_append, List.length_replicate, e3]; omega
      · intro n hn
        rcases List.mem_append.mp hn with hn | hn
        · obtain ⟨k, hk, rfl⟩ := List.mem_map.mp hn
          have := hsl k hk
          rw [List.getD_eq_getElem?_getD, List.getElem?_eq_getElem this]
          simp
        · exact e4 n hn
      · intro n hn
        rcases List.mem_append.mp hn with hn | hn
        · have := (List.mem_replicate.mp hn).2
          subst this
          rw [List.getD_eq_getElem?_getD, List.getElem?_eq_getElem hj]
          simp
        · exact e5 n hn
      · have hz : (indices.zip data).length = min indices.length data.length := List.length_zip
        have hsplit : ((slice indices a' b).map (fun k => minor.getD k 0) ++ x).zip
            ((List.replicate (b - a') (major.getD j 0) ++ y).zip (slice data a' last)) =
            ((slice (indices.zip data) a' b).map fun q => (minor.getD q.1 0, major.getD j 0, q.2)) ++
              x.zip (y.zip (slice data b last)) := by
          have hl' := slice_length data a' b (by omega)
          rw [slice_append data hab hbl, List.zip_append (by rw [List.length_replicate, hl']),
            List.zip_append (by rw [List.length_map, List.length_zip, List.length_replicate, hl, hl']; simp),
            zip_replicate_map _ _ _ _ _ hl.symm, zip_slice]
        rw [hsplit, List.map_append, List.sum_append, e6, List.map_map, slice_sum]
        have : (a' :: b :: ps).length - 1 = (b :: ps).length - 1 + 1 := by simp
        rw [this, Finset.sum_range_succ', add_comm]
        congr 1
        · apply Finset.sum_congr rfl
          intro k _
          apply Finset.sum_congr rfl
          intro p _
          simp only [List.getD_cons_succ]
          rw [show j + 1 + k = j + (k + 1) by omega]
        · apply Finset.sum_congr rfl
          intro p hp
          simp only [Finset.mem_range, hz] at hp
          have hp1 : p < indices.length := by omega
          have hp2 : p < data.length := by omega
          simp only [List.getD_cons_zero, List.getD_cons_succ, Nat.add_zero, Nat.zero_add]
          congr 1
          have : (indices.zip data)[p]? = some (indices[p], data[p]) :=
            List.getElem?_zip_eq_some.mpr ⟨List.getElem?_eq_getElem hp1, List.getElem?_eq_getElem hp2⟩
          simp [this, List.getD_eq_getElem?_getD, List.getElem?_eq_getElem hp1, List.getElem?_eq_getElem hp2]

theorem entryAt_sum (t : List (ℕ × ℕ × ℚ)) (r c : ℕ) :
    Chaining.entryAt t r c = (t.map fun x => if x.1 = r ∧ x.2.1 = c then x.2.2 else 0).sum := by
  unfold Chaining.entryAt
  induction t with
  | nil => rfl
  | cons x t ih =>
    rw [List.filter_cons, List.map_cons, List.sum_cons, ← ih]
    by_cases h : x.1 = r ∧ x.2.1 = c
    · simp [h]
    · simp [h]

theorem zip_swap {α β γ : Type} (f : α → β → γ → ℚ) : ∀ (x : List α) (y : List β) (d : List γ),
    (y.zip (x.zip d)).map (fun t => f t.2.1 t.1 t.2.2) = (x.zip (y.zip d)).map fun t => f t.1 t.2.1 t.2.2 := by
  intro x
  induction x with
  | nil => intro y d; simp
  | cons a x ih =>
    intro y d
    cases y with
    | nil => simp
    | cons b y =>
      cases d with
      | nil => simp
      | cons c d => simp only [List.zip_cons_cons, List.map_cons, ih]

theorem slice_all {α : Type} (xs : List α) {n : ℕ} (h : xs.length = n) : slice xs 0 n = xs := by
  subst h; simp [slice]

/-- The inner sum over the compressed index has one term. -/
theorem minor_sum {g : List ℕ} {k i : ℕ} (hk : k < g.length) (A B : Prop) [Decidable A] [Decidable B] (d : ℚ) :
    (∑ r ∈ range g.length, if g[r]? = some i ∧ B then (if A ∧ k = r then d else 0) else 0) =
      if A then (if g.getD k 0 = i ∧ B then d else 0) else 0 := by
  rw [Finset.sum_eq_single k]
  · rw [List.getElem?_eq_getElem hk, List.getD_eq_getElem?_getD, List.getElem?_eq_getElem hk]
    by_cases hA : A <;> by_cases hB : B <;> simp [hA, hB]
  · intro r _ hr
    have : ¬ k = r := fun e => hr e.symm
    simp [this]
  · intro h; simp at h; omega

/-- The triplets of one element. -/
theorem rowcol_spec {gr gc : List ℕ} {M : Sp} (h : M.OK gr.length gc.length) (i j : ℕ) :
    ∃ x y, rowcol gr gc M = some (x, y) ∧ x.length = M.data.length ∧ y.length = M.data.length ∧
      (∀ n ∈ x, n ∈ gr) ∧ (∀ n ∈ y, n ∈ gc) ∧
      Chaining.entryAt (x.zip (y.zip M.data)) i j = share gr gc M.entry i j := by
  obtain ⟨h1, h2, h3, h4, h5, h6⟩ := h
  have hz : (M.indices.zip M.data).length = M.data.length := by rw [List.length_zip, h5]; simp
  have hind : ∀ p < M.data.length, M.indices.getD p 0 ∈ M.indices := by
    intro p hp
    rw [List.getD_eq_getElem?_getD, List.getElem?_eq_getElem (by omega)]
    simp
  unfold rowcol
  cases hc : M.csr with
  | false =>
    rw [hc] at h1 h6
    simp only [Bool.false_eq_true, if_false] at h1 h6 ⊢
    obtain ⟨x, y, e1, e2, e3, e4, e5, e6⟩ := places_spec gr gc M.indices M.data h6 h5
      (fun a b d => if a = i ∧ b = j then d else 0) M.indptr 0 0 M.indices.length h2 h4 h3 (le_refl _) (by omega)
    refine ⟨x, y, e1, by omega, by omega, e4, e5, ?_⟩
    rw [slice_all _ h5] at e6
    rw [entryAt_sum, e6, hz]
    unfold share
    rw [h1]
    conv_rhs => rw [Finset.sum_comm]
    apply Finset.sum_congr rfl
    intro c hc'
    have hcl := Finset.mem_range.mp hc'
    unfold Sp.entry
    simp only [hc, Bool.false_eq_true, if_false]
    have hsw : ∀ r, (if gr[r]? = some i ∧ gc[c]? = some j then
        ∑ p ∈ range M.data.length, (if M.indptr.getD c 0 ≤ p ∧ p < M.indptr.getD (c + 1) 0 ∧
          M.indices.getD p 0 = r then M.data.getD p 0 else 0) else 0) =
        ∑ p ∈ range M.data.length, if gr[r]? = some i ∧ gc[c]? = some j then
          (if (M.indptr.getD c 0 ≤ p ∧ p < M.indptr.getD (c + 1) 0) ∧ M.indices.getD p 0 = r then
            M.data.getD p 0 else 0) else 0 := by
      intro r
      split_ifs
      · apply Finset.sum_congr rfl; intro p _; simp only [and_assoc]
      · simp
    simp only [hsw]
    rw [Finset.sum_comm]
    apply Finset.sum_congr rfl
    intro p hp
    rw [minor_sum (h6 _ (hind p (Finset.mem_range.mp hp)))]
    congr 1
    rw [Nat.zero_add]
    have : (gc.getD c 0 = j) = (gc[c]? = some j) := by
      rw [List.getD_eq_getElem?_getD, List.getElem?_eq_getElem hcl]; simp
    simp only [this]
  | true =>
    rw [hc] at h1 h6
    simp only [if_true] at h1 h6 ⊢
    obtain ⟨x, y, e1, e2, e3, e4, e5, e6⟩ := places_spec gc gr M.indices M.data h6 h5
      (fun a b d => if b = i ∧ a = j then d else 0) M.indptr 0 0 M.indices.length h2 h4 h3 (le_refl _) (by omega)
    refine ⟨y, x, by rw [e1]; rfl, by omega, by omega, e5, e4, ?_⟩
    rw [slice_all _ h5] at e6
    rw [entryAt_sum, zip_swap (fun a b d => if b = i ∧ a = j then d else 0), e6, hz]
    unfold share
    rw [h1]
    apply Finset.sum_congr rfl
    intro r hr'
    have hrl := Finset.mem_range.mp hr'
    unfold Sp.entry
    simp only [hc, if_true]
    have hsw : ∀ c, (if gr[r]? = some i ∧ gc[c]? = some j then
        ∑ p ∈ range M.data.length, (if M.indptr.getD r 0 ≤ p ∧ p < M.indptr.getD (r + 1) 0 ∧
          M.indices.getD p 0 = c then M.data.getD p 0 else 0) else 0) =
        ∑ p ∈ range M.data.length, if gc[c]? = some j ∧ gr[r]? = some i then
          (if (M.indptr.getD r 0 ≤ p ∧ p < M.indptr.getD (r + 1) 0) ∧ M.indices.getD p 0 = c then
            M.data.getD p 0 else 0) else 0 := by
      intro c
      by_cases h' : gr[r]? = some i ∧ gc[c]? = some j
      · rw [if_pos h']
        apply Finset.sum_congr rfl; intro p _; simp only [h'.1, h'.2, and_self, if_true, and_assoc]
      · rw [if_neg h']
        have h'' : ¬ (gc[c]? = some j ∧ gr[r]? = some i) := fun q => h' ⟨q.2, q.1⟩
        simp [h'']
    simp only [hsw]
    rw [Finset.sum_comm]
    apply Finset.sum_congr rfl
    intro p hp
    rw [minor_sum (h6 _ (hind p (Finset.mem_range.mp hp)))]
    congr 1
    rw [Nat.zero_add]
    have : (gr.getD r 0 = i) = (gr[r]? = some i) := by
      rw [List.getD_eq_getElem?_getD, List.getElem?_eq_getElem hrl]; simp
    simp only [this, and_comm]

theorem cutoff_length (t : Option ℚ) (d : List ℚ) : (cutoff t d).length = d.length := by
  cases t <;> simp [cutoff]

/-- The matrix with its data cut off. -/
def cutMat (t : Option ℚ) (M : Sp) : Sp := { M with data := cutoff t M.data }

theorem cutMat_ok {t : Option ℚ} {M : Sp} {m n : ℕ} (h : M.OK m n) : (cutMat t M).OK m n :=
  ⟨h.slots, h.start, h.mono, h.stop, by simp only [cutMat, cutoff_length]; exact h.data, h.range⟩

theorem entryAt_append (a b : List (ℕ × ℕ × ℚ)) (r c : ℕ) :
    Chaining.entryAt (a ++ b) r c = Chaining.entryAt a r c + Chaining.entryAt b r c := by
  simp [entryAt_sum]

theorem collect_spec (t : Option ℚ) {dep wid : ℕ} : ∀ (es : List El), (∀ e ∈ es, e.OK dep wid) →
    ∃ R C D, collect t es = some (R, C, D) ∧ R.length = D.length ∧ C.length = D.length ∧ (∀ n ∈ R, n < dep) ∧
      (∀ n ∈ C, n < wid) ∧ ∀ i j, Chaining.entryAt (R.zip (C.zip D)) i j =
        (es.map fun e => share e.row e.col (cutMat t e.mat).entry i j).sum := by
  intro es
  induction es with
  | nil => intro _; exact ⟨[], [], [], rfl, rfl, rfl, by simp, by simp, by simp [Chaining.entryAt]⟩
  | cons e es ih =>
    intro h
    obtain ⟨R, C, D, e1, e2, e3, e4, e5, e6⟩ := ih fun e' he' => h e' (by simp [he'])
    have he := h e (by simp)
    have hm := cutMat_ok (t := t) he.mat
    obtain ⟨x, y, f1, f2, f3, f4, f5, _⟩ := rowcol_spec hm 0 0
    have f1' : rowcol e.row e.col e.mat = some (x, y) := f1
    have f2' : x.length = (cutoff t e.mat.data).length := f2
    have f3' : y.length = (cutoff t e.mat.data).length := f3
    refine ⟨x ++ R, y ++ C, cutoff t e.mat.data ++ D, by simp only [collect, f1', e1], by simp [f2', e2],
      by simp [f3', e3], ?_, ?_, ?_⟩
    · intro n hn
      rcases List.mem_append.mp hn with hn | hn
      exacts [he.row n (f4 n hn), e4 n hn]
    · intro n hn
      rcases List.mem_append.mp hn with hn | hn
      exacts [he.col n (f5 n hn), e5 n hn]
    · intro i j
      obtain ⟨x', y', g1, _, _, _, _, g6⟩ := rowcol_spec hm i j
      rw [f1] at g1
      cases g1
      rw [List.zip_append (by rw [f3']), List.zip_append (by rw [List.length_zip, f2', f3']; simp), entryAt_append,
        e6 i j, List.map_cons, List.sum_cons]
      congr 1

theorem assemble_aux (t : Option ℚ) {dep wid : ℕ} (es : List El) (h : ∀ e ∈ es, e.OK dep wid) :
    ∃ T, assemble t dep wid es = some T ∧
      ∀ i j, Chaining.entryAt T i j = (es.map fun e => share e.row e.col (cutMat t e.mat).entry i j).sum := by
  obtain ⟨R, C, D, e1, e2, e3, e4, e5, e6⟩ := collect_spec t es h
  refine ⟨R.zip (C.zip D), ?_, e6⟩
  unfold assemble
  rw [e1]
  simp only [Option.bind_some, toSparse]
  rw [if_pos ⟨by omega, by omega, e4, e5⟩]

/-! ### Vectors -/

/-- The last value written at `n`. -/
def lastAt : List ℕ → List ℚ → ℕ → Option ℚ
  | m :: ns, v :: vs, n =>
    match lastAt ns vs n with
    | some w => some w
    | none => if m = n then some v else none
  | _, _, _ => none

theorem writeVec_last : ∀ (ns : List ℕ) (vs : List ℚ) (vec : ℕ → ℚ) (n : ℕ),
    Chaining.writeVec vec ns vs n = (lastAt ns vs n).getD (vec n) := by
  intro ns
  induction ns with
  | nil => intro vs vec n; simp [Chaining.writeVec, lastAt]
  | cons m ns ih =>
    intro vs vec n
    cases vs with
    | nil => simp [Chaining.writeVec, lastAt]
    | cons v vs =>
      simp only [Chaining.writeVec, ih, lastAt]
      cases lastAt ns vs n with
      | some w => simp
      | none =>
        by_cases h : m = n
        · subst h; simp
        · have : ¬ n = m := fun e => h e.symm
          simp [h, this]

theorem lastAt_add (v : ℕ → ℚ) : ∀ (ns : List ℕ) (vs : List ℚ) (n : ℕ),
    lastAt ns (List.zipWith (fun n x => v n + x) ns vs) n = (lastAt ns vs n).map (v n + ·) := by
  intro ns
  induction ns with
  | nil => intro vs n; simp [lastAt]
  | cons m ns ih =>
    intro vs n
    cases vs with
    | nil => simp [lastAt]
    | cons x vs =>
      simp only [List.zipWith_cons_cons, lastAt, ih]
      cases lastAt ns vs n with
      | some w => simp
      | none =>
        by_cases h : m = n
        · subst h; simp
        · simp [h]

/-- What one element adds at `n`. -/
theorem addAt_eq (v : ℕ → ℚ) (ns : List ℕ) (vs : List ℚ) (n : ℕ) :
    addAt v ns vs n = v n + (lastAt ns vs n).getD 0 := by
  unfold addAt
  rw [writeVec_last, lastAt_add]
  cases lastAt ns vs n <;> simp

theorem lastAt_none : ∀ (ns : List ℕ) (vs : List ℚ) (n : ℕ), n ∉ ns → lastAt ns vs n = none := by
  intro ns
  induction ns with
  | nil => intro vs n _; simp [lastAt]
  | cons m ns ih =>
    intro vs n h
    cases vs with
    | nil => simp [lastAt]
    | cons x vs =>
      rw [List.mem_cons, not_or] at h
      simp only [lastAt, ih vs n h.2]
      rw [if_neg (fun e => h.1 e.symm)]

/-- Without repetition the last value is the sum. -/
theorem lastAt_nodup : ∀ (ns : List ℕ) (vs : List ℚ) (n : ℕ), ns.Nodup → vs.length = ns.length →
    (lastAt ns vs n).getD 0 = vshare ns (fun r => vs.getD r 0) n := by
  intro ns
  induction ns with
  | nil => intro vs n _ _; simp [lastAt, vshare]
  | cons m ns ih =>
    intro vs n h hl
    cases vs with
    | nil => simp at hl
    | cons x vs =>
      rw [List.nodup_cons] at h
      have ih' := ih vs n h.2 (by simpa using hl)
      unfold vshare at ih' ⊢
      rw [List.length_cons, Finset.sum_range_succ']
      simp only [List.getElem?_cons_succ, List.getD_cons_succ, List.getElem?_cons_zero, List.getD_cons_zero,
        Option.some.injEq]
      rw [← ih']
      simp only [lastAt]
      by_cases hm : m = n
      · subst hm
        rw [lastAt_none ns vs m h.1]
        simp
      · cases lastAt ns vs n <;> simp [hm]

/-- The amount an element adds. -/
def amount (e : List ℕ × List ℚ) (n : ℕ) : ℚ := (lastAt e.1 e.2 n).getD 0

theorem vloop_spec {num : ℕ} : ∀ (es : List (List ℕ × List ℚ)) (v : ℕ → ℚ),
    (∀ e ∈ es, e.2.length = e.1.length ∧ ∀ n ∈ e.1, n < num) →
    vloop num v es = some fun n => v n + (es.map fun e => amount e n).sum := by
  intro es
  induction es with
  | nil => intro v _; simp [vloop]
  | cons e es ih =>
    intro v h
    obtain ⟨h1, h2⟩ := h e (by simp)
    simp only [vloop]
    rw [if_pos h2]
    have : fit e.1.length e.2 = some e.2 := by simp [fit, h1]
    rw [this, Option.bind_some, ih _ fun e' he' => h e' (by simp [he'])]
    congr 1
    funext n
    rw [addAt_eq, List.map_cons, List.sum_cons]
    unfold amount
    ring

theorem vassemble_aux {num : ℕ} (es : List (List ℕ × List ℚ))
    (h : ∀ e ∈ es, e.2.length = e.1.length ∧ ∀ n ∈ e.1, n < num) :
    vassemble num es = some ((List.range num).map fun n => (es.map fun e => amount e n).sum) := by
  unfold vassemble
  rw [vloop_spec es _ h]
  simp

end Phyem.Assembly
