import Verif.Nonlinear.Spec
import Mathlib.Algebra.BigOperators.Group.Finset.Sigma
import Mathlib.Algebra.BigOperators.Intervals
import Mathlib.Algebra.BigOperators.Ring.Finset
import Mathlib.Algebra.BigOperators.Ring.List
import Mathlib.Data.List.GetD
import Mathlib.Data.List.Sort
import Mathlib.Tactic.Ring

open scoped BigOperators

namespace Phyem.Nonlinear

variable {K : Type} [CommRing K]

theorem sum_range_list (f : ℕ → K) (n : ℕ) : ((List.range n).map f).sum = ∑ i ∈ Finset.range n, f i := by
  induction n with
  | zero => simp
  | succ n ih => simp [List.range_succ, Finset.sum_range_succ, ih]

/-! ### Indices -/

theorem mem_indices {s idx : List ℕ} (h : idx ∈ indices s) : idx.length = s.length ∧ ∀ l < s.length, idx.getD l 0 < s.getD l 0 := by
  induction s generalizing idx with
  | nil => simp only [indices, List.mem_singleton] at h; subst h; simp
  | cons n s ih =>
    simp only [indices, List.mem_flatMap, List.mem_range, List.mem_map] at h
    obtain ⟨i, hi, idx', h', rfl⟩ := h
    obtain ⟨h1, h2⟩ := ih h'
    refine ⟨by simp [h1], ?_⟩
    intro l hl
    cases l with
    | zero => simpa using hi
    | succ l => simpa using h2 l (by simpa using hl)

/-! ### Folds that keep the last match -/

theorem foldl_none {α β κ : Type} [DecidableEq κ] (key : α → κ) (val : α → β) (k : κ) (l : List α) (c : β)
    (h : ∀ p ∈ l, k ≠ key p) : l.foldl (fun c p => if k = key p then val p else c) c = c := by
  induction l generalizing c with
  | nil => rfl
  | cons p l ih =>
    simp only [List.foldl_cons]
    rw [if_neg (h p (by simp))]
    exact ih c fun q hq => h q (by simp [hq])

theorem foldl_some {α β κ : Type} [DecidableEq κ] (key : α → κ) (val : α → β) (k : κ) (l : List α) (c : β)
    (hn : (l.map key).Nodup) (p : α) (hp : p ∈ l) (hk : k = key p) :
    l.foldl (fun c p => if k = key p then val p else c) c = val p := by
  induction l generalizing c with
  | nil => simp at hp
  | cons q l ih =>
    simp only [List.map_cons, List.nodup_cons] at hn
    simp only [List.foldl_cons]
    rcases List.mem_cons.mp hp with rfl | hp
    · rw [if_pos hk]
      apply foldl_none
      intro q hq he
      exact hn.1 (by rw [← hk, he]; exact List.mem_map_of_mem hq)
    · exact ih _ hn.2 hp

theorem find_some {α κ : Type} [DecidableEq κ] (key : α → κ) (k : κ) (l : List α) (hn : (l.map key).Nodup) (p : α) (hp : p ∈ l)
    (hk : key p = k) : l.find? (fun p => key p == k) = some p := by
  induction l with
  | nil => simp at hp
  | cons q l ih =>
    simp only [List.map_cons, List.nodup_cons] at hn
    rcases List.mem_cons.mp hp with rfl | hp
    · simp [hk]
    · rw [List.find?_cons_of_neg]
      · exact ih hn.2 hp
      · simp only [beq_iff_eq]
        intro h
        exact hn.1 (by rw [h, ← hk]; exact List.mem_map_of_mem hp)

/-! ### Positions -/

/-- The places where nothing is provided. -/
def open_ {α : Type} (prov : List (Option α)) : List ℕ :=
  (List.range prov.length).filter fun l => (prov.getD l none).isNone

theorem zipIdx_filter {α : Type} (P : α → Bool) (d : α) (l : List α) :
    (l.zipIdx.filter fun x => P x.1).map Prod.snd = (List.range l.length).filter fun i => P (l.getD i d) := by
  have : ∀ (l : List α) (k : ℕ), ((l.zipIdx k).filter fun x => P x.1).map Prod.snd
      = ((List.range l.length).filter fun i => P (l.getD i d)).map (· + k) := by
    intro l
    induction l with
    | nil => intro k; simp
    | cons a l ih =>
      intro k
      simp only [List.zipIdx_cons, List.filter_cons, List.length_cons, List.range_succ_eq_map, List.getD_cons_zero]
      have h2 : (List.filter (fun i => P ((a :: l).getD i d)) (List.map Nat.succ (List.range l.length)))
          = ((List.range l.length).filter fun i => P (l.getD i d)).map Nat.succ := by
        rw [List.filter_map]; rfl
      rw [h2]
      by_cases h : P a
      · simp only [h, if_true, List.map_cons, ih, Nat.zero_add, List.map_map]
        congr 1
        apply List.map_congr_left
        intro x _
        simp only [Function.comp_apply]; omega
      · simp only [h, ih, List.map_map, Bool.false_eq_true, if_false]
        apply List.map_congr_left
        intro x _
        simp only [Function.comp_apply]; omega
  have := this l 0
  simpa using this

theorem prod_given {α : Type} (f : ℕ → α → K) (prov : List (Option α)) :
    (((((prov.zipIdx.filter fun x => x.1.isSome).map Prod.snd).zip (prov.filterMap id))).map fun x => f x.1 x.2).prod
      = ∏ l ∈ Finset.range prov.length, (prov.getD l none).elim 1 (f l) := by
  have : ∀ (prov : List (Option α)) (k : ℕ),
      ((((((prov.zipIdx k).filter fun x => x.1.isSome).map Prod.snd).zip (prov.filterMap id))).map fun x => f x.1 x.2).prod
      = ∏ l ∈ Finset.range prov.length, (prov.getD l none).elim 1 (f (l + k)) := by
    intro prov
    induction prov with
    | nil => intro k; simp
    | cons a l ih =>
      intro k
      rw [List.length_cons, Finset.prod_range_succ']
      have h2 := ih (k + 1)
      simp only [List.getD_cons_succ, List.getD_cons_zero, Nat.zero_add]
      have h3 : ∀ i, i + 1 + k = i + (k + 1) := fun i => by omega
      simp only [h3]
      rw [← h2]
      cases a with
      | none => simp [List.zipIdx_cons, List.filter_cons]
      | some v => simp [List.zipIdx_cons, List.filter_cons, mul_comm]
  simpa using this prov 0

theorem mem_zip_given {α : Type} (prov : List (Option α)) (x : ℕ × α)
    (h : x ∈ ((prov.zipIdx.filter fun x => x.1.isSome).map Prod.snd).zip (prov.filterMap id)) : prov[x.1]? = some (some x.2) := by
  have : ∀ (prov : List (Option α)) (k : ℕ) (x : ℕ × α),
      x ∈ (((prov.zipIdx k).filter fun x => x.1.isSome).map Prod.snd).zip (prov.filterMap id) →
      k ≤ x.1 ∧ prov[x.1 - k]? = some (some x.2) := by
    intro prov
    induction prov with
    | nil => intro k x h; simp at h
    | cons a l ih =>
      intro k x h
      have rest : x ∈ ((((l.zipIdx (k+1)).filter fun x => x.1.isSome).map Prod.snd).zip (l.filterMap id)) →
          k ≤ x.1 ∧ (a :: l)[x.1 - k]? = some (some x.2) := by
        intro h
        obtain ⟨h1, h2⟩ := ih (k+1) x h
        refine ⟨by omega, ?_⟩
        rw [show x.1 - k = (x.1 - (k+1)) + 1 by omega, List.getElem?_cons_succ]
        exact h2
      cases a with
      | none =>
        simp only [List.zipIdx_cons, List.filter_cons, Option.isSome_none, Bool.false_eq_true, if_false, List.filterMap_cons, id] at h
        exact rest h
      | some v =>
        simp only [List.zipIdx_cons, List.filter_cons, Option.isSome_some, if_true, List.filterMap_cons, id, List.map_cons,
          List.zip_cons_cons, List.mem_cons] at h
        rcases h with rfl | h
        · simp
        · exact rest h
  have := (this prov 0 x h).2
  simpa using this

/-- What a call gives: a sum over the indices, with a vector in the places where one is given. -/
theorem call_some (op : Op K) (e : ℕ) (prov : List (Option (Arr1 K))) (hlen : (op.entries e).shape.length = prov.length)
    (hfew : prov.length < 14) (hdim : ∀ (l : ℕ) (v : Arr1 K), prov[l]? = some (some v) → (op.entries e).shape[l]? = some v.1) :
    ∃ a, op.call e prov = some a ∧ a.shape = (open_ prov).map (fun l => (op.entries e).shape.getD l 0) ∧
      ((∃ v, some v ∈ prov) → ∀ r, a.val r =
        (((indices (op.entries e).shape).filter fun idx => (open_ prov).map (fun l => idx.getD l 0) = r).map fun idx =>
          (op.entries e).val idx * ∏ l ∈ Finset.range prov.length, (prov.getD l none).elim 1 fun v => v.2 (idx.getD l 0)).sum) := by
  induction op with
  | array data =>
    simp only [Op.entries] at hlen hdim ⊢
    by_cases hall : prov.all Option.isNone
    · refine ⟨data e, by simp [Op.call, hall], ?_, ?_⟩
      · have : open_ prov = List.range prov.length := by
          apply List.filter_eq_self.mpr
          intro l hl
          rw [List.mem_range] at hl
          rw [List.all_eq_true] at hall
          have := hall prov[l] (List.getElem_mem hl)
          rw [List.getD_eq_getElem _ _ hl]
          exact this
        rw [this, ← hlen]
        apply List.ext_getElem
        · simp
        · intro i h1 h2
          rw [List.getElem_map, List.getElem_range, List.getD_eq_getElem _ _ h1]
      · rintro ⟨v, hv⟩
        rw [List.all_eq_true] at hall
        exact absurd (hall _ hv) (by simp)
    · have hop : makeOperands prov = some ⟨List.range prov.length,
          (prov.zipIdx.filter fun x => x.1.isSome).map Prod.snd,
          (prov.zipIdx.filter fun x => x.1.isNone).map Prod.snd⟩ := by
        unfold makeOperands; rw [if_neg (by omega)]
      have ho : (prov.zipIdx.filter fun x => x.1.isNone).map Prod.snd = open_ prov := zipIdx_filter _ none prov
      refine ⟨⟨(open_ prov).map fun l => (data e).shape.getD l 0, fun r =>
        (((indices (data e).shape).filter fun idx => (open_ prov).map (fun l => idx.getD l 0) = r).map fun idx =>
          (data e).val idx * ∏ l ∈ Finset.range prov.length, (prov.getD l none).elim 1 fun v => v.2 (idx.getD l 0)).sum⟩,
        ?_, rfl, fun _ r => rfl⟩
      simp only [Op.call, hall, Bool.false_eq_true, if_false, hop, Option.bind_some, einsum, List.length_range]
      rw [if_pos]
      · rw [ho]
        congr 1
        congr 1
        funext r
        congr 1
        apply List.map_congr_left
        intro idx _
        rw [← prod_given (fun l (v : Arr1 K) => v.2 (idx.getD l 0)) prov]
      · refine ⟨hlen, ?_⟩
        rw [List.all_eq_true]
        intro x hx
        simpa using hdim x.1 x.2 (mem_zip_given prov x hx)
  | scaled c op ih =>
    simp only [Op.entries] at hlen hdim ⊢
    obtain ⟨a, h1, h2, h3⟩ := ih hlen hdim
    refine ⟨⟨a.shape, fun r => c * a.val r⟩, by simp [Op.call, h1], h2, ?_⟩
    intro hv r
    simp only [h3 hv r]
    rw [← List.sum_map_mul_left]
    simp only [mul_assoc]

end Phyem.Nonlinear
