import Verif.Great.Model
import Mathlib.Data.List.Induction

/-!
What collecting values by key leaves in the pool.
-/

namespace Phyem.Great

open Phyem.Dict

variable {K V : Type} [DecidableEq K]

theorem collectAll_snoc (l : List (K × V)) (x : K × V) :
    collectAll (l ++ [x]) = collect (collectAll l) x.1 x.2 := by
  simp [collectAll, List.foldl_append]

theorem get_collect (d : Dict K (List V)) (k k' : K) (v : V) :
    get (collect d k v) k' = if k = k' then some ((get d k).getD [] ++ [v]) else get d k' := by
  unfold collect
  cases h : get d k <;> simp [get_put, eq_comm]

/-- The values with a key, in the order in which they came. -/
theorem get_collectAll (l : List (K × V)) (k : K) :
    get (collectAll l) k =
      if ((l.filter fun x => x.1 = k).map Prod.snd) = [] then none
      else some ((l.filter fun x => x.1 = k).map Prod.snd) := by
  induction l using List.reverseRecOn with
  | nil => rfl
  | append_singleton l x ih =>
    rw [collectAll_snoc, get_collect]
    by_cases h : x.1 = k
    · subst h
      have e : ((l ++ [x]).filter fun y => y.1 = x.1).map Prod.snd =
          (l.filter fun y => y.1 = x.1).map Prod.snd ++ [x.2] := by simp [List.filter_append]
      rw [e, if_pos rfl, ih]
      generalize (l.filter fun y => y.1 = x.1).map Prod.snd = w
      cases w <;> simp
    · have e : ((l ++ [x]).filter fun y => y.1 = k) = l.filter fun y => y.1 = k := by
        simp [List.filter_append, h]
      rw [e, if_neg h, ih]

theorem nodup_collectAll (l : List (K × V)) : (keys (collectAll l)).Nodup := by
  induction l using List.reverseRecOn with
  | nil => exact List.nodup_nil
  | append_singleton l x ih =>
    rw [collectAll_snoc]
    unfold collect
    split <;> exact nodup_put _ _ _ ih

theorem mem_collectAll (l : List (K × V)) (k : K) (vs : List V) :
    (k, vs) ∈ collectAll l ↔ vs ≠ [] ∧ vs = (l.filter fun x => x.1 = k).map Prod.snd := by
  constructor
  · intro h
    have := get_of_mem _ (nodup_collectAll l) _ _ h
    rw [get_collectAll] at this
    split_ifs at this with h0
    simp only [Option.some.injEq] at this
    exact ⟨this ▸ h0, this.symm⟩
  · rintro ⟨h0, h⟩
    apply get_mem
    rw [get_collectAll, if_neg (h ▸ h0), h]

/-- Counting. -/
theorem get_count (l : List K) (k : K) :
    get (l.foldl (fun d k => put d k ((get d k).getD 0 + 1)) ([] : Dict K ℕ)) k =
      if k ∈ l then some (l.filter fun x => x = k).length else none := by
  induction l using List.reverseRecOn with
  | nil => rfl
  | append_singleton l x ih =>
    rw [List.foldl_append, List.foldl_cons, List.foldl_nil, get_put]
    by_cases h : x = k
    · subst h
      rw [if_pos rfl, ih]
      by_cases hx : x ∈ l
      · simp [hx, List.filter_append]
      · have : l.filter (fun y => y = x) = [] := by
          rw [List.filter_eq_nil_iff]
          intro y hy
          simp only [decide_eq_true_eq]
          rintro rfl
          exact hx hy
        simp [hx, List.filter_append, this]
    · rw [if_neg (Ne.symm h), ih]
      have h' : ¬ k = x := fun e => h e.symm
      have : (l ++ [x]).filter (fun y => y = k) = l.filter (fun y => y = k) := by
        simp [List.filter_append, h]
      rw [this]
      simp [h']

theorem nodup_count (l : List K) :
    (keys (l.foldl (fun d k => put d k ((get d k).getD 0 + 1)) ([] : Dict K ℕ))).Nodup := by
  induction l using List.reverseRecOn with
  | nil => exact List.nodup_nil
  | append_singleton l x ih =>
    rw [List.foldl_append, List.foldl_cons, List.foldl_nil]
    exact nodup_put _ _ _ ih

theorem mem_count (l : List K) (k : K) (n : ℕ) :
    (k, n) ∈ l.foldl (fun d k => put d k ((get d k).getD 0 + 1)) ([] : Dict K ℕ) ↔
      k ∈ l ∧ n = (l.filter fun x => x = k).length := by
  constructor
  · intro h
    have := get_of_mem _ (nodup_count l) _ _ h
    rw [get_count] at this
    split_ifs at this with h0
    exact ⟨h0, (Option.some.inj this).symm⟩
  · rintro ⟨h0, h⟩
    apply get_mem
    rw [get_count, if_pos h0, h]

/-- Two lists of nodes have the same sorted list when one is a permutation of the other. -/
theorem sorted_eq_iff (l l' : List ℕ) : sorted l = sorted l' ↔ l.Perm l' := by
  unfold sorted
  constructor
  · intro h
    exact (List.perm_insertionSort _ l).symm.trans (h ▸ List.perm_insertionSort _ l')
  · intro h
    exact List.Perm.eq_of_pairwise (le := (· ≤ ·)) (fun a b _ _ h1 h2 => Nat.le_antisymm h1 h2)
      (List.pairwise_insertionSort _ l) (List.pairwise_insertionSort _ l')
      (((List.perm_insertionSort _ l).trans h).trans (List.perm_insertionSort _ l').symm)

end Phyem.Great
