import Mathlib.Data.List.Basic
import Mathlib.Data.List.Nodup

/-!
Python dictionaries as association lists in insertion order.
-/

namespace Phyem

/-- A Python `dict` (keys in insertion order). -/
abbrev Dict (K V : Type) := List (K × V)

namespace Dict

variable {K V : Type} [DecidableEq K]

/-- `d.get(k)`. -/
def get : Dict K V → K → Option V
  | [], _ => none
  | (k', v) :: d, k => if k' = k then some v else get d k

/-- `d[k] = v`: an existing key keeps its position. -/
def put : Dict K V → K → V → Dict K V
  | [], k, v => [(k, v)]
  | (k', v') :: d, k, v => if k' = k then (k', v) :: d else (k', v') :: put d k v

/-- `del d[k]` (no effect when absent). -/
def del (d : Dict K V) (k : K) : Dict K V := d.filter fun p => decide (p.1 ≠ k)

/-- `list(d.keys())`. -/
def keys (d : Dict K V) : List K := d.map Prod.fst

theorem get_put (d : Dict K V) (k k' : K) (v : V) :
    get (put d k v) k' = if k' = k then some v else get d k' := by
  induction d with
  | nil => by_cases h : k = k' <;> simp [put, get, h, eq_comm]
  | cons p d ih =>
    obtain ⟨a, w⟩ := p
    simp only [put]
    by_cases h : a = k
    · subst h
      by_cases h' : k' = a
      · subst h'; simp [get]
      · have : ¬ a = k' := fun e => h' e.symm
        simp [get, h', this]
    · rw [if_neg h]
      by_cases h' : a = k'
      · subst h'; simp [get, h]
      · simp only [get, if_neg h', ih]

theorem get_del (d : Dict K V) (k k' : K) :
    get (del d k) k' = if k' = k then none else get d k' := by
  induction d with
  | nil => by_cases h : k' = k <;> simp [del, get, h]
  | cons p d ih =>
    obtain ⟨a, w⟩ := p
    unfold del at ih ⊢
    by_cases h : a = k
    · subst h
      simp only [List.filter_cons, ne_eq, not_true_eq_false, decide_false, Bool.false_eq_true,
        if_false]
      rw [ih]
      by_cases h' : k' = a
      · simp [h']
      · have : ¬ a = k' := fun e => h' e.symm
        simp [get, h', this]
    · simp only [List.filter_cons, ne_eq, h, not_false_eq_true, decide_true, if_true, get]
      by_cases h' : a = k'
      · subst h'; simp [h]
      · simp only [if_neg h']; exact ih

theorem get_isSome (d : Dict K V) (k : K) : (get d k).isSome ↔ k ∈ keys d := by
  induction d with
  | nil => simp [get, keys]
  | cons p d ih =>
    obtain ⟨a, w⟩ := p
    unfold keys at ih ⊢
    simp only [get, List.map_cons, List.mem_cons]
    by_cases h : a = k
    · subst h; simp
    · rw [if_neg h, ih]
      constructor
      · exact Or.inr
      · rintro (h' | h')
        · exact absurd h'.symm h
        · exact h'

theorem get_eq_none (d : Dict K V) (k : K) : get d k = none ↔ k ∉ keys d := by
  rw [← get_isSome]; cases get d k <;> simp

theorem get_mem (d : Dict K V) (k : K) (v : V) (h : get d k = some v) : (k, v) ∈ d := by
  induction d with
  | nil => simp [get] at h
  | cons p d ih =>
    obtain ⟨a, w⟩ := p
    simp only [get] at h
    split_ifs at h with h1
    · cases h; subst h1; simp
    · exact List.mem_cons_of_mem _ (ih h)

theorem get_of_mem (d : Dict K V) (hn : (keys d).Nodup) (k : K) (v : V) (h : (k, v) ∈ d) :
    get d k = some v := by
  induction d with
  | nil => simp at h
  | cons p d ih =>
    obtain ⟨a, w⟩ := p
    simp only [keys, List.map_cons, List.nodup_cons] at hn
    simp only [get]
    rcases List.mem_cons.1 h with e | h
    · cases e; simp
    · have : a ≠ k := by
        rintro rfl
        exact hn.1 (List.mem_map.2 ⟨(a, v), h, rfl⟩)
      rw [if_neg this]
      exact ih hn.2 h

theorem keys_put (d : Dict K V) (k : K) (v : V) :
    keys (put d k v) = if k ∈ keys d then keys d else keys d ++ [k] := by
  induction d with
  | nil => simp [put, keys]
  | cons p d ih =>
    obtain ⟨a, w⟩ := p
    unfold keys at ih ⊢
    simp only [put]
    by_cases h : a = k
    · subst h; simp
    · have h' : ¬ k = a := fun e => h e.symm
      rw [if_neg h]
      simp only [List.map_cons, ih, List.mem_cons, h', false_or]
      split_ifs <;> rfl

theorem mem_keys_put (d : Dict K V) (k k' : K) (v : V) :
    k' ∈ keys (put d k v) ↔ k' = k ∨ k' ∈ keys d := by
  rw [keys_put]
  split_ifs with h
  · constructor
    · exact Or.inr
    · rintro (rfl | h') <;> assumption
  · simp [or_comm]

theorem nodup_put (d : Dict K V) (k : K) (v : V) (h : (keys d).Nodup) :
    (keys (put d k v)).Nodup := by
  rw [keys_put]
  split_ifs with h'
  · exact h
  · rw [List.nodup_append]
    exact ⟨h, by simp, by rintro a ha b hb rfl; simp at hb; exact h' (hb ▸ ha)⟩

theorem mem_keys_del (d : Dict K V) (k k' : K) : k' ∈ keys (del d k) ↔ k' ≠ k ∧ k' ∈ keys d := by
  rw [← get_isSome, get_del, ← get_isSome]
  split_ifs with h <;> simp [h]

theorem nodup_del (d : Dict K V) (k : K) (h : (keys d).Nodup) : (keys (del d k)).Nodup :=
  h.sublist (List.filter_sublist.map _)

theorem length_put_le (d : Dict K V) (k : K) (v : V) : (put d k v).length ≤ d.length + 1 := by
  induction d with
  | nil => simp [put]
  | cons p d ih =>
    simp only [put]
    split_ifs <;> simp_all

theorem keys_length (d : Dict K V) : (keys d).length = d.length := by simp [keys]

/-- The comprehension `{k: d[k] for k in ks}`. -/
def restrict (d : Dict K V) : List K → Dict K V
  | [] => []
  | k :: ks =>
    match get d k with
    | some v => (k, v) :: restrict d ks
    | none => restrict d ks

theorem keys_restrict (d : Dict K V) (ks : List K) (h : ∀ k ∈ ks, k ∈ keys d) :
    keys (restrict d ks) = ks := by
  induction ks with
  | nil => rfl
  | cons k ks ih =>
    have := (get_isSome d k).2 (h k (by simp))
    obtain ⟨v, hv⟩ := Option.isSome_iff_exists.1 this
    simp only [restrict, hv]
    have ih := ih (fun k hk => h k (by simp [hk]))
    unfold keys at ih ⊢
    simp [ih]

theorem get_restrict (d : Dict K V) (ks : List K) (k : K) :
    get (restrict d ks) k = if k ∈ ks then get d k else none := by
  induction ks with
  | nil => simp [restrict, get]
  | cons a ks ih =>
    simp only [restrict]
    cases hg : get d a with
    | none =>
      simp only [ih, List.mem_cons]
      by_cases h : k = a
      · subst h; simp [hg]
      · simp [h]
    | some v =>
      simp only [get]
      by_cases h : a = k
      · subst h; simp [hg]
      · have h' : ¬ k = a := fun e => h e.symm
        rw [if_neg h, ih]
        simp [h']

end Dict

end Phyem
