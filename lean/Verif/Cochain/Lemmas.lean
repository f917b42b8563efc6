import Verif.Cochain.Model
import Mathlib.Tactic.FieldSimp
import Mathlib.Tactic.Linarith
import Mathlib.Tactic.Ring

/-
Helper lemmas for the cochain stores.
-/

namespace Phyem.Cochain

open Phyem

theorem roundEven_int (n : ℤ) : roundEven n = n := by
  simp [roundEven]

theorem parseT_parseT (t : ℚ) : parseT (parseT t) = parseT t := by
  unfold parseT
  rw [div_mul_cancel₀ _ (by norm_num), roundEven_int]

/-! sorted keys -/

variable {V : Type}

theorem sortedKeys_perm (d : Dict ℚ V) : (sortedKeys d).Perm d.keys :=
  List.perm_insertionSort _ _

theorem mem_sortedKeys (d : Dict ℚ V) (t : ℚ) : t ∈ sortedKeys d ↔ t ∈ d.keys :=
  (sortedKeys_perm d).mem_iff

theorem sortedKeys_length (d : Dict ℚ V) : (sortedKeys d).length = d.length := by
  rw [(sortedKeys_perm d).length_eq, Dict.keys_length]

theorem sortedKeys_lt (d : Dict ℚ V) (h : d.keys.Nodup) : (sortedKeys d).Pairwise (· < ·) := by
  have h1 : (sortedKeys d).Pairwise (· ≤ ·) := List.pairwise_insertionSort _ _
  have h2 : (sortedKeys d).Nodup := (sortedKeys_perm d).nodup_iff.2 h
  exact (h1.and h2).imp fun h => lt_of_le_of_ne h.1 h.2

/-- `d'` consists of the `n` largest times of `d` (all of them if there are not more), with the same
cochains. -/
structure Keeps (n : ℕ) (d d' : Dict ℚ V) : Prop where
  nodup : d'.keys.Nodup
  size : d'.length = min n d.length
  same : ∀ t ∈ d'.keys, t ∈ d.keys ∧ d'.get t = d.get t
  largest : ∀ t ∈ d.keys, t ∉ d'.keys → ∀ u ∈ d'.keys, t < u

theorem keepLargest_keeps (d : Dict ℚ V) (h : d.keys.Nodup) (n : ℕ) :
    Keeps n d (keepLargest d n) := by
  unfold keepLargest
  split_ifs with hn
  · exact ⟨h, by omega, fun t ht => ⟨ht, rfl⟩, fun t h1 h2 => absurd h1 h2⟩
  · have hs := sortedKeys_lt d h
    have hsub : (lastN n (sortedKeys d)).Sublist (sortedKeys d) := List.drop_sublist _ _
    have hmem : ∀ k ∈ lastN n (sortedKeys d), k ∈ d.keys := fun k hk =>
      (mem_sortedKeys d k).1 (hsub.subset hk)
    have hk := Dict.keys_restrict d _ hmem
    refine ⟨?_, ?_, ?_, ?_⟩
    · rw [hk]; exact (hs.imp fun h => ne_of_lt h).sublist hsub
    · rw [← Dict.keys_length, hk]
      simp only [lastN, List.length_drop, sortedKeys_length]
      omega
    · intro t ht
      rw [hk] at ht
      exact ⟨hmem t ht, by rw [Dict.get_restrict, if_pos ht]⟩
    · intro t ht hnot u hu
      rw [hk] at hnot hu
      rw [← mem_sortedKeys, ← List.take_append_drop ((sortedKeys d).length - n) (sortedKeys d),
        List.mem_append] at ht
      have hs' := hs
      rw [← List.take_append_drop ((sortedKeys d).length - n) (sortedKeys d),
        List.pairwise_append] at hs'
      rcases ht with ht | ht
      · exact hs'.2.2 t ht u hu
      · exact absurd ht hnot

theorem maxKey_spec (d : Dict ℚ V) :
    (d = [] → maxKey d = none) ∧
    (∀ m, maxKey d = some m ↔ m ∈ d.keys ∧ ∀ t ∈ d.keys, t ≤ m) := by
  have hs : (sortedKeys d).Pairwise (· ≤ ·) := List.pairwise_insertionSort _ _
  refine ⟨by rintro rfl; rfl, ?_⟩
  intro m
  unfold maxKey
  constructor
  · intro h
    have hne : sortedKeys d ≠ [] := by intro e; rw [e] at h; simp at h
    rw [List.getLast?_eq_some_getLast hne] at h
    have hm : (sortedKeys d).getLast hne = m := by simpa using h
    refine ⟨(mem_sortedKeys d m).1 (hm ▸ List.getLast_mem hne), ?_⟩
    intro t ht
    rw [← mem_sortedKeys] at ht
    rw [← List.dropLast_append_getLast hne, List.mem_append] at ht
    rw [← List.dropLast_append_getLast hne, List.pairwise_append] at hs
    rcases ht with ht | ht
    · rw [← hm]; exact hs.2.2 t ht _ (by simp)
    · simp at ht; rw [ht, hm]
  · rintro ⟨h1, h2⟩
    have hne : sortedKeys d ≠ [] := by
      intro e; rw [← mem_sortedKeys, e] at h1; simp at h1
    rw [List.getLast?_eq_some_getLast hne]
    have hmem := (mem_sortedKeys d _).1 (List.getLast_mem hne)
    have hle := h2 _ hmem
    rw [← mem_sortedKeys] at h1
    rw [← List.dropLast_append_getLast hne, List.mem_append] at h1
    rw [← List.dropLast_append_getLast hne, List.pairwise_append] at hs
    rcases h1 with h1 | h1
    · have := hs.2.2 m h1 ((sortedKeys d).getLast hne) (by simp)
      rw [le_antisymm hle this]
    · simp at h1; rw [h1]

end Phyem.Cochain
