import Verif.Config.Model
import Mathlib.Data.List.Basic
import Mathlib.Tactic.Linarith
import Mathlib.Tactic.FieldSimp
import Mathlib.Tactic.Ring

/-!
# Numbers in the order of appearance, and layouts
-/

namespace Phyem.Config

open Phyem

section
variable {K : Type} [DecidableEq K]

lemma intern_nodup {pool : List K} (h : pool.Nodup) (k : K) : (intern pool k).Nodup := by
  unfold intern
  split
  · exact h
  · rename_i hk
    rw [List.nodup_append]
    exact ⟨h, by simp, fun x hx y hy => by rw [List.mem_singleton] at hy; subst hy; rintro rfl; exact hk hx⟩

lemma intern_prefix (pool : List K) (k : K) : pool <+: intern pool k := by
  unfold intern
  split
  · exact List.prefix_refl _
  · exact List.prefix_append _ _

lemma mem_intern {pool : List K} {k x : K} : x ∈ intern pool k ↔ x ∈ pool ∨ x = k := by
  unfold intern
  split
  · rename_i h
    constructor
    · exact Or.inl
    · rintro (h' | rfl)
      · exact h'
      · exact h
  · simp

lemma foldl_intern (row : List K) : ∀ pool : List K, pool.Nodup →
    (row.foldl intern pool).Nodup ∧ pool <+: row.foldl intern pool ∧
      ∀ x, x ∈ row.foldl intern pool ↔ x ∈ pool ∨ x ∈ row := by
  induction row with
  | nil => exact fun pool h => ⟨h, List.prefix_refl _, by simp⟩
  | cons k row ih =>
    intro pool h
    obtain ⟨h1, h2, h3⟩ := ih (intern pool k) (intern_nodup h k)
    refine ⟨h1, (intern_prefix pool k).trans h2, fun x => ?_⟩
    simp only [List.foldl_cons, h3, mem_intern, List.mem_cons]
    tauto

/-- All keys, in the order of their first appearance. -/
def allKeys (rows : List (ℕ × List K)) : List K := (rows.flatMap Prod.snd).foldl intern []

lemma idxOf_prefix {l m : List K} (h : l <+: m) {x : K} (hx : x ∈ l) : m.idxOf x = l.idxOf x := by
  obtain ⟨t, rfl⟩ := h
  exact List.idxOf_append_of_mem hx

lemma numberRows_eq (rows : List (ℕ × List K)) : ∀ pool : List K, pool.Nodup →
    numberRows pool rows =
      rows.map fun p => (p.1, p.2.map fun k => ((rows.flatMap Prod.snd).foldl intern pool).idxOf k) := by
  induction rows with
  | nil => intro pool _; rfl
  | cons p rows ih =>
    intro pool h
    obtain ⟨r, row⟩ := p
    obtain ⟨h1, h2, h3⟩ := foldl_intern row pool h
    obtain ⟨g1, g2, g3⟩ := foldl_intern (rows.flatMap Prod.snd) _ h1
    simp only [numberRows, List.flatMap_cons, List.foldl_append, List.map_cons, ih _ h1]
    congr 2
    apply List.map_congr_left
    intro k hk
    exact (idxOf_prefix g2 ((h3 k).2 (Or.inr hk))).symm

lemma allKeys_spec (rows : List (ℕ × List K)) :
    (allKeys rows).Nodup ∧ ∀ x, x ∈ allKeys rows ↔ ∃ p ∈ rows, x ∈ p.2 := by
  obtain ⟨h1, -, h3⟩ := foldl_intern (rows.flatMap Prod.snd) [] List.nodup_nil
  exact ⟨h1, fun x => by simp [allKeys, h3, List.mem_flatMap]⟩

lemma numberRows_all (rows : List (ℕ × List K)) :
    numberRows [] rows = rows.map fun p => (p.1, p.2.map fun k => (allKeys rows).idxOf k) :=
  numberRows_eq rows [] List.nodup_nil

/-- Numbers in the order of appearance: the rows keep their indices and lengths; two entries have the same number exactly if they are the
same; the numbers that occur are all numbers below some number. -/
def Numbered (rows : List (ℕ × List K)) (out : List (ℕ × List ℕ)) : Prop :=
  out.map (fun p => (p.1, p.2.length)) = rows.map (fun p => (p.1, p.2.length)) ∧
  (∀ (i j k l : ℕ) (p p' : ℕ × List K) (q q' : ℕ × List ℕ) (x x' : K) (n n' : ℕ), rows[i]? = some p → rows[k]? = some p' →
    out[i]? = some q → out[k]? = some q' → p.2[j]? = some x → p'.2[l]? = some x' → q.2[j]? = some n → q'.2[l]? = some n' →
    (n = n' ↔ x = x')) ∧
  (∀ m n : ℕ, m ≤ n → (∃ q ∈ out, n ∈ q.2) → ∃ q ∈ out, m ∈ q.2)

lemma numberRows_numbered (rows : List (ℕ × List K)) : Numbered rows (numberRows [] rows) := by
  obtain ⟨hn, hm⟩ := allKeys_spec rows
  rw [numberRows_all]
  refine ⟨by simp [Function.comp_def], ?_, ?_⟩
  · intro i j k l p p' q q' x x' n n' hp hp' hq hq' hx hx' hnn hnn'
    rw [List.getElem?_map, hp] at hq
    rw [List.getElem?_map, hp'] at hq'
    cases hq
    cases hq'
    simp only [List.getElem?_map, hx, hx', Option.map_some, Option.some.injEq] at hnn hnn'
    subst hnn hnn'
    have m1 : x ∈ allKeys rows := (hm x).2 ⟨p, List.mem_of_getElem? hp, List.mem_of_getElem? hx⟩
    constructor
    · intro h
      exact (List.idxOf_inj m1).1 h
    · rintro rfl; rfl
  · rintro m n hmn ⟨q, hq, hnq⟩
    obtain ⟨p, hp, rfl⟩ := List.mem_map.1 hq
    obtain ⟨k, hk, rfl⟩ := List.mem_map.1 hnq
    have hk' : k ∈ allKeys rows := (hm k).2 ⟨p, hp, hk⟩
    have hlt : m < (allKeys rows).length := lt_of_le_of_lt hmn (List.idxOf_lt_length_iff.2 hk')
    obtain ⟨p', hp', hx'⟩ := (hm _).1 (List.getElem_mem hlt)
    exact ⟨_, List.mem_map.2 ⟨p', hp', rfl⟩, List.mem_map.2 ⟨_, hx', by rw [hn.idxOf_getElem]⟩⟩

end

/-! ### Layouts -/

/-- What a layout of one direction means: `n` equal parts, or parts in the given proportions. -/
def Parts : DirLay → List ℚ → Prop
  | .num q, l => ∃ n : ℕ, q = n ∧ l.length = n ∧ ∀ x ∈ l, x * n = 1
  | .arr a, l => l.length = a.length ∧ ∃ c, c ≠ 0 ∧ a = l.map fun x => c * x

/-- **Layouts.** A number is accepted exactly if it is a positive integer, a sequence exactly if it is not empty and all entries are
positive. The result are positive parts with sum one, in the given proportions. -/
theorem studyDir_spec (d : DirLay) :
    ((studyDir d).isSome ↔ match d with
      | .num q => ∃ n : ℕ, 0 < n ∧ q = n
      | .arr a => a ≠ [] ∧ ∀ x ∈ a, 0 < x) ∧
    ∀ l, studyDir d = some l → l ≠ [] ∧ (∀ x ∈ l, 0 < x) ∧ l.sum = 1 ∧ Parts d l := by
  cases d with
  | num q =>
    have key : (q = (⌊q⌋ : ℚ) ∧ 1 ≤ q) ↔ ∃ n : ℕ, 0 < n ∧ q = n := by
      constructor
      · rintro ⟨h1, h2⟩
        have h3 : (1 : ℤ) ≤ ⌊q⌋ := Int.le_floor.2 (by simpa using h2)
        refine ⟨⌊q⌋.toNat, by omega, ?_⟩
        have : ((⌊q⌋.toNat : ℤ) : ℚ) = (⌊q⌋ : ℚ) := by rw [Int.toNat_of_nonneg (by omega)]
        rw [← Int.cast_natCast, this]
        exact h1
      · rintro ⟨n, hn, rfl⟩
        refine ⟨by simp, by exact_mod_cast hn⟩
    constructor
    · simp only [studyDir]
      rw [← key]
      by_cases h : q = (⌊q⌋ : ℚ) ∧ 1 ≤ q
      · rw [if_pos h]; exact ⟨fun _ => h, fun _ => rfl⟩
      · rw [if_neg h]; exact ⟨fun h => (by cases h), fun h' => absurd h' h⟩
    · intro l hl
      simp only [studyDir] at hl
      split at hl
      · rename_i h
        obtain ⟨n, hn, rfl⟩ := key.1 h
        cases hl
        have e : ⌊(n : ℚ)⌋.toNat = n := by simp
        rw [e]
        have hn' : (n : ℚ) ≠ 0 := by positivity
        refine ⟨by simp; omega, ?_, by simp [hn'], n, rfl, by simp, ?_⟩
        · intro x hx
          rw [List.eq_of_mem_replicate hx]
          positivity
        · intro x hx
          rw [List.eq_of_mem_replicate hx]
          field_simp
      · cases hl
  | arr a =>
    have hpos : ∀ a : List ℚ, (∀ x ∈ a, 0 < x) → a ≠ [] → 0 < a.sum := by
      intro a h hne
      induction a with
      | nil => exact absurd rfl hne
      | cons x a ih =>
        rw [List.sum_cons]
        have hx := h x (List.mem_cons_self ..)
        rcases eq_or_ne a [] with rfl | hne
        · simpa using hx
        · have := ih (fun y hy => h y (List.mem_cons_of_mem _ hy)) hne
          linarith
    constructor
    · simp only [studyDir]
      by_cases h : (∀ x ∈ a, 0 < x) ∧ a ≠ []
      · rw [if_pos h]; exact ⟨fun _ => ⟨h.2, h.1⟩, fun _ => rfl⟩
      · rw [if_neg h]; exact ⟨fun h => (by cases h), fun h' => absurd ⟨h'.2, h'.1⟩ h⟩
    · intro l hl
      simp only [studyDir] at hl
      split at hl
      · rename_i h
        cases hl
        have hs := hpos a h.1 h.2
        refine ⟨by simpa using h.2, ?_, ?_, by simp, a.sum, hs.ne', ?_⟩
        · intro x hx
          obtain ⟨y, hy, rfl⟩ := List.mem_map.1 hx
          exact div_pos (h.1 y hy) hs
        · have : ∀ (b : List ℚ) (c : ℚ), (b.map fun x => x / c).sum = b.sum / c := by
            intro b c
            induction b with
            | nil => simp
            | cons x b ih => simp [ih, add_div]
          rw [this, div_self hs.ne']
        · rw [List.map_map]
          conv_lhs => rw [← List.map_id a]
          apply List.map_congr_left
          intro x _
          simp only [id, Function.comp]
          field_simp
      · cases hl

example : studyDir (.num 3) = some [1 / 3, 1 / 3, 1 / 3] ∧ studyDir (.arr [1, 2, 1]) = some [1 / 4, 1 / 2, 1 / 4] ∧
    studyDir (.num (5 / 2)) = none ∧ studyDir (.arr [1, 0]) = none := by decide +kernel

end Phyem.Config
