import Verif.Customize.Lemmas

/-!
Lemmas on customising on all ranks.
-/

namespace Phyem.Customize

open Chaining Assembly

/-- All places of `qs` get `z'`. -/
def Cleared {β : Type} (z' : ℕ → β) (qs : List (ℕ × ℕ)) (M M' : Loc (ℕ → β)) : Prop :=
  ∀ e r, M'.get e r = if (e, r) ∈ qs then z' r else M.get e r

/-- What editing on rank `k` does: the place `q₀` on rank `k₀` gets `z`, all other places get `z'`. -/
def RankEdited {β : Type} (z z' : ℕ → β) (n k₀ : ℕ) (q₀ : ℕ × ℕ) (k : ℕ) (d : Dict ℕ (List ℕ))
    (M M' : Loc (ℕ → β)) : Prop :=
  if k = k₀ then Edited z z' q₀ (rankPlaces d n) M M' else Cleared z' (rankPlaces d n) M M'

theorem representative_spec {g : DGM} {n : ℕ} (h : ∃ d ∈ g, rankPlaces d n ≠ []) :
    ∃ k₀ e₀ d₀, representative g n = some (k₀, e₀) ∧ g[k₀]? = some d₀ ∧ ∃ q ∈ rankPlaces d₀ n, q.1 = e₀ := by
  unfold representative
  cases hl : (g.map fun d => (rankPlaces d n).head?.map Prod.fst).filterMap id with
  | nil =>
    exfalso
    obtain ⟨d, hd, hne⟩ := h
    rw [List.filterMap_eq_nil_iff] at hl
    have := hl _ (List.mem_map_of_mem hd)
    cases hp : rankPlaces d n with
    | nil => exact hne hp
    | cons q qs => rw [hp] at this; simp at this
  | cons e es =>
    have he : e ∈ (g.map fun d => (rankPlaces d n).head?.map Prod.fst).filterMap id := by rw [hl]; simp
    rw [List.mem_filterMap] at he
    obtain ⟨o, ho, hoe⟩ := he
    rw [List.mem_map] at ho
    obtain ⟨d, hd, rfl⟩ := ho
    have hmem : e ∈ (rankPlaces d n).map Prod.fst := by
      cases hp : rankPlaces d n with
      | nil => rw [hp] at hoe; simp at hoe
      | cons q qs => rw [hp] at hoe; simp at hoe; simp [hoe]
    cases hf : g.findIdx? fun d => decide (e ∈ (rankPlaces d n).map Prod.fst) with
    | none =>
      rw [List.findIdx?_eq_none_iff] at hf
      have := hf d hd
      simp only [decide_eq_false_iff_not] at this
      exact absurd hmem this
    | some k =>
      have hf' := hf
      rw [List.findIdx?_eq_some_iff_getElem] at hf
      obtain ⟨hk, h1, _⟩ := hf
      simp only [decide_eq_true_eq] at h1
      obtain ⟨q, hq, hqe⟩ := List.mem_map.mp h1
      refine ⟨k, e, g[k], ?_, List.getElem?_eq_getElem hk, q, hq, hqe⟩
      simp only [hf', Option.map_some]

theorem le_sum {l : List ℕ} {x : ℕ} (h : x ∈ l) : x ≤ l.sum := by
  induction l with
  | nil => simp at h
  | cons a l ih =>
    rw [List.sum_cons]
    rcases List.mem_cons.mp h with rfl | h
    · omega
    · have := ih h; omega

theorem sum_eq_one {l : List ℕ} : l.sum = 1 → ∃ k : ℕ, l[k]? = some 1 ∧ ∀ j : ℕ, j ≠ k → (l[j]?).getD 0 = 0 := by
  induction l with
  | nil => intro h; simp at h
  | cons a l ih =>
    intro h
    rw [List.sum_cons] at h
    rcases Nat.eq_zero_or_pos a with ha | ha
    · subst ha
      obtain ⟨k, h1, h2⟩ := ih (by omega)
      refine ⟨k + 1, by simpa using h1, ?_⟩
      intro j hj
      cases j with
      | zero => rfl
      | succ j => simpa using h2 j (by omega)
    · have h0 : l.sum = 0 := by omega
      refine ⟨0, by simp; omega, ?_⟩
      intro j hj
      cases j with
      | zero => exact absurd rfl hj
      | succ j =>
        rw [List.getElem?_cons_succ]
        cases hx : l[j]? with
        | none => rfl
        | some x =>
          have := le_sum (List.mem_of_getElem? hx)
          simp only [Option.getD_some]
          omega

/-- Which place is the representative one does not depend on the edit or the data. -/
theorem rankEdit_spec {β : Type} {g : DGM} {n : ℕ} (hk : ∀ d ∈ g, (Dict.keys d).Nodup) (hn : n ∈ g.nums) :
    ∃ (k₀ : ℕ) (d₀ : Dict ℕ (List ℕ)), g[k₀]? = some d₀ ∧ ∀ (z z' : ℕ → β) (k : ℕ) (d : Dict ℕ (List ℕ))
      (M : Loc (ℕ → β)), g[k]? = some d → ∃ M', rankEdit (ed z) (ed z') g n k d M = some M' ∧
        ∃ q₀ ∈ rankPlaces d₀ n, RankEdited z z' n k₀ q₀ k d M M' := by
  have hpl : ∃ d ∈ g, rankPlaces d n ≠ [] := by
    unfold DGM.nums at hn
    simp only [List.mem_flatMap] at hn
    obtain ⟨d, hd, p, hp, hv⟩ := hn
    obtain ⟨l, hl⟩ := List.mem_iff_getElem?.mp hv
    exact ⟨d, hd, List.ne_nil_of_mem (mem_rankPlaces.mpr ⟨p.2, hp, hl⟩ : (p.1, l) ∈ _)⟩
  by_cases h1 : (g.map fun d => (rankPlaces d n).length).sum = 1
  · obtain ⟨k₀, e1, e2⟩ := sum_eq_one h1
    rw [List.getElem?_map] at e1
    cases hd₀ : g[k₀]? with
    | none => rw [hd₀] at e1; simp at e1
    | some d₀ =>
      rw [hd₀, Option.map_some, Option.some.injEq] at e1
      obtain ⟨q₀, hq₀⟩ := List.length_eq_one_iff.mp e1
      refine ⟨k₀, d₀, hd₀, ?_⟩
      intro z z' k d M hd
      unfold rankEdit
      rw [if_pos h1]
      by_cases hkk : k = k₀
      · subst hkk
        rw [hd] at hd₀; cases hd₀
        rw [hq₀]
        refine ⟨_, rfl, q₀, by simp, ?_⟩
        unfold RankEdited
        rw [if_pos rfl, hq₀]
        intro e r
        rw [get_set_ed]
        by_cases h : (e, r) = q₀
        · rw [if_pos h, if_pos h]
        · rw [if_neg h, if_neg h, if_neg (by simpa using h)]
      · have := e2 k hkk
        rw [List.getElem?_map, hd] at this
        simp only [Option.map_some, Option.getD_some, List.length_eq_zero_iff] at this
        rw [this]
        refine ⟨_, rfl, q₀, by simp [hq₀], ?_⟩
        unfold RankEdited
        rw [if_neg hkk, this]
        intro e r
        simp
  · obtain ⟨k₀, e₀, d₀, hrep, hd₀, hq⟩ := representative_spec hpl
    obtain ⟨q, hq, hqe⟩ := hq
    refine ⟨k₀, d₀, hd₀, ?_⟩
    intro z z' k d M hd
    unfold rankEdit
    rw [if_neg h1, hrep, Option.map_some]
    by_cases hkk : k = k₀
    · subst hkk
      rw [hd, Option.some.injEq] at hd₀; subst hd₀
      rw [if_pos rfl]
      obtain ⟨q₀, g1, g2⟩ := flagEdit_spec z z' e₀ (rankPlaces d n) M
        (nodup_rankPlaces (hk d (List.mem_of_getElem? hd)) n) ⟨q, hq, hqe⟩
      refine ⟨_, rfl, q₀, g1, ?_⟩
      unfold RankEdited
      rw [if_pos rfl]
      exact g2
    · rw [if_neg hkk]
      refine ⟨_, rfl, q, hq, ?_⟩
      unfold RankEdited
      rw [if_neg hkk]
      exact edit_get z' _ M

theorem ranksEdit_spec {β : Type} (f f' : (ℕ → β) → ℕ → ℕ → β) (g : DGM) (n : ℕ) :
    ∀ (k : ℕ) (ds : List (Dict ℕ (List ℕ))) (Ms : List (Loc (ℕ → β))), ds.length = Ms.length →
      (∀ (i : ℕ) d M, ds[i]? = some d → Ms[i]? = some M → ∃ M', rankEdit f f' g n (k + i) d M = some M') →
      ∃ Ms', ranksEdit f f' g n k ds Ms = some Ms' ∧ Ms'.length = Ms.length ∧
        ∀ (i : ℕ) d M M', ds[i]? = some d → Ms[i]? = some M → Ms'[i]? = some M' →
          rankEdit f f' g n (k + i) d M = some M' := by
  intro k ds
  induction ds generalizing k with
  | nil =>
    intro Ms hl _
    obtain rfl : Ms = [] := by simpa using hl.symm
    exact ⟨[], by simp [ranksEdit], rfl, by simp⟩
  | cons d ds ih =>
    intro Ms hl h
    cases Ms with
    | nil => simp at hl
    | cons M Ms =>
      obtain ⟨M', hM'⟩ := h 0 d M rfl rfl
      obtain ⟨Ms', e1, e2, e3⟩ := ih (k + 1) Ms (by simpa using hl) (by
        intro i d' M₁ hd' hM₁
        have := h (i + 1) d' M₁ (by simpa using hd') (by simpa using hM₁)
        rwa [show k + (i + 1) = k + 1 + i by omega] at this)
      rw [Nat.add_zero] at hM'
      refine ⟨M' :: Ms', by simp only [ranksEdit, hM', e1], by simp [e2], ?_⟩
      intro i d' M₁ M₂ hd' hM₁ hM₂
      cases i with
      | zero => simp only [List.getElem?_cons_zero, Option.some.injEq] at hd' hM₁ hM₂; subst hd' hM₁ hM₂; simpa using hM'
      | succ i =>
        have := e3 i d' M₁ M₂ (by simpa using hd') (by simpa using hM₁) (by simpa using hM₂)
        rwa [show k + (i + 1) = k + 1 + i by omega]

/-- All ranks: there is one place with `z`, and all other ones have `z'`. -/
theorem ranksEdit_places {β : Type} {g : DGM} {n : ℕ} (hk : ∀ d ∈ g, (Dict.keys d).Nodup) (hn : n ∈ g.nums)
    (z z' : ℕ → β) (Ms : List (Loc (ℕ → β))) (hl : Ms.length = g.length) :
    ∃ Ms', ranksEdit (ed z) (ed z') g n 0 g Ms = some Ms' ∧ Ms'.length = g.length ∧
      ∃ (k₀ : ℕ) (d₀ : Dict ℕ (List ℕ)) (q₀ : ℕ × ℕ), g[k₀]? = some d₀ ∧ q₀ ∈ rankPlaces d₀ n ∧
        ∀ (k : ℕ) d M M', g[k]? = some d → Ms[k]? = some M → Ms'[k]? = some M' →
          RankEdited z z' n k₀ q₀ k d M M' := by
  obtain ⟨k₀, d₀, hd₀, h⟩ := rankEdit_spec (β := β) hk hn
  obtain ⟨Ms', e1, e2, e3⟩ := ranksEdit_spec (ed z) (ed z') g n 0 g Ms hl.symm (by
    intro i d M hd _
    obtain ⟨M', h', _⟩ := h z z' i d M hd
    exact ⟨M', by rwa [Nat.zero_add]⟩)
  have hk₀ := (List.getElem?_eq_some_iff.mp hd₀).1
  have hM₀ : Ms[k₀]? = some (Ms[k₀]'(by omega)) := List.getElem?_eq_getElem _
  obtain ⟨M₀', hh, q₀, hq₀, hE₀⟩ := h z z' k₀ d₀ (Ms[k₀]'(by omega)) hd₀
  refine ⟨Ms', e1, by omega, k₀, d₀, q₀, hd₀, hq₀, ?_⟩
  intro k d M M' hd hM hM'
  have hr := e3 k d M M' hd hM hM'
  rw [Nat.zero_add] at hr
  by_cases hkk : k = k₀
  · subst hkk
    rw [hd] at hd₀; cases hd₀
    rw [hM] at hM₀; cases hM₀
    rw [hr] at hh; cases hh
    exact hE₀
  · obtain ⟨M'', h', q', _, hq''⟩ := h z z' k d M hd
    rw [hr] at h'; cases h'
    unfold RankEdited at hq'' ⊢
    rw [if_neg hkk] at hq'' ⊢
    exact hq''

end Phyem.Customize
