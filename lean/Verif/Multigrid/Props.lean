import Verif.Multigrid.Lemmas

/-!
Properties C52 and C53 of `tools/miscellaneous/multigrid_scheme.py`.
-/

namespace Phyem.Multigrid

/-- The schemes the constructor accepts (`MultiGridSchemeConfig.__init__`,
tools/miscellaneous/multigrid_scheme.py:25-47). -/
inductive Accepted : Nat → List Step → Prop
  | V (n : Nat) : Accepted n (vCycle n)
  | N (n : Nat) : Accepted n (nCycle n)
  | W (n : Nat) (seq : List Nat) (l : List Step) : wCycle n seq = some l → Accepted n l
  | FMG (n : Nat) (seq : List Nat) (l : List Step) : fmgCycle n seq = some l → Accepted n l

/-- **C53 (connectedness).** Every accepted scheme on `n ≥ 1` layers is a connected sequence of
steps, starting at the top (V, W) or bottom (N, FMG) layer and ending at the top layer. -/
theorem accepted_path {n : Nat} {l : List Step} (hn : 1 ≤ n) (h : Accepted n l) :
    ∃ a : Int, (a = 0 ∨ a = n - 1) ∧ Path a l (n - 1) := by
  obtain ⟨m, rfl⟩ : ∃ m, n = m + 1 := ⟨n - 1, by omega⟩
  have e : (((m + 1 : Nat) : Int) - 1) = m := by push_cast; ring
  cases h with
  | V => exact ⟨m, Or.inr e.symm, by rw [e]; exact (path_down m).append (path_up m)⟩
  | N =>
    exact ⟨0, Or.inl rfl, by
      rw [e]; exact ((path_up m).append (path_down m)).append (path_up m)⟩
  | W seq l h =>
    obtain ⟨rfl, x, hx, hx2⟩ := accept_some h
    refine ⟨_, Or.inr rfl, ?_⟩
    have hp := walk_path (((m + 1 : Nat) : Int) - 1) seq .R ([], ((m + 1 : Nat) : Int) - 1) rfl
    have := hp.last _ hx
    simp only [Step.dst] at this
    rw [← this] at hp
    have e2 : x + 1 = ((m + 1 : Nat) : Int) - 1 := by rw [hx2]; push_cast; ring
    rw [e2] at hp
    exact hp
  | FMG seq l h =>
    obtain ⟨rfl, x, hx, hx2⟩ := accept_some h
    refine ⟨_, Or.inl rfl, ?_⟩
    have hp := walk_path 0 seq .I ([], 0) rfl
    have := hp.last _ hx
    simp only [Step.dst] at this
    rw [← this] at hp
    have e2 : x + 1 = ((m + 1 : Nat) : Int) - 1 := by rw [hx2]; push_cast; ring
    rw [e2] at hp
    exact hp

/-- **C52, soundness.** Whenever `pairs` of an accepted scheme returns, it returns a proper
pairing. -/
theorem pairs_proper {n : Nat} {l : List Step} (hn : 1 ≤ n) (h : Accepted n l)
    (dict : List (Nat × Option Nat)) (hd : pairs l = some dict) : ProperPairing l dict := by
  obtain ⟨a, _, hp⟩ := accepted_path hn h
  rw [pairs_eq] at hd
  cases ha : aux 0 l with
  | none => rw [ha] at hd; cases hd
  | some p =>
    rw [ha] at hd
    simp at hd
    rw [← hd]
    exact proper_of_inv (aux_inv l l 0 a (n - 1) (by simp) hp p.1 p.2 ha)

/-- **C52, completeness.** `pairs` of an accepted scheme returns exactly when no step starts above the
top layer; in particular for all schemes within the layers. -/
theorem pairs_defined_iff {n : Nat} {l : List Step} (hn : 1 ≤ n) (h : Accepted n l) :
    (∃ dict, pairs l = some dict) ↔ ∀ s ∈ l, s.src ≤ (n : Int) - 1 := by
  obtain ⟨a, _, hp⟩ := accepted_path hn h
  rw [← (aux_some_iff l 0 a (n - 1) hp).1, pairs_eq, Option.isSome_iff_exists]
  cases aux 0 l <;> simp

/-- The example of the documentation (lines 254-266) is accepted and `pairs` returns. -/
example : ∃ l, wCycle 4 [3, 1, 1, 2, 2, 3] = some l ∧ Accepted 4 l ∧
    pairs l = some [(9, some 8), (10, some 7), (5, some 4), (3, some 2), (6, some 1), (11, some 0)] :=
  ⟨_, rfl, Accepted.W 4 [3, 1, 1, 2, 2, 3] _ rfl, by decide +kernel⟩

/-- **C53, V and N.** All steps of V and N cycles connect existing layers. -/
theorem vn_within_layers (n : Nat) : WithinLayers n (vCycle n) ∧ WithinLayers n (nCycle n) := by
  have hd : ∀ s ∈ (downLayers n).map Step.R,
      (0 ≤ s.src ∧ s.src < n) ∧ (0 ≤ s.dst ∧ s.dst < n) := by
    intro s hs
    obtain ⟨x, hx, rfl⟩ := List.mem_map.1 hs
    have := mem_down hx
    simp only [Step.src, Step.dst]; omega
  have hu : ∀ s ∈ (upLayers n).map Step.I,
      (0 ≤ s.src ∧ s.src < n) ∧ (0 ≤ s.dst ∧ s.dst < n) := by
    intro s hs
    obtain ⟨x, hx, rfl⟩ := List.mem_map.1 hs
    have := mem_up hx
    simp only [Step.src, Step.dst]; omega
  refine ⟨fun s hs => ?_, fun s hs => ?_⟩
  · rcases List.mem_append.1 hs with h | h
    · exact hd s h
    · exact hu s h
  · rcases List.mem_append.1 hs with h | h
    · rcases List.mem_append.1 h with h | h
      · exact hu s h
      · exact hd s h
    · exact hu s h

example : vCycle 4 = [.R 3, .R 2, .R 1, .I 0, .I 1, .I 2] := by decide +kernel
example : nCycle 3 = [.I 0, .I 1, .R 2, .R 1, .I 0, .I 1] := by decide +kernel

/-- **C53, W and FMG, partial.** An accepted W or FMG scheme stays within the layers if and only if
the layers at which it turns are within the layers.  Missing: rejection of the others
(`within_layers_refuted`). -/
theorem w_fmg_within_layers_partial (n : Nat) (hn : 1 ≤ n) (seq : List Nat) (l : List Step) :
    (wCycle n seq = some l →
      (WithinLayers n l ↔ ∀ t ∈ turnLayers .R seq ((n : Int) - 1), 0 ≤ t ∧ t < n)) ∧
    (fmgCycle n seq = some l →
      (WithinLayers n l ↔ ∀ t ∈ turnLayers .I seq 0, 0 ≤ t ∧ t < n)) := by
  constructor
  · intro h
    obtain ⟨rfl, _⟩ := accept_some h
    have := walk_within n seq .R ([], (n : Int) - 1) ⟨by simp only; omega, by simp only; omega⟩
    rw [this]
    simp [WithinLayers]
  · intro h
    obtain ⟨rfl, _⟩ := accept_some h
    have := walk_within n seq .I ([], 0) ⟨by simp, by simp only; omega⟩
    rw [this]
    simp [WithinLayers]

example : (∃ l, fmgCycle 4 [2, 2, 1, 1, 2, 2, 3] = some l) ∧
    ∀ t ∈ turnLayers .I [2, 2, 1, 1, 2, 2, 3] 0, 0 ≤ t ∧ t < (4 : Int) :=
  ⟨⟨_, rfl⟩, by decide +kernel⟩

/-- Specification of C53 for all accepted schemes. -/
def AllWithinLayers : Prop := ∀ n l, 1 ≤ n → Accepted n l → WithinLayers n l

/-- **C53 refuted** for W cycles: the sequence '4-4' on four layers is accepted and visits layer
`-1`. -/
theorem within_layers_refuted : ¬ AllWithinLayers := by
  intro h
  have hw : wCycle 4 [4, 4] =
      some [.R 3, .R 2, .R 1, .R 0, .I (-1), .I 0, .I 1, .I 2] := by decide +kernel
  have := h 4 _ (by decide) (Accepted.W 4 [4, 4] _ hw) (.R 0) (by simp)
  simp [Step.dst] at this

end Phyem.Multigrid
