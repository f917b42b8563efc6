import Verif.Norms.Model
import Verif.Cochain.Props

/-!
C121: the residual of a form between two time instants.
-/

namespace Phyem.Norms

open Cochain

variable {V : Type}

/-! ### Specification -/

/-- The newest time of a store. -/
def IsNewest (s : S V) (t : ℚ) : Prop := t ∈ s.tcd.keys ∧ ∀ u ∈ s.tcd.keys, u ≤ t

/-- The second newest time of a store: one stored time is newer, and all others are older. -/
def IsSecond (s : S V) (t : ℚ) : Prop :=
  t ∈ s.tcd.keys ∧ ∃ n ∈ s.tcd.keys, t < n ∧ ∀ u ∈ s.tcd.keys, u ≠ n → u ≤ t

/-- The times a residual is computed between, of a store that is not empty: those given; otherwise to the newest, and from the second
newest (the newest if there is only one). -/
def Between (s : S V) (fromT toT : Option ℚ) (a b : ℚ) : Prop :=
  (toT = some b ∨ (toT = none ∧ IsNewest s b)) ∧
  (fromT = some a ∨ (fromT = none ∧ (IsSecond s a ∨ (s.tcd.length = 1 ∧ IsNewest s a))))

/-! ### The times -/

lemma newest_last {s : S V} (w : WF s) {b : ℚ} (h : IsNewest s b) : (sortedKeys s.tcd).getLast? = some b := by
  have hs := sortedKeys_lt s.tcd w.nodup
  obtain ⟨hb, hm⟩ := h
  rw [← mem_sortedKeys] at hb
  have hne : sortedKeys s.tcd ≠ [] := List.ne_nil_of_mem hb
  rw [List.getLast?_eq_getLast_of_ne_nil hne]
  congr 1
  apply le_antisymm (hm _ ((mem_sortedKeys _ _).1 (List.getLast_mem hne)))
  rw [← List.dropLast_append_getLast hne] at hb hs
  rcases List.mem_append.1 hb with h | h
  · exact ((List.pairwise_append.1 hs).2.2 b h _ (List.mem_singleton.2 rfl)).le
  · rw [List.mem_singleton.1 h]

lemma second_last {s : S V} (w : WF s) {a : ℚ} (h : IsSecond s a) :
    (sortedKeys s.tcd).length ≠ 1 ∧ (sortedKeys s.tcd).dropLast.getLast? = some a := by
  have hs := sortedKeys_lt s.tcd w.nodup
  obtain ⟨ha, n, hn, han, hm⟩ := h
  have hnew : IsNewest s n := by
    refine ⟨hn, fun u hu => ?_⟩
    by_cases e : u = n
    · exact e.le
    · exact (hm u hu e).trans han.le
  have hl := newest_last w hnew
  have ha' := (mem_sortedKeys s.tcd a).2 ha
  have hmem : ∀ u, u ∈ sortedKeys s.tcd → u ∈ s.tcd.keys := fun u => (mem_sortedKeys s.tcd u).1
  generalize sortedKeys s.tcd = l at *
  have hne : l ≠ [] := List.ne_nil_of_mem ha'
  rw [List.getLast?_eq_getLast_of_ne_nil hne, Option.some.injEq] at hl
  have hd : a ∈ l.dropLast := by
    rw [← List.dropLast_append_getLast hne] at ha'
    rcases List.mem_append.1 ha' with h | h
    · exact h
    · rw [List.mem_singleton, hl] at h
      exact absurd h han.ne
  have hne' : l.dropLast ≠ [] := List.ne_nil_of_mem hd
  constructor
  · intro e
    apply hne'
    apply List.eq_nil_of_length_eq_zero
    rw [List.length_dropLast, e]
  rw [List.getLast?_eq_getLast_of_ne_nil hne']
  congr 1
  have hin := List.getLast_mem hne'
  have hs' : l.dropLast.Pairwise (· < ·) := hs.sublist (List.dropLast_sublist l)
  have hlt : l.dropLast.getLast hne' < n := by
    rw [← List.dropLast_append_getLast hne] at hs
    rw [← hl]
    exact (List.pairwise_append.1 hs).2.2 _ hin _ (List.mem_singleton.2 rfl)
  apply le_antisymm (hm _ (hmem _ (List.mem_of_mem_dropLast hin)) hlt.ne)
  rw [← List.dropLast_append_getLast hne'] at hd hs'
  rcases List.mem_append.1 hd with h | h
  · exact ((List.pairwise_append.1 hs').2.2 a h _ (List.mem_singleton.2 rfl)).le
  · rw [List.mem_singleton.1 h]

lemma times_of {s : S V} (w : WF s) {fromT toT : Option ℚ} {a b : ℚ} (h : Between s fromT toT a b) :
    residualTimes (sortedKeys s.tcd) fromT toT = (some a, some b) := by
  obtain ⟨hb, ha⟩ := h
  unfold residualTimes
  refine Prod.ext ?_ ?_
  · rcases ha with rfl | ⟨rfl, h | ⟨h1, h⟩⟩
    · rfl
    · obtain ⟨k1, k2⟩ := second_last w h
      exact (if_neg k1).trans k2
    · rw [← sortedKeys_length] at h1
      exact (if_pos h1).trans (newest_last w h)
  · rcases hb with rfl | ⟨rfl, h⟩
    · rfl
    · exact newest_last w h

/-- There are such times, whatever is given, as soon as something is stored. -/
theorem between_exists (s : S V) (w : WF s) (h : s.tcd ≠ []) (fromT toT : Option ℚ) : ∃ a b, Between s fromT toT a b := by
  have hs := sortedKeys_lt s.tcd w.nodup
  have hlen := sortedKeys_length s.tcd
  have hne : sortedKeys s.tcd ≠ [] := by
    intro e
    rw [e] at hlen
    exact h (List.eq_nil_of_length_eq_zero hlen.symm)
  have hmem : ∀ u, u ∈ s.tcd.keys ↔ u ∈ sortedKeys s.tcd := fun u => (mem_sortedKeys s.tcd u).symm
  have hnew : IsNewest s ((sortedKeys s.tcd).getLast hne) := by
    refine ⟨(hmem _).2 (List.getLast_mem hne), fun u hu => ?_⟩
    rw [hmem] at hu
    have hs' := hs
    rw [← List.dropLast_append_getLast hne] at hu hs'
    rcases List.mem_append.1 hu with k | k
    · exact ((List.pairwise_append.1 hs').2.2 u k _ (List.mem_singleton.2 rfl)).le
    · rw [List.mem_singleton.1 k]
  have hB : ∃ b, toT = some b ∨ (toT = none ∧ IsNewest s b) := by
    cases toT with
    | some b => exact ⟨b, Or.inl rfl⟩
    | none => exact ⟨_, Or.inr ⟨rfl, hnew⟩⟩
  have hA : ∃ a, fromT = some a ∨ (fromT = none ∧ (IsSecond s a ∨ (s.tcd.length = 1 ∧ IsNewest s a))) := by
    cases fromT with
    | some a => exact ⟨a, Or.inl rfl⟩
    | none =>
      by_cases h1 : s.tcd.length = 1
      · exact ⟨_, Or.inr ⟨rfl, Or.inr ⟨h1, hnew⟩⟩⟩
      · have hne' : (sortedKeys s.tcd).dropLast ≠ [] := by
          intro e
          have := congrArg List.length e
          rw [List.length_dropLast, hlen, List.length_nil] at this
          have : s.tcd.length ≠ 0 := fun e => h (List.eq_nil_of_length_eq_zero e)
          omega
        refine ⟨(sortedKeys s.tcd).dropLast.getLast hne', Or.inr ⟨rfl, Or.inl ⟨?_, _, hnew.1, ?_, ?_⟩⟩⟩
        · exact (hmem _).2 (List.mem_of_mem_dropLast (List.getLast_mem hne'))
        · have hs' := hs
          rw [← List.dropLast_append_getLast hne] at hs'
          exact (List.pairwise_append.1 hs').2.2 _ (List.getLast_mem hne') _ (List.mem_singleton.2 rfl)
        · intro u hu hun
          rw [hmem, ← List.dropLast_append_getLast hne] at hu
          rcases List.mem_append.1 hu with k | k
          · have hs' : (sortedKeys s.tcd).dropLast.Pairwise (· < ·) := hs.sublist (List.dropLast_sublist _)
            rw [← List.dropLast_append_getLast hne'] at k hs'
            rcases List.mem_append.1 k with m | m
            · exact ((List.pairwise_append.1 hs').2.2 u m _ (List.mem_singleton.2 rfl)).le
            · rw [List.mem_singleton.1 m]
          · exact absurd (List.mem_singleton.1 k) hun
  obtain ⟨a, ha⟩ := hA
  obtain ⟨b, hb⟩ := hB
  exact ⟨a, b, hb, ha⟩

/-! ### Residuals -/

variable [Sub V] (norm : V → ℝ)

/-- The residual of a form of `msehtt`, after any history of its cochains: the norm of the difference of the cochains at the two times;
`nan` if these are the same (rounded to eight digits, as all times are); an exception if one of them is not stored. -/
theorem residual_htt_right (ops : List (OpHtt V)) (fromT toT : Option ℚ) (a b : ℚ) (h : Between (runHtt ops) fromT toT a b) :
    (parseT a = parseT b → residualHtt (runHtt ops) norm fromT toT = .nan) ∧
    (parseT a ≠ parseT b → ∀ u v, getItem (runHtt ops) (some a) = some u → getItem (runHtt ops) (some b) = some v →
      residualHtt (runHtt ops) norm fromT toT = .value (norm (v - u))) ∧
    (parseT a ≠ parseT b → (getItem (runHtt ops) (some a) = none ∨ getItem (runHtt ops) (some b) = none) →
      residualHtt (runHtt ops) norm fromT toT = .error) := by
  have ht := times_of (runHtt_wf ops) h
  have hr : ∀ t, getItem (runHtt ops) (some (parseT t)) = getItem (runHtt ops) (some t) := by
    intro t
    simp only [getItem, parseT_parseT]
  unfold residualHtt
  rw [ht]
  dsimp only
  rw [hr, hr]
  refine ⟨fun e => if_pos e, fun e u v hu hv => ?_, fun e hn => ?_⟩
  · rw [if_neg e, hu, hv]
  · rw [if_neg e]
    rcases hn with hn | hn
    · rw [hn]
    · rw [hn]
      cases getItem (runHtt ops) (some a) <;> rfl

/-- Without cochains: `nan`, and an exception as soon as one of the times is given and the other is not. -/
theorem residual_htt_empty (s : S V) (h : s.tcd = []) (t : ℚ) :
    residualHtt s norm none none = .nan ∧ residualHtt s norm (some t) none = .error ∧ residualHtt s norm none (some t) = .error := by
  simp [residualHtt, residualTimes, h, sortedKeys, Dict.keys]

/-- Without arguments: the norm of the difference of the newest two cochains, whenever two are stored; `nan` if there is one only. -/
theorem residual_htt_default (ops : List (OpHtt V)) :
    (∀ a b, IsSecond (runHtt ops) a → IsNewest (runHtt ops) b → ∃ u v, (runHtt ops).tcd.get a = some u ∧
      (runHtt ops).tcd.get b = some v ∧ residualHtt (runHtt ops) norm none none = .value (norm (v - u))) ∧
    ((runHtt ops).tcd.length = 1 → residualHtt (runHtt ops) norm none none = .nan) := by
  have w := runHtt_wf ops
  constructor
  · intro a b ha hb
    obtain ⟨u, hu⟩ := Option.isSome_iff_exists.1 ((Dict.get_isSome _ _).2 ha.1)
    obtain ⟨v, hv⟩ := Option.isSome_iff_exists.1 ((Dict.get_isSome _ _).2 hb.1)
    refine ⟨u, v, hu, hv, ?_⟩
    refine (residual_htt_right norm ops none none a b ⟨Or.inr ⟨rfl, hb⟩, Or.inr ⟨rfl, Or.inl ha⟩⟩).2.1 ?_ u v ?_ ?_
    · rw [w.rounded a ha.1, w.rounded b hb.1]
      obtain ⟨_, n, hn, han, _⟩ := ha
      exact (han.trans_le (hb.2 n hn)).ne
    · rw [w.getItem ha.1, hu]
    · rw [w.getItem hb.1, hv]
  · intro h1
    obtain ⟨a, b, hb, ha⟩ := between_exists (runHtt ops) w (by intro e; rw [e] at h1; simp at h1) none none
    refine (residual_htt_right norm ops none none a b ⟨hb, ha⟩).1 ?_
    have := times_of w ⟨hb, ha⟩
    have hl : (sortedKeys (runHtt ops).tcd).length = 1 := by rw [sortedKeys_length, h1]
    unfold residualTimes at this
    simp only [hl, if_true, Prod.mk.injEq] at this
    rw [Option.some.inj (this.1.symm.trans this.2)]

/-- The residual of a form of `msepy`. The times are compared before they are rounded: full statement as for `msehtt`; missing: `nan`
for different times that are rounded to the same, see `residual_py_refuted`. -/
theorem residual_py_partial (ops : List (OpPy V)) (fromT toT : Option ℚ) (a b : ℚ) (h : Between (runPy ops) fromT toT a b) :
    (a = b → residualPy (runPy ops) norm fromT toT = .nan) ∧
    (parseT a ≠ parseT b → ∀ u v, getItem (runPy ops) (some a) = some u → getItem (runPy ops) (some b) = some v →
      residualPy (runPy ops) norm fromT toT = .value (norm (v - u))) ∧
    (a ≠ b → (getItem (runPy ops) (some a) = none ∨ getItem (runPy ops) (some b) = none) →
      residualPy (runPy ops) norm fromT toT = .error) := by
  have ht := times_of (runPy_wf ops) h
  unfold residualPy
  rw [ht]
  dsimp only
  refine ⟨fun e => if_pos e, fun e u v hu hv => ?_, fun e hn => ?_⟩
  · rw [if_neg (fun k => e (by rw [k])), hu, hv]
  · rw [if_neg e]
    rcases hn with hn | hn
    · rw [hn]
    · rw [hn]
      cases getItem (runPy ops) (some a) <;> rfl

/-- Without cochains. -/
theorem residual_py_empty (s : S V) (h : s.tcd = []) (t : ℚ) :
    residualPy s norm none none = .nan ∧ residualPy s norm (some t) none = .error ∧ residualPy s norm none (some t) = .error := by
  simp [residualPy, residualTimes, h, sortedKeys, Dict.keys]

/-- Without arguments. -/
theorem residual_py_default (ops : List (OpPy V)) :
    (∀ a b, IsSecond (runPy ops) a → IsNewest (runPy ops) b → ∃ u v, (runPy ops).tcd.get a = some u ∧
      (runPy ops).tcd.get b = some v ∧ residualPy (runPy ops) norm none none = .value (norm (v - u))) ∧
    ((runPy ops).tcd.length = 1 → residualPy (runPy ops) norm none none = .nan) := by
  have w := runPy_wf ops
  constructor
  · intro a b ha hb
    obtain ⟨u, hu⟩ := Option.isSome_iff_exists.1 ((Dict.get_isSome _ _).2 ha.1)
    obtain ⟨v, hv⟩ := Option.isSome_iff_exists.1 ((Dict.get_isSome _ _).2 hb.1)
    refine ⟨u, v, hu, hv, ?_⟩
    refine (residual_py_partial norm ops none none a b ⟨Or.inr ⟨rfl, hb⟩, Or.inr ⟨rfl, Or.inl ha⟩⟩).2.1 ?_ u v ?_ ?_
    · rw [w.rounded a ha.1, w.rounded b hb.1]
      obtain ⟨_, n, hn, han, _⟩ := ha
      exact (han.trans_le (hb.2 n hn)).ne
    · rw [w.getItem ha.1, hu]
    · rw [w.getItem hb.1, hv]
  · intro h1
    obtain ⟨a, b, hb, ha⟩ := between_exists (runPy ops) w (by intro e; rw [e] at h1; simp at h1) none none
    refine (residual_py_partial norm ops none none a b ⟨hb, ha⟩).1 ?_
    have := times_of w ⟨hb, ha⟩
    have hl : (sortedKeys (runPy ops).tcd).length = 1 := by rw [sortedKeys_length, h1]
    unfold residualTimes at this
    simp only [hl, if_true, Prod.mk.injEq] at this
    exact Option.some.inj (this.1.symm.trans this.2)

/-- Two times that are rounded to the same stored one: `msehtt` says `nan`, `msepy` computes the norm of the zero difference. -/
theorem residual_py_refuted : ∃ (ops : List (OpPy ℚ)) (a b : ℚ), parseT a = parseT b ∧
    residualPy (runPy ops) (fun v => (v : ℝ)) (some a) (some b) = .value 0 := by
  refine ⟨[.set .off 1 (some 5)], 1, 1 + 1 / 10 ^ 9, ?_, ?_⟩
  · norm_num [parseT, roundEven]
  · have h1 : parseT 1 = 1 := by norm_num [parseT, roundEven]
    have h2 : parseT (1 + 1 / 10 ^ 9) = 1 := by norm_num [parseT, roundEven]
    have hs : (runPy [OpPy.set .off 1 (some (5 : ℚ))]).tcd = [(1, 5)] := by
      simp [runPy, stepPy, setPy, S.empty, Dict.put, h1]
    unfold residualPy residualTimes
    dsimp only
    rw [if_neg (by norm_num)]
    simp only [getItem, h1, h2, hs]
    simp [Dict.get]

/-! ### Cases -/

/-- Three cochains stored out of order, the second overwritten: the second newest time is 1 and the newest 2. -/
def history : List (OpHtt ℚ) := [.set .off 2 (some 7), .set .off 0 (some 1), .set .off 1 (some 2), .set .off 1 (some 3)]

lemma history_keys : (runHtt history).tcd.keys = [2, 0, 1] := by
  have h0 : parseT 0 = 0 := by norm_num [parseT, roundEven]
  have h1 : parseT 1 = 1 := by norm_num [parseT, roundEven]
  have h2 : parseT 2 = 2 := by norm_num [parseT, roundEven]
  simp [history, runHtt, stepHtt, setHtt, S.empty, Dict.put, Dict.keys, h0, h1, h2]

example : IsSecond (runHtt history) 1 ∧ IsNewest (runHtt history) 2 := by
  unfold IsSecond IsNewest
  rw [history_keys]
  refine ⟨⟨by simp, 2, by simp, by norm_num, ?_⟩, by simp, ?_⟩
  · intro u hu h
    simp only [List.mem_cons, List.not_mem_nil, or_false] at hu
    rcases hu with rfl | rfl | rfl
    · exact absurd rfl h
    · norm_num
    · exact le_rfl
  · intro u hu
    simp only [List.mem_cons, List.not_mem_nil, or_false] at hu
    rcases hu with rfl | rfl | rfl <;> norm_num

end Phyem.Norms
