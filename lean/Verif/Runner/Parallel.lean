import Verif.Runner.Example
import Mathlib.Data.List.GetD

/-!
Other ranks do what the master does, and what is asked for is what the matrices say.
-/

namespace Phyem.Runner

variable {V : Type}

lemma slaveLoop_loop [DecidableEq V] (F : Format V) (solver : List V → List V) (times : ℕ → Str × Str × Str)
    (xs : List (Option (List V))) (mem : Mem V) (ms : List (Msg V)) :
    slaveLoop xs.length ((loop F solver times xs mem).msgs ++ ms) = some ((loop F solver times xs mem).calls, ms) := by
  induction xs generalizing mem with
  | nil => rfl
  | cons o xs ih =>
    cases o with
    | none => exact ih mem
    | some x =>
      rw [loop]
      split_ifs with h
      · exact ih mem
      · simp only [List.length_cons, List.cons_append, slaveLoop, ih, Option.map_some]

/-- The most columns of a row. -/
def width {A : Type} (i0 : List (List A)) : ℕ := (i0.map List.length).foldl max 0

lemma slots_length (i0 : List (List (Option V))) (i1 : List (List V)) (i2 : List V) (xs : List (Option (List V)))
    (h : slots i0 i1 i2 = some xs) : xs.length = i2.length * i0.length * width i0 := by
  unfold slots at h
  split_ifs at h
  cases h
  simp [List.length_flatMap, width, Nat.mul_assoc]

/-- The other ranks call the solver with the same inputs in the same order as the master, and receive exactly the messages
that it sends: nobody waits for a message that does not come. -/
theorem slaves_follow [DecidableEq V] (F : Format V) (solver : List V → List V) (times : ℕ → Str × Str × Str)
    (i0 : List (List (Option V))) (i1 : List (List V)) (i2 : List V) (xs : List (Option (List V)))
    (h : slots i0 i1 i2 = some xs) (mem : Mem V) :
    slave (messages i0.length (width i0) i2.length (loop F solver times xs mem)) =
      some ((loop F solver times xs mem).calls, []) := by
  have := slaveLoop_loop F solver times xs mem []
  rw [List.append_nil, slots_length i0 i1 i2 xs h] at this
  exact this

lemma le_width {A : Type} (i0 : List (List A)) (l : List A) (h : l ∈ i0) : l.length ≤ width i0 := by
  unfold width
  have : ∀ (ns : List ℕ) (m : ℕ), m ≤ ns.foldl max m ∧ ∀ n ∈ ns, n ≤ ns.foldl max m := by
    intro ns
    induction ns with
    | nil => simp
    | cons n ns ih =>
      intro m
      rw [List.foldl_cons]
      refine ⟨le_trans (le_max_left _ _) (ih _).1, fun k hk => ?_⟩
      rcases List.mem_cons.1 hk with rfl | hk
      · exact le_trans (le_max_right _ _) (ih _).1
      · exact (ih _).2 k hk
  exact (this _ 0).2 _ (List.mem_map_of_mem h)

/-- The matrices are accepted if and only if the first two have the same shape, and then what is asked for is each pair of
numbers at the same place of both, where there is one in the first, with each number of the third. -/
theorem slots_asked (i0 : List (List (Option V))) (i1 : List (List V)) (i2 : List V) :
    ((slots i0 i1 i2).isSome ↔ i0.map List.length = i1.map List.length) ∧
    ∀ xs, slots i0 i1 i2 = some xs → ∀ x, some x ∈ xs ↔ ∃ (i j k : ℕ) (a b c : V) (l : List (Option V)) (m : List V),
      i0[i]? = some l ∧ l[j]? = some (some a) ∧ i1[i]? = some m ∧ m[j]? = some b ∧ i2[k]? = some c ∧ x = [a, b, c] := by
  have hshape : (i0.length = i1.length ∧ ∀ i < i0.length, (i0.getD i []).length = (i1.getD i []).length) ↔
      i0.map List.length = i1.map List.length := by
    constructor
    · rintro ⟨hl, h⟩
      apply List.ext_getElem (by simpa using hl)
      intro i h1 h2
      simp at h1 h2
      have := h i h1
      rw [List.getD_eq_getElem _ _ h1, List.getD_eq_getElem _ _ h2] at this
      simpa using this
    · intro h
      have hl : i0.length = i1.length := by simpa using congrArg List.length h
      refine ⟨hl, fun i hi => ?_⟩
      have h2 : i < i1.length := by omega
      have := congrArg (fun l => l[i]?) h
      simp only [List.getElem?_map, List.getElem?_eq_getElem hi, List.getElem?_eq_getElem h2, Option.map_some,
        Option.some.injEq] at this
      rw [List.getD_eq_getElem _ _ hi, List.getD_eq_getElem _ _ h2]
      exact this
  constructor
  · rw [← hshape]
    unfold slots
    split_ifs with h
    · exact iff_of_true rfl h
    · exact iff_of_false (by simp) h
  · intro xs h x
    unfold slots at h
    split_ifs at h
    cases h
    simp only [List.mem_flatMap, List.mem_map, List.mem_range]
    constructor
    · rintro ⟨k, hk, i, hi, j, hj, h⟩
      rw [Option.bind_eq_some_iff] at h
      obtain ⟨a, ha, h⟩ := h
      rw [Option.bind_eq_some_iff] at h
      obtain ⟨b, hb, h⟩ := h
      rw [Option.map_eq_some_iff] at h
      obtain ⟨c, hc, rfl⟩ := h
      rw [List.getD_eq_getElem _ _ hi, Option.join_eq_some_iff] at ha
      have hi1 : i < i1.length := by
        by_contra hn
        rw [List.getD_eq_default _ _ (by omega)] at hb
        simp at hb
      rw [List.getD_eq_getElem _ _ hi1] at hb
      exact ⟨i, j, k, a, b, c, _, _, List.getElem?_eq_getElem hi, ha, List.getElem?_eq_getElem hi1, hb, hc, rfl⟩
    · rintro ⟨i, j, k, a, b, c, l, m, hl, ha, hm, hb, hc, rfl⟩
      obtain ⟨hi, rfl⟩ := List.getElem?_eq_some_iff.1 hl
      obtain ⟨hi1, rfl⟩ := List.getElem?_eq_some_iff.1 hm
      obtain ⟨hk, -⟩ := List.getElem?_eq_some_iff.1 hc
      obtain ⟨hj, -⟩ := List.getElem?_eq_some_iff.1 ha
      refine ⟨k, hk, i, hi, j, lt_of_lt_of_le hj (le_width i0 _ (List.getElem_mem hi)), ?_⟩
      rw [List.getD_eq_getElem _ _ hi, List.getD_eq_getElem _ _ hi1, ha, hb, hc]
      rfl

/-- Rows of different lengths, with a place left out. -/
example : slots [[some 1, none, some 3], [some 4]] [[10, 20, 30], [40]] [7, 8] =
    some [some [1, 10, 7], none, some [3, 30, 7], some [4, 40, 7], none, none, some [1, 10, 8], none, some [3, 30, 8],
      some [4, 40, 8], none, none] := by decide

example : slave (messages 2 3 2 (loop decimalFormat exampleSolver exampleTimes [some [1, 10, 7], none, some [3, 30, 7],
    some [4, 40, 7], none, none, some [1, 10, 8], none, some [1, 10, 7], some [4, 40, 8], none, none] ⟨[], [[3, 30, 7]]⟩)) =
    some ([[1, 10, 7], [4, 40, 7], [1, 10, 8], [4, 40, 8]], []) := by rfl

end Phyem.Runner
