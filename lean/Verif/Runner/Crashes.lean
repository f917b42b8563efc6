import Verif.Runner.Resume
import Verif.Runner.Example

/-!
What a runner does when it is started again, for files that processes left behind that died.
-/

namespace Phyem.Runner

variable {V : Type}

/-- Whatever happened before while results were written: a new process accepts the file, all its results, those read
from the file and the new ones, are right, every input that is asked for is among them, and the solver is called, in the
order in which they are asked for, for the inputs that are not in the file, once for each of them. -/
theorem resume [DecidableEq V] (F : Format V) (hF : F.Good) (c : Config) (hc : c.Good) (solver : List V → List V)
    (hs : GoodSolver c solver) (file : Option Str) (h : Reachable F c solver file) (times : ℕ → Str × Str × Str)
    (ht : GoodTimes times) (xs : List (Option (List V))) (hx : GoodSlots xs) :
    ∃ t old, (iterate F c solver times xs [] file).trace = some t ∧ Right solver t.mem.rdf ∧
      (∀ x, some x ∈ xs → x ∈ t.mem.rdf.map fun r => r.inputs) ∧
      (t.mem.rdf.map fun r => r.inputs) = (old.map fun r => r.inputs) ++ t.calls ∧ old <+: t.mem.rdf ∧
      t.calls.Nodup ∧ (∀ x, x ∈ t.calls ↔ some x ∈ xs ∧ x ∉ old.map fun r => r.inputs) ∧
      t.calls.Sublist (xs.filterMap id) := by
  obtain ⟨rows, tail, o, hg, htl, hr, hp, -⟩ := prepare_inv hF hc (reachable_inv hF hc hs h)
  obtain ⟨news, h1, h2, h3, h4, h5, h6, h7⟩ := loop_spec F c solver hs times ht xs hx
    ⟨rows ++ (o.map fun p => p.1).toList, [] ++ (rows ++ (o.map fun p => p.1).toList).map fun r => r.inputs⟩ hr (by simp)
  refine ⟨loop F solver times xs ⟨rows ++ (o.map fun p => p.1).toList, [] ++ (rows ++ (o.map fun p => p.1).toList).map
    fun r => r.inputs⟩, rows ++ (o.map fun p => p.1).toList, ?_, ?_, ?_, ?_, ?_, ?_, ?_, ?_⟩
  · unfold iterate; rw [hp]; rfl
  · rw [h1]; exact h5
  · intro x hm
    rw [h1, List.map_append, List.mem_append]
    by_cases hin : x ∈ (rows ++ (o.map fun p => p.1).toList).map fun r => r.inputs
    · exact .inl hin
    · exact .inr ((h6 x).2 ⟨hm, hin⟩)
  · rw [h1, h3, List.map_append]
  · rw [h1]; exact List.prefix_append _ _
  · have := h5.nodup
    rw [List.map_append, List.nodup_append] at this
    rw [h3]; exact this.2.1
  · rw [h3]; exact h6
  · rw [h3]; exact h7

/-- A process that died while it wrote the second result, after 30 characters. -/
example : Reachable decimalFormat exampleConfig exampleSolver
    (crash (iterate decimalFormat exampleConfig exampleSolver exampleTimes exampleSlots [] none).ops 3 30 none) :=
  .run none _ _ 3 30 .none exampleTimes_good exampleSlots_good (by decide)

/-- The solver is called for the inputs of the second and of the fifth slot. -/
example : ((iterate decimalFormat exampleConfig exampleSolver exampleTimes exampleSlots []
    (crash (iterate decimalFormat exampleConfig exampleSolver exampleTimes exampleSlots [] none).ops 3 30 none)).trace.map
      fun t => t.calls) = some [[12, 0, 4], [1, 2, 5]] := by decide +kernel

/-- Files in which every row is complete. -/
def WholeInv (F : Format V) (c : Config) (solver : List V → List V) (file : Option Str) (rows : List (Row V)) : Prop :=
  ((file = none ∧ rows = []) ∨ file = some (head c ++ rows.flatMap (rowText F))) ∧
    (∀ r ∈ rows, RowGood c.outputNames.length r) ∧ Right solver rows

lemma whole_run [DecidableEq V] {F : Format V} (hF : F.Good) {c : Config} (hc : c.Good) {solver : List V → List V}
    (hs : GoodSolver c solver) {file : Option Str} {rows : List (Row V)} (h : WholeInv F c solver file rows)
    (times : ℕ → Str × Str × Str) (ht : GoodTimes times) (xs : List (Option (List V))) (hx : GoodSlots xs) :
    (iterate F c solver times xs [] file).before.length = 2 ∧
    ∃ news t, (iterate F c solver times xs [] file).trace = some t ∧ t.mem.rdf = rows ++ news ∧
      t.calls = (news.map fun r => r.inputs) ∧
      (∀ r ∈ news, RowGood c.outputNames.length r) ∧ Right solver (rows ++ news) ∧
      (∀ x, x ∈ t.calls ↔ some x ∈ xs ∧ x ∉ rows.map fun r => r.inputs) ∧
      ∀ n k, 2 ≤ n → crash (iterate F c solver times xs [] file).ops n k file =
        some (head c ++ (rows.flatMap (rowText F) ++ (((news.map (rowText F)).take (n - 2)).flatten ++
          ((news.map (rowText F)).getD (n - 2) []).take k))) := by
  obtain ⟨hf, hg, hr⟩ := h
  have hp : prepare F c file = ([.openW, .write (head c ++ rows.flatMap (rowText F))], some rows) := by
    rcases hf with ⟨rfl, rfl⟩ | rfl
    · simp [prepare]
    · obtain ⟨hk, hl⟩ := kept_lines hF c hc rows hg [] none .nil
      rw [prepare]
      have := readContents_head F c hc (rows.flatMap (rowText F) ++ [])
      rw [readRows_tail hF rows hg [] none .nil] at this
      simp only [List.append_nil, Option.map_none, Option.toList_none, Option.getD_none] at this hk hl
      rw [this]
      dsimp only [Option.map_some]
      rw [hk, if_pos hl]
  obtain ⟨news, h1, h2, h3, h4, h5, h6, h7⟩ := loop_spec F c solver hs times ht xs hx
    ⟨rows, [] ++ rows.map fun r => r.inputs⟩ hr (by simp)
  unfold Run.ops iterate
  rw [hp]
  refine ⟨rfl, news, _, rfl, h1, h3, h4, h5, by rw [h3]; exact h6, fun n k hn => ?_⟩
  dsimp only [Option.map_some, Option.getD_some]
  have h2' : ∀ l : List (Row V), l.map (fun r => Op.write (rowText F r)) = (l.map (rowText F)).map Op.write := by simp
  rw [h2, h2', crash_writes _ _ n k file _ rfl (by simpa using hn)]
  simp [Op.run]

lemma whole_inv [DecidableEq V] {F : Format V} (hF : F.Good) {c : Config} (hc : c.Good) {solver : List V → List V}
    (hs : GoodSolver c solver) {file : Option Str} (h : Whole F c solver file) : ∃ rows, WholeInv F c solver file rows := by
  induction h with
  | none => exact ⟨[], .inl ⟨rfl, rfl⟩, by simp, right_nil solver⟩
  | run file times xs n _ ht hx hn ih =>
    obtain ⟨rows, h⟩ := ih
    obtain ⟨h0, news, t, -, -, -, h4, h5, -, h7⟩ := whole_run hF hc hs h times ht xs hx
    refine ⟨rows ++ news.take (n - 2), .inr ?_, ?_, ?_⟩
    · rw [h7 n 0 (by omega), flatten_map_flatMap]
      simp
    · intro r hm
      rcases List.mem_append.1 hm with hm | hm
      exacts [h.2.1 r hm, h4 r (List.mem_of_mem_take hm)]
    · have e : rows ++ news = (rows ++ news.take (n - 2)) ++ news.drop (n - 2) := by
        rw [List.append_assoc, List.take_append_drop]
      rw [e] at h5
      exact right_take h5

/-- What is on a file from the first of two processes, all of whose rows are complete or the process died while it wrote
the last one. -/
lemma prefix_run [DecidableEq V] {F : Format V} (hF : F.Good) {c : Config} (hc : c.Good) {solver : List V → List V}
    (hs : GoodSolver c solver) (rows news : List (Row V)) (hg : ∀ r ∈ rows, RowGood c.outputNames.length r)
    (h4 : ∀ r ∈ news, RowGood c.outputNames.length r) (h5 : Right solver (rows ++ news)) (j k : ℕ)
    (times : ℕ → Str × Str × Str) (ht : GoodTimes times) (xs : List (Option (List V))) (hx : GoodSlots xs) :
    ∃ j' t, j ≤ j' ∧ (iterate F c solver times xs [] (some (head c ++ (rows.flatMap (rowText F) ++
      (((news.map (rowText F)).take j).flatten ++ ((news.map (rowText F)).getD j []).take k))))).trace = some t ∧
      rows ++ news.take j' <+: t.mem.rdf ∧ ∀ x ∈ t.calls, some x ∈ xs ∧ x ∉ (rows ++ news.take j').map fun r => r.inputs := by
  obtain ⟨j', tail, o, hj, e, ho, hr⟩ := crash_complete hF rows news h4 h5 j k
  have hgood : ∀ r ∈ rows ++ news.take j', RowGood c.outputNames.length r := by
    intro r hm
    rcases List.mem_append.1 hm with hm | hm
    exacts [hg r hm, h4 r (List.mem_of_mem_take hm)]
  rw [e, ← List.append_assoc (rows.flatMap _), ← List.flatMap_append]
  obtain ⟨hk, hl⟩ := kept_lines hF c hc _ hgood tail o ho
  obtain ⟨n2, g1, g2, g3, g4, g5, g6, g7⟩ := loop_spec F c solver hs times ht xs hx
    ⟨rows ++ news.take j' ++ (o.map fun p => p.1).toList, [] ++ (rows ++ news.take j' ++ (o.map fun p => p.1).toList).map
      fun r => r.inputs⟩ hr (by simp)
  refine ⟨j', loop F solver times xs ⟨rows ++ news.take j' ++ (o.map fun p => p.1).toList, [] ++ (rows ++ news.take j' ++
    (o.map fun p => p.1).toList).map fun r => r.inputs⟩, hj, ?_, ?_, ?_⟩
  · unfold iterate
    rw [prepare, readContents_head F c hc, readRows_tail hF _ hgood tail o ho]
    dsimp only [Option.map_some]
    rw [if_pos hl]
    rfl
  · rw [g1, List.append_assoc _ _ n2]; exact List.prefix_append _ _
  · intro x hm
    rw [g3] at hm
    obtain ⟨ha, hb⟩ := (g6 x).1 hm
    refine ⟨ha, fun hc => hb ?_⟩
    dsimp only
    rw [List.map_append, List.mem_append]
    exact .inl hc

/-- If every row of the file is complete, then nothing that a process writes completely is computed again, even if it dies
while it writes the next row: the rows that it read and the first ones that it wrote are the first rows of the next process,
which does not call the solver for them. -/
theorem no_recompute_partial [DecidableEq V] (F : Format V) (hF : F.Good) (c : Config) (hc : c.Good)
    (solver : List V → List V) (hs : GoodSolver c solver) (file : Option Str) (h : Whole F c solver file)
    (times times' : ℕ → Str × Str × Str) (ht : GoodTimes times) (ht' : GoodTimes times')
    (xs xs' : List (Option (List V))) (hx : GoodSlots xs) (hx' : GoodSlots xs') (n k : ℕ)
    (hn : (iterate F c solver times xs [] file).before.length ≤ n) :
    ∃ t old news t', (iterate F c solver times xs [] file).trace = some t ∧ t.mem.rdf = old ++ news ∧
      t.calls = (news.map fun r => r.inputs) ∧
      (iterate F c solver times' xs' [] (crash (iterate F c solver times xs [] file).ops n k file)).trace = some t' ∧
      old ++ news.take (n - (iterate F c solver times xs [] file).before.length) <+: t'.mem.rdf ∧
      ∀ x ∈ t'.calls, some x ∈ xs' ∧
        x ∉ (old ++ news.take (n - (iterate F c solver times xs [] file).before.length)).map fun r => r.inputs := by
  obtain ⟨rows, hw⟩ := whole_inv hF hc hs h
  obtain ⟨h0, news, t, h1, h2, h3, h4, h5, -, h7⟩ := whole_run hF hc hs hw times ht xs hx
  rw [h0] at hn ⊢
  obtain ⟨j', t', hj, g1, g2, g3⟩ := prefix_run hF hc hs rows news hw.2.1 h4 h5 (n - 2) k times' ht' xs' hx'
  refine ⟨t, rows, news, t', h1, h2, h3, by rw [h7 n k hn]; exact g1, ?_, ?_⟩
  · refine List.IsPrefix.trans ?_ g2
    rw [List.prefix_append_right_inj]
    exact List.take_prefix_take_left hj
  · intro x hm
    refine ⟨(g3 x hm).1, fun hc => (g3 x hm).2 ?_⟩
    rw [List.map_append, List.mem_append] at hc ⊢
    refine hc.imp_right fun hc => ?_
    exact ((List.take_prefix_take_left hj).map _).subset hc

/-- A process that ended regularly and one that then died while it wrote. -/
example : Whole decimalFormat exampleConfig exampleSolver
    (crash (iterate decimalFormat exampleConfig exampleSolver exampleTimes (exampleSlots.take 1) [] none).ops 3 0 none) :=
  .run none _ _ 3 .none exampleTimes_good (fun x hx => exampleSlots_good x (List.mem_of_mem_take hx)) (by decide)

/-- A process that ends regularly leaves its results to the next one: asked for the same inputs, or for some of them, it
does not call the solver. -/
theorem again [DecidableEq V] (F : Format V) (hF : F.Good) (c : Config) (hc : c.Good)
    (solver : List V → List V) (hs : GoodSolver c solver) (file : Option Str) (h : Whole F c solver file)
    (times times' : ℕ → Str × Str × Str) (ht : GoodTimes times) (ht' : GoodTimes times')
    (xs xs' : List (Option (List V))) (hx : GoodSlots xs) (hx' : GoodSlots xs') (hsub : ∀ x, some x ∈ xs' → some x ∈ xs) :
    ∃ t t', (iterate F c solver times xs [] file).trace = some t ∧
      (iterate F c solver times' xs' [] ((iterate F c solver times xs [] file).ops.foldl Op.run file)).trace = some t' ∧
      t'.calls = [] ∧ t'.mem.rdf = t.mem.rdf := by
  obtain ⟨rows, hw⟩ := whole_inv hF hc hs h
  obtain ⟨h0, news, t, h1, h2, h3, h4, h5, h6, h7⟩ := whole_run hF hc hs hw times ht xs hx
  have hall : (iterate F c solver times xs [] file).ops.foldl Op.run file =
      crash (iterate F c solver times xs [] file).ops ((iterate F c solver times xs [] file).ops.length + 2 + news.length) 0 file := by
    unfold crash
    rw [List.take_of_length_le (by omega), List.getElem?_eq_none (by omega)]
  have hw' : WholeInv F c solver ((iterate F c solver times xs [] file).ops.foldl Op.run file) (rows ++ news) := by
    refine ⟨.inr ?_, ?_, h5⟩
    · rw [hall, h7 _ _ (by omega), flatten_map_flatMap, List.take_of_length_le (by omega)]
      simp
    · intro r hm
      rcases List.mem_append.1 hm with hm | hm
      exacts [hw.2.1 r hm, h4 r hm]
  obtain ⟨-, news', t', g1, g2, g3, -, -, g6, -⟩ := whole_run hF hc hs hw' times' ht' xs' hx'
  have hnil : t'.calls = [] := by
    rw [List.eq_nil_iff_forall_not_mem]
    intro x hm
    obtain ⟨ha, hb⟩ := (g6 x).1 hm
    rw [List.map_append, List.mem_append, not_or, ← h3] at hb
    exact hb.2 ((h6 x).2 ⟨hsub x ha, hb.1⟩)
  refine ⟨t, t', h1, g1, hnil, ?_⟩
  rw [hnil] at g3
  rw [g2, h2, List.map_eq_nil_iff.1 g3.symm, List.append_nil]

/-- A result that was written completely is computed again: one process dies when only the end of the line of its first
result is missing, the next one reads that result, writes the one of the second input and ends, and the third one, asked for
the same inputs, calls the solver for both of them. -/
theorem no_recompute_refuted :
    let F := decimalFormat; let c := exampleConfig; let s := exampleSolver; let ts := exampleTimes
    let xs : List (Option (List ℕ)) := [some [1, 2, 3], some [12, 0, 4]]
    let r1 := iterate F c s ts xs [] none
    let f1 := crash r1.ops 2 (rowText F ⟨0, [1, 2, 3], s [1, 2, 3], (ts 0).1, (ts 0).2.1, (ts 0).2.2⟩).dropLast.length none
    let r2 := iterate F c s ts xs [] f1
    let f2 := r2.ops.foldl Op.run f1
    let r3 := iterate F c s ts xs [] f2
    (r2.trace.map fun t => t.calls) = some [[12, 0, 4]] ∧
    (r2.trace.map fun t => t.mem.rdf.map fun r => r.inputs) = some [[1, 2, 3], [12, 0, 4]] ∧
    (r3.trace.map fun t => t.calls) = some [[1, 2, 3], [12, 0, 4]] := by decide +kernel

/-- All results are lost if a process dies after it has opened the file and before it has written back what it has read:
the file is empty then, and no process accepts it again. -/
theorem rewriting_refuted [DecidableEq V] (F : Format V) (hF : F.Good) (c : Config) (hc : c.Good)
    (solver : List V → List V) (hs : GoodSolver c solver) (file : Option Str) (h : Reachable F c solver file)
    (times times' : ℕ → Str × Str × Str) (xs xs' : List (Option (List V))) :
    crash (iterate F c solver times xs [] file).ops 1 0 file = some [] ∧
      (iterate F c solver times' xs' [] (some [])).trace = none ∧
      (iterate F c solver times' xs' [] (some [])).ops = [] := by
  obtain ⟨rows, tail, o, -, -, -, hp, -⟩ := prepare_inv hF hc (reachable_inv hF hc hs h)
  refine ⟨?_, rfl, rfl⟩
  unfold Run.ops iterate
  rw [hp]
  rfl

/-- A runner that is asked again in the same process, without a file or with a new one, has no results for what it has
computed before. -/
theorem second_call_refuted [DecidableEq V] (F : Format V) (c : Config) (solver : List V → List V)
    (times times' : ℕ → Str × Str × Str) (xs : List (Option (List V))) :
    (iterateNoFile F solver times' xs (iterateNoFile F solver times xs []).mem.pool).mem.rdf = [] ∧
    (iterateNoFile F solver times' xs (iterateNoFile F solver times xs []).mem.pool).calls = [] ∧
    ∃ t, (iterate F c solver times' xs (iterateNoFile F solver times xs []).mem.pool none).trace = some t ∧
      t.mem.rdf = [] := by
  have hpool : ∀ (xs : List (Option (List V))) (mem : Mem V), (∀ x ∈ mem.pool, x ∈ (loop F solver times xs mem).mem.pool) ∧
      ∀ x, some x ∈ xs → x ∈ (loop F solver times xs mem).mem.pool := by
    intro xs
    induction xs with
    | nil => intro mem; simp [loop]
    | cons o xs ih =>
      intro mem
      cases o with
      | none => simpa [loop] using ih mem
      | some y =>
        rw [loop]
        split_ifs with hy
        · refine ⟨(ih mem).1, fun x hm => ?_⟩
          rcases List.mem_cons.1 hm with hm | hm
          · cases hm; exact (ih mem).1 _ hy
          · exact (ih mem).2 x hm
        · dsimp only
          refine ⟨fun x hm => (ih _).1 x (by simp [hm]), fun x hm => ?_⟩
          rcases List.mem_cons.1 hm with hm | hm
          · cases hm; exact (ih _).1 _ (by simp)
          · exact (ih _).2 x hm
  have hskip : ∀ (xs : List (Option (List V))) (mem : Mem V), (∀ x, some x ∈ xs → x ∈ mem.pool) →
      (loop F solver times' xs mem).mem = mem ∧ (loop F solver times' xs mem).calls = [] := by
    intro xs
    induction xs with
    | nil => intro mem _; simp [loop]
    | cons o xs ih =>
      intro mem hm
      have := ih mem fun x hx => hm x (List.mem_cons_of_mem _ hx)
      cases o with
      | none => simpa [loop] using this
      | some y => rw [loop, if_pos (hm y List.mem_cons_self)]; exact this
  have h2 := (hpool xs ⟨[], []⟩).2
  refine ⟨?_, ?_, ?_⟩
  · unfold iterateNoFile; rw [(hskip xs ⟨[], _⟩ h2).1]
  · unfold iterateNoFile; rw [(hskip xs ⟨[], _⟩ h2).2]
  · refine ⟨_, rfl, ?_⟩
    rw [(hskip xs _ (fun x hx => List.mem_append_left _ (h2 x hx))).1]

/-- It has computed something. -/
example : (iterateNoFile decimalFormat exampleSolver exampleTimes exampleSlots []).mem.rdf.length = 3 := by decide +kernel

end Phyem.Runner
