import Verif.Runner.Rows

/-!
A runner that is started again goes on from its file.
-/

namespace Phyem.Runner

variable {V : Type}

/-! ### The loop -/

lemma right_nextIndex {solver : List V → List V} {rows : List (Row V)} (h : Right solver rows) :
    nextIndex rows = rows.length := by
  unfold nextIndex
  cases hl : rows.getLast? with
  | none => rw [List.getLast?_eq_none_iff] at hl; simp [hl]
  | some r =>
    dsimp only
    rw [List.getLast?_eq_getElem?] at hl
    have hi := h.index _ _ hl
    have : rows ≠ [] := by rintro rfl; simp at hl
    have := List.length_pos_of_ne_nil this
    omega

lemma right_append {solver : List V → List V} {rows : List (Row V)} (h : Right solver rows) (r : Row V)
    (hi : r.index = rows.length) (hn : r.inputs ∉ rows.map fun r => r.inputs) (ho : r.outputs = solver r.inputs) :
    Right solver (rows ++ [r]) := by
  refine ⟨fun i q hq => ?_, ?_, fun q hq => ?_⟩
  · rw [List.getElem?_append] at hq
    split_ifs at hq with hlt
    · exact h.index i q hq
    · obtain ⟨hlen, hq⟩ := List.getElem?_eq_some_iff.1 hq
      simp at hlen hq
      rw [← hq, hi]
      omega
  · rw [List.map_append, List.nodup_append]
    refine ⟨h.nodup, by simp, ?_⟩
    intro a ha b hb
    simp at hb
    subst hb
    rintro rfl
    exact hn ha
  · rcases List.mem_append.1 hq with hq | hq
    · exact h.outputs q hq
    · simp at hq; rw [hq]; exact ho

/-- An incomplete time is not a wrong result. -/
lemma right_congr {solver : List V → List V} {rows : List (Row V)} {r : Row V} (e : Str)
    (h : Right solver (rows ++ [r])) : Right solver (rows ++ [{ r with ert := e }]) := by
  refine ⟨fun i q hq => ?_, ?_, fun q hq => ?_⟩
  · rw [List.getElem?_append] at hq
    split_ifs at hq with hlt
    · exact h.index i q (by rw [List.getElem?_append, if_pos hlt]; exact hq)
    · obtain ⟨hlen, hq⟩ := List.getElem?_eq_some_iff.1 hq
      simp at hlen hq
      have := h.index rows.length r (by simp)
      rw [← hq]
      dsimp only
      omega
  · have := h.nodup
    simpa using this
  · rcases List.mem_append.1 hq with hq | hq
    · exact h.outputs q (by simp [hq])
    · simp at hq; rw [hq]; exact h.outputs r (by simp)

lemma loop_spec [DecidableEq V] (F : Format V) (c : Config) (solver : List V → List V) (hs : GoodSolver c solver)
    (times : ℕ → Str × Str × Str) (ht : GoodTimes times) (xs : List (Option (List V))) (hx : GoodSlots xs) (mem : Mem V)
    (hr : Right solver mem.rdf) (hp : ∀ x, x ∈ mem.pool ↔ x ∈ mem.rdf.map fun r => r.inputs) :
    ∃ news, (loop F solver times xs mem).mem.rdf = mem.rdf ++ news ∧
      (loop F solver times xs mem).ops = news.map (fun r => .write (rowText F r)) ∧
      (loop F solver times xs mem).calls = news.map (fun r => r.inputs) ∧
      (∀ r ∈ news, RowGood c.outputNames.length r) ∧ Right solver (mem.rdf ++ news) ∧
      (∀ x, x ∈ news.map (fun r => r.inputs) ↔ some x ∈ xs ∧ x ∉ mem.rdf.map fun r => r.inputs) ∧
      (news.map fun r => r.inputs).Sublist (xs.filterMap id) := by
  induction xs generalizing mem with
  | nil => exact ⟨[], by simp [loop], rfl, rfl, by simp, by simpa using hr, by simp, by simp⟩
  | cons o xs ih =>
    have hx' : GoodSlots xs := fun x hm => hx x (List.mem_cons_of_mem _ hm)
    cases o with
    | none =>
      obtain ⟨news, h1, h2, h3, h4, h5, h6, h7⟩ := ih hx' mem hr hp
      exact ⟨news, h1, h2, h3, h4, h5, fun x => by rw [h6]; simp, by simpa using h7⟩
    | some x =>
      by_cases hm : x ∈ mem.pool
      · obtain ⟨news, h1, h2, h3, h4, h5, h6, h7⟩ := ih hx' mem hr hp
        rw [loop, if_pos hm]
        refine ⟨news, h1, h2, h3, h4, h5, fun y => ?_, ?_⟩
        · rw [h6]
          constructor
          · rintro ⟨ha, hb⟩; exact ⟨List.mem_cons_of_mem _ ha, hb⟩
          · rintro ⟨ha, hb⟩
            rcases List.mem_cons.1 ha with ha | ha
            · cases ha; exact absurd ((hp x).1 hm) hb
            · exact ⟨ha, hb⟩
        · exact h7.trans (by simp)
      · rw [loop, if_neg hm]
        dsimp only
        rw [right_nextIndex hr]
        have hx3 := hx x List.mem_cons_self
        have hr' : Right solver (mem.rdf ++ [(⟨mem.rdf.length, x, solver x, (times mem.rdf.length).1,
            (times mem.rdf.length).2.1, (times mem.rdf.length).2.2⟩ : Row V)]) :=
          right_append hr _ rfl (fun h => hm ((hp x).2 h)) rfl
        obtain ⟨news, h1, h2, h3, h4, h5, h6, h7⟩ := ih hx' ⟨_, mem.pool ++ [x]⟩ hr' (fun y => by
          simp only [List.mem_append, hp, List.map_append, List.map_cons, List.map_nil])
        refine ⟨_ :: news, ?_, by rw [h2]; rfl, by rw [h3]; rfl, ?_, by simpa using h5, fun y => ?_, ?_⟩
        · rw [h1]; simp
        · intro r hrm
          rcases List.mem_cons.1 hrm with rfl | hrm
          · exact ⟨hx3, hs x hx3, (ht _).1, (ht _).2.1, (ht _).2.2⟩
          · exact h4 r hrm
        · rw [List.map_cons, List.mem_cons, h6]
          simp only [List.map_append, List.map_cons, List.map_nil, List.mem_append, List.mem_cons, List.not_mem_nil,
            or_false, not_or]
          have hxm : x ∉ mem.rdf.map fun r => r.inputs := fun h => hm ((hp x).2 h)
          by_cases hyx : y = x
          · subst hyx; simp only [true_or, true_iff]; exact ⟨trivial, hxm⟩
          · simp [hyx]
        · simpa using h7

/-! ### Files -/

/-- What a file that is left behind is like. -/
def FileInv (F : Format V) (c : Config) (solver : List V → List V) (file : Option Str) : Prop :=
  file = none ∨ ∃ rows tail o, file = some (head c ++ (rows.flatMap (rowText F) ++ tail)) ∧
    (∀ r ∈ rows, RowGood c.outputNames.length r) ∧ Tail F c.outputNames.length tail o ∧
    Right solver (rows ++ (o.map fun p => p.1).toList)

lemma right_nil (solver : List V → List V) : Right solver [] := ⟨by simp, by simp, by simp⟩

/-- The rows that are read, and the file before the loop. -/
lemma prepare_inv {F : Format V} (hF : F.Good) {c : Config} (hc : c.Good) {solver : List V → List V} {file : Option Str}
    (h : FileInv F c solver file) :
    ∃ rows tail o, (∀ r ∈ rows, RowGood c.outputNames.length r) ∧ Tail F c.outputNames.length tail o ∧
      Right solver (rows ++ (o.map fun p => p.1).toList) ∧
      prepare F c file = ([.openW, .write (head c ++ (rows.flatMap (rowText F) ++
        (o.map fun p => rowHead F p.1 ++ p.2).getD []))], some (rows ++ (o.map fun p => p.1).toList)) ∧
      ((file = none ∧ rows = [] ∧ tail = []) ∨ file = some (head c ++ (rows.flatMap (rowText F) ++ tail))) := by
  rcases h with rfl | ⟨rows, tail, o, rfl, hg, ht, hr⟩
  · exact ⟨[], [], none, by simp, .nil, by simpa using right_nil solver, by simp [prepare], .inl ⟨rfl, rfl, rfl⟩⟩
  · refine ⟨rows, tail, o, hg, ht, hr, ?_, .inr rfl⟩
    obtain ⟨hk, hl⟩ := kept_lines hF c hc rows hg tail o ht
    rw [prepare, readContents_head F c hc, readRows_tail hF rows hg tail o ht]
    dsimp only [Option.map_some]
    rw [hk, if_pos hl]

lemma crash_writes (before : List Op) (ws : List Str) (n k : ℕ) (file : Option Str) (f : Str)
    (hb : before.foldl Op.run file = some f) (hn : before.length ≤ n) :
    crash (before ++ ws.map .write) n k file =
      some (f ++ ((ws.take (n - before.length)).flatten ++ (ws.getD (n - before.length) []).take k)) := by
  have hw : ∀ (ws : List Str) (g : Str), (ws.map Op.write).foldl Op.run (some g) = some (g ++ ws.flatten) := by
    intro ws
    induction ws with
    | nil => simp
    | cons w ws ih => intro g; simp [Op.run, ih]
  unfold crash
  rw [List.take_append, List.take_of_length_le hn, List.foldl_append, hb, ← List.map_take, hw,
    List.getElem?_append_right hn, List.getElem?_map, List.getD_eq_getElem?_getD]
  cases ws[n - before.length]? with
  | none => simp
  | some w => simp [Op.run]

lemma flatten_map_flatMap (rows : List (Row V)) (F : Format V) (j : ℕ) :
    ((rows.map (rowText F)).take j).flatten = (rows.take j).flatMap (rowText F) := by
  rw [← List.map_take, List.flatMap_def]

lemma right_take {solver : List V → List V} {rows news : List (Row V)} (h : Right solver (rows ++ news)) :
    Right solver rows := by
  refine ⟨fun i r hi => h.index i r ?_, ?_, fun r hr => h.outputs r (by simp [hr])⟩
  · rw [List.getElem?_append, if_pos (List.getElem?_eq_some_iff.1 hi).1]; exact hi
  · have := h.nodup
    rw [List.map_append, List.nodup_append] at this
    exact this.1

lemma crash_prefix (texts : List Str) (j k : ℕ) :
    (texts.take j).flatten ++ (texts.getD j []).take k <+: texts.flatten := by
  rw [List.getD_eq_getElem?_getD]
  cases hj : texts[j]? with
  | none => simpa using (List.take_prefix j texts).flatten
  | some t =>
    obtain ⟨hlt, ht⟩ := List.getElem?_eq_some_iff.1 hj
    have e : texts.flatten = (texts.take j).flatten ++ (t ++ (texts.drop (j + 1)).flatten) := by
      conv_lhs => rw [← List.take_append_drop j texts, List.drop_eq_getElem_cons hlt, ht]
      simp
    rw [e, Option.getD_some, List.prefix_append_right_inj]
    exact (List.take_prefix k t).trans (List.prefix_append _ _)

/-- What a file that ends with a complete line, and new rows behind it, are like when the process dies. -/
lemma crash_complete {F : Format V} (hF : F.Good) {nout : ℕ} {solver : List V → List V} (rows news : List (Row V))
    (hn : ∀ r ∈ news, RowGood nout r) (hr : Right solver (rows ++ news)) (j k : ℕ) :
    ∃ j' tail o, j ≤ j' ∧ ((news.map (rowText F)).take j).flatten ++ ((news.map (rowText F)).getD j []).take k =
      (news.take j').flatMap (rowText F) ++ tail ∧ Tail F nout tail o ∧
      Right solver (rows ++ news.take j' ++ (o.map fun p => p.1).toList) := by
  rw [flatten_map_flatMap, List.getD_eq_getElem?_getD, List.getElem?_map]
  have hr' : ∀ i, Right solver (rows ++ news.take i) := fun i => by
    have e : rows ++ news = (rows ++ news.take i) ++ news.drop i := by rw [List.append_assoc, List.take_append_drop]
    rw [e] at hr
    exact right_take hr
  cases hj : news[j]? with
  | none => exact ⟨j, [], none, le_rfl, by simp, .nil, by simpa using hr' j⟩
  | some r =>
    have hrg := hn r (List.mem_of_getElem? hj)
    obtain ⟨hlt, hjr⟩ := List.getElem?_eq_some_iff.1 hj
    have hsucc : news.take (j + 1) = news.take j ++ [r] := by rw [List.take_succ, hj]; rfl
    rw [Option.map_some, Option.getD_some]
    by_cases hk : (rowText F r).length ≤ k
    · refine ⟨j + 1, [], none, by omega, ?_, .nil, by simpa using hr' (j + 1)⟩
      rw [List.take_of_length_le hk, hsucc]
      simp
    · have hp : (rowText F r).take k <+: rowHead F r ++ pad 13 r.ert := by
        have e : rowText F r = (rowHead F r ++ pad 13 r.ert) ++ ['\n'] := rfl
        have hl : k ≤ (rowHead F r ++ pad 13 r.ert).length := by
          rw [e] at hk
          simp only [List.length_append, List.length_cons, List.length_nil] at hk ⊢
          omega
        rw [e, List.take_append_of_le_length hl]
        exact List.take_prefix _ _
      obtain ⟨o, ho, hx⟩ := begun_tail hF hrg _ hp
      refine ⟨j, _, o, le_rfl, rfl, ho, ?_⟩
      cases o with
      | none => simpa using hr' j
      | some x =>
        obtain ⟨e, he⟩ := hx x rfl
        have h1 := hr' (j + 1)
        rw [hsucc, ← List.append_assoc] at h1
        simpa [he] using right_congr e h1

lemma iterate_inv [DecidableEq V] {F : Format V} (hF : F.Good) {c : Config} (hc : c.Good) {solver : List V → List V}
    (hs : GoodSolver c solver) {file : Option Str} (h : FileInv F c solver file) (times : ℕ → Str × Str × Str)
    (ht : GoodTimes times) (xs : List (Option (List V))) (hx : GoodSlots xs) (n k : ℕ)
    (hn : (iterate F c solver times xs [] file).before.length ≤ n) :
    FileInv F c solver (crash (iterate F c solver times xs [] file).ops n k file) := by
  obtain ⟨rows, tail, o, hg, htl, hr, hp, -⟩ := prepare_inv hF hc h
  obtain ⟨news, -, h2, -, h4, h5, -, -⟩ := loop_spec F c solver hs times ht xs hx
    ⟨rows ++ (o.map fun p => p.1).toList, [] ++ (rows ++ (o.map fun p => p.1).toList).map fun r => r.inputs⟩ hr (by simp)
  dsimp only at h5
  right
  unfold Run.ops
  unfold iterate at hn ⊢
  rw [hp] at hn ⊢
  dsimp only [Option.map_some, Option.getD_some] at hn ⊢
  have h2' : ∀ l : List (Row V), l.map (fun r => Op.write (rowText F r)) = (l.map (rowText F)).map Op.write := by simp
  rw [h2, h2', crash_writes _ _ n k file _ rfl hn]
  cases htl with
  | nil =>
    obtain ⟨j', tail, o, -, e, ho, hr'⟩ := crash_complete hF _ news h4 h5 (n - 2) k
    refine ⟨rows ++ news.take j', tail, o, ?_, ?_, ho, by simpa using hr'⟩
    · simp only [List.length_cons, List.length_nil]
      rw [e]; simp [Op.run]
    · intro r hm
      rcases List.mem_append.1 hm with hm | hm
      exacts [hg r hm, h4 r (List.mem_of_mem_take hm)]
  | broken _ l ls hl hne =>
    obtain ⟨j', tail, o, -, e, ho, hr'⟩ := crash_complete hF _ news h4 h5 (n - 2) k
    refine ⟨rows ++ news.take j', tail, o, ?_, ?_, ho, by simpa using hr'⟩
    · simp only [List.length_cons, List.length_nil]
      rw [e]; simp [Op.run]
    · intro r hm
      rcases List.mem_append.1 hm with hm | hm
      exacts [hg r hm, h4 r (List.mem_of_mem_take hm)]
  | «open» r q e hrg hq he =>
    have hpre := crash_prefix (news.map (rowText F)) (n - 2) k
    rw [← List.flatMap_def] at hpre
    obtain ⟨o, ho, hxo⟩ := glued_tail hF hrg q e hq he news h4 _ hpre
    refine ⟨rows, _, o, ?_, hg, ho, ?_⟩
    · simp [rowHead, Op.run]
    · cases o with
      | none => simpa using right_take hr
      | some x =>
        obtain ⟨e', he'⟩ := hxo x rfl
        have := right_congr e' hr
        simpa [he'] using this

lemma reachable_inv [DecidableEq V] {F : Format V} (hF : F.Good) {c : Config} (hc : c.Good) {solver : List V → List V}
    (hs : GoodSolver c solver) {file : Option Str} (h : Reachable F c solver file) : FileInv F c solver file := by
  induction h with
  | none => exact .inl rfl
  | run file times xs n k _ ht hx hn ih => exact iterate_inv hF hc hs ih times ht xs hx n k hn

end Phyem.Runner
