import Verif.Runner.Resume
import Verif.Runner.Example

/-!
Reading a file of results without the runner that wrote it.
-/

namespace Phyem.Runner

variable {V : Type}

/-- A name without commas and quotes. -/
def Name (n : Str) : Prop := ',' ∉ n ∧ '\'' ∉ n

lemma commas_char (c : Char) (s l : Str) (ls : List Str) (hc : c ≠ ',') (h : commas s = l :: ls) :
    commas (c :: s) = (c :: l) :: ls := by
  rw [commas.eq_3, h]
  rintro s' rfl
  simp at hc

lemma commas_name (n : Str) (h : ',' ∉ n) (s l : Str) (ls : List Str) (hs : commas s = l :: ls) :
    commas (n ++ s) = (n ++ l) :: ls := by
  induction n with
  | nil => exact hs
  | cons c n ih =>
    rw [List.mem_cons, not_or] at h
    exact commas_char c _ _ _ (Ne.symm h.1) (ih h.2)

lemma commas_names (n : Str) (ns : List Str) (h : ∀ m ∈ n :: ns, ',' ∉ m) :
    commas (n ++ ns.flatMap fun m => [',', ' '] ++ m) = n :: ns := by
  induction ns generalizing n with
  | nil =>
    have := commas_name n (h n (by simp)) [] [] [] rfl
    simpa using this
  | cons m ns ih =>
    have h1 : commas ([',', ' '] ++ m ++ ns.flatMap fun m => [',', ' '] ++ m) = [] :: m :: ns := by
      simp only [List.cons_append, List.nil_append, List.append_assoc]
      rw [commas.eq_2]
      have := ih m fun k hk => h k (List.mem_cons_of_mem _ hk)
      simp only [List.cons_append, List.nil_append] at this
      rw [this]
    have := commas_name n (h n (by simp)) _ _ _ h1
    simpa using this

lemma filter_name (n : Str) (h : '\'' ∉ n) : n.filter (fun c => c ≠ '\'') = n := by
  rw [List.filter_eq_self]
  intro c hc
  simp only [ne_eq, decide_eq_true_eq]
  rintro rfl
  exact h hc

lemma filter_names (ns : List Str) (h : ∀ m ∈ ns, '\'' ∉ m) :
    (ns.flatMap (fun m => ['\'', ',', ' ', '\''] ++ m)).filter (fun c => c ≠ '\'') =
      ns.flatMap fun m => [',', ' '] ++ m := by
  induction ns with
  | nil => rfl
  | cons m ns ih =>
    rw [List.flatMap_cons, List.filter_append, List.filter_append, ih fun k hk => h k (List.mem_cons_of_mem _ hk),
      filter_name m (h m List.mem_cons_self)]
    rfl

/-- What is between the brackets. -/
lemma between (t mid : Str) (n : ℕ) (hn : n = t.length) :
    (((t ++ (mid ++ [')', '\n'])).drop n).take ((t ++ (mid ++ [')', '\n'])).length - 2 - n)) = mid := by
  subst hn
  rw [List.drop_left' rfl, List.take_left']
  simp
  omega

/-- The names in a line of the head. -/
lemma readNames_many (t : Str) (n m : Str) (ns : List Str) (h : ∀ k ∈ n :: m :: ns, Name k) :
    readNames (t.length + 1) (t ++ tupleText (n :: m :: ns) ++ ['\n']) = n :: m :: ns := by
  have e : t ++ tupleText (n :: m :: ns) ++ ['\n'] = (t ++ ['(']) ++ ((['\''] ++ n ++ (m :: ns).flatMap (fun m =>
      ['\'', ',', ' ', '\''] ++ m) ++ ['\'']) ++ [')', '\n']) := by
    simp [tupleText]
  unfold readNames
  rw [e, between _ _ _ (by simp), List.filter_append, List.filter_append, List.filter_append, filter_name n (h n (by simp)).2,
    filter_names _ fun k hk => (h k (List.mem_cons_of_mem _ hk)).2]
  have := commas_names n (m :: ns) fun k hk => (h k hk).1
  simpa using this

lemma readNames_one (t : Str) (n : Str) (h : Name n) :
    readNames (t.length + 1) (t ++ tupleText [n] ++ ['\n']) = [n ++ [',']] := by
  have e : t ++ tupleText [n] ++ ['\n'] = (t ++ ['(']) ++ ((['\''] ++ n ++ ['\'', ',']) ++ [')', '\n']) := by
    simp [tupleText]
  unfold readNames
  rw [e, between _ _ _ (by simp), List.filter_append, List.filter_append, filter_name n h.2]
  have := commas_name n h.1 [','] [','] [] (by decide)
  simpa using this

/-! ### The head -/

lemma scanNames_plain (i : ℕ) (l : Str) (ls : List Str) (ns : List Str × List Str) (h : Plain l) :
    scanNames i ((l ++ ['\n']) :: ls) ns = scanNames (i + 1) ls ns := by
  rw [scanNames]
  simp [plain_line h (tag := tagInput) (by simp), plain_line h (tag := tagCriterion) (by simp),
    plain_line h (tag := tagOutput) (by simp), plain_line h (tag := tagKwargs) (by simp),
    plain_line h (tag := tagResults) (by simp)]

lemma scanNames_plains (i : ℕ) (ls ms : List Str) (ns : List Str × List Str) (h : ∀ l ∈ ls, Plain l) :
    scanNames i (ls.map (fun l => l ++ ['\n']) ++ ms) ns = scanNames (i + ls.length) ms ns := by
  induction ls generalizing i with
  | nil => rfl
  | cons l ls ih =>
    rw [List.map_cons, List.cons_append, scanNames_plain i l _ _ (h l List.mem_cons_self),
      ih _ fun m hm => h m (List.mem_cons_of_mem _ hm), List.length_cons]
    congr 1
    omega

lemma scanNames_last (c : Config) (i : ℕ) (ms : List Str) (ns : List Str × List Str) :
    scanNames i ((lastLines c).map (fun l => l ++ ['\n']) ++ ms) ns =
      some (i + 10, readNames 17 (tagInput ++ colon ++ tupleText c.inputNames ++ ['\n']),
        readNames 18 (tagOutput ++ colon ++ tupleText c.outputNames ++ ['\n'])) := by
  have pl : ∀ l : Str, (∀ tag ∈ [tagInput, tagCriterion, tagOutput, tagKwargs, tagResults], tag.isPrefixOf l = false) →
      ∀ (j : ℕ) ls ns, scanNames j ((l ++ ['\n']) :: ls) ns = scanNames (j + 1) ls ns :=
    fun l h j ls ns => scanNames_plain j l ls ns (plain_of h)
  unfold lastLines
  simp only [List.map_cons, List.map_nil, List.append_assoc, List.cons_append, List.nil_append]
  have p1 := pl [] (by decide) i
  rw [List.nil_append] at p1
  rw [p1]
  rw [scanNames, if_pos (prefix_self _ _)]
  rw [scanNames, if_neg (ne_true (show tagInput.isPrefixOf (tagCriterion ++ _) = false from rfl)),
    if_pos (prefix_self _ _)]
  rw [scanNames, if_neg (ne_true (show tagInput.isPrefixOf (tagOutput ++ _) = false from rfl)),
    if_neg (ne_true (show tagCriterion.isPrefixOf (tagOutput ++ _) = false from rfl)),
    if_pos (prefix_self _ _)]
  rw [scanNames, if_neg (ne_true (show tagInput.isPrefixOf (tagKwargs ++ _) = false from rfl)),
    if_neg (ne_true (show tagCriterion.isPrefixOf (tagKwargs ++ _) = false from rfl)),
    if_neg (ne_true (show tagOutput.isPrefixOf (tagKwargs ++ _) = false from rfl)),
    if_pos (prefix_self _ _)]
  have p3 := pl (['<', 'I', 'N', 'F', 'O', '>'] ++ colon ++ c.info) (by
    intro tag ht; simp only [List.mem_cons, List.not_mem_nil, or_false] at ht
    rcases ht with rfl | rfl | rfl | rfl | rfl <;> rfl) (i + 1 + 1 + 1 + 1 + 1)
  simp only [List.append_assoc, List.cons_append, List.nil_append] at p3
  rw [p3]
  have p2 := pl [] (by decide) (i + 1 + 1 + 1 + 1 + 1 + 1)
  rw [List.nil_append] at p2
  rw [p2]
  rw [scanNames, if_neg (ne_true (show tagInput.isPrefixOf (tagResults ++ _) = false from rfl)),
    if_neg (ne_true (show tagCriterion.isPrefixOf (tagResults ++ _) = false from rfl)),
    if_neg (ne_true (show tagOutput.isPrefixOf (tagResults ++ _) = false from rfl)),
    if_neg (ne_true (show tagKwargs.isPrefixOf (tagResults ++ _) = false from rfl)),
    if_pos (prefix_self _ _)]

lemma scanNames_head (c : Config) (h : c.Good) (ms : List Str) (ns : List Str × List Str) :
    scanNames 0 ((headLines c).map (fun l => l ++ ['\n']) ++ ms) ns =
      some ((headLines c).length, readNames 17 (tagInput ++ colon ++ tupleText c.inputNames ++ ['\n']),
        readNames 18 (tagOutput ++ colon ++ tupleText c.outputNames ++ ['\n'])) := by
  obtain ⟨rest, -, e⟩ := headLines_split c
  have hl := headLines_length c
  have h7 : ((headLines c).take 7).length = 7 := by simp [headLines]
  rw [e, List.map_append, List.map_append, List.map_append, List.append_assoc, List.append_assoc, List.append_assoc,
    scanNames_plains 0 _ _ _ (before_plain c h), scanNames_plains _ _ _ _ (fun l hl => h.plain l (by simp [hl])),
    scanNames_last, ← e, h7, hl]
  congr 2
  omega

lemma readFile_head (F : Format V) (c : Config) (h : c.Good) (hi : ∀ n ∈ c.inputNames, Name n) (s : Str) (out : List Str)
    (ho : readNames 18 (tagOutput ++ colon ++ tupleText c.outputNames ++ ['\n']) = out) :
    readFile F (head c ++ s) = (readRows F 3 out.length (lines s)).map fun rows => (c.inputNames, out, rows) := by
  have hin : readNames 17 (tagInput ++ colon ++ tupleText c.inputNames ++ ['\n']) = c.inputNames := by
    obtain ⟨a, b, d, e⟩ := List.length_eq_three.1 h.three
    have := readNames_many (tagInput ++ colon) a b [d] (by rw [← e]; exact hi)
    rw [e]
    exact this
  have hs := scanNames_head c h (lines s) ([], [])
  rw [hin, ho] at hs
  have hm : tagResults ++ colon ++ ['\n'] ∈ (headLines c).map (fun l => l ++ ['\n']) ++ lines s := by
    rw [List.mem_append]
    left
    rw [List.mem_map]
    exact ⟨tagResults ++ colon, by simp [headLines], rfl⟩
  have hl := lines_head c h s
  have hd : ((headLines c).map (fun l => l ++ ['\n']) ++ lines s).drop (headLines c).length = lines s := by
    rw [List.drop_left']; simp
  unfold readFile
  simp only [hl]
  have h0 : ∃ ls, (headLines c).map (fun l => l ++ ['\n']) ++ lines s =
      (['<'] ++ tagRunner ++ ['>', '-', '<'] ++ className ++ (['>', '-', '<', 't', 'a', 's', 'k', ' ', 'n', 'a', 'm', 'e', ':', ' ']
      ++ c.task ++ ['>'] ++ ['\n'])) :: ls := by
    unfold headLines
    simp only [List.cons_append, List.map_cons]
    exact ⟨_, by simp [List.append_assoc]; rfl⟩
  obtain ⟨ls, h0⟩ := h0
  rw [h0] at hm hs hd ⊢
  dsimp only
  rw [if_pos (by rfl), if_pos ⟨_, _, rfl⟩, if_pos hm, hs, Option.bind_some]
  dsimp only
  rw [hd, h.three]

/-- A file that is there, whatever happened while results were written, is read with the names of the inputs and of the
outputs, if there are at least two outputs, and with the results that a new process would start with, which are right. -/
theorem read_file_partial [DecidableEq V] (F : Format V) (hF : F.Good) (c : Config) (hc : c.Good)
    (hi : ∀ n ∈ c.inputNames, Name n) (ho : ∀ n ∈ c.outputNames, Name n) (h2 : 2 ≤ c.outputNames.length)
    (solver : List V → List V) (hs : GoodSolver c solver) (text : Str) (h : Reachable F c solver (some text))
    (times : ℕ → Str × Str × Str) :
    ∃ rows, readFile F text = some (c.inputNames, c.outputNames, rows) ∧ Right solver rows ∧
      ∃ t, (iterate F c solver times [] [] (some text)).trace = some t ∧ t.mem.rdf = rows := by
  obtain ⟨rows, tail, o, hg, htl, hr, hp, hf⟩ := prepare_inv hF hc (reachable_inv hF hc hs h)
  rcases hf with ⟨hf, -⟩ | hf
  · cases hf
  · cases hf
    have hout : readNames 18 (tagOutput ++ colon ++ tupleText c.outputNames ++ ['\n']) = c.outputNames := by
      match hn : c.outputNames, h2 with
      | n :: m :: ns, _ =>
        rw [hn] at ho
        exact readNames_many (tagOutput ++ colon) n m ns ho
    refine ⟨rows ++ (o.map fun p => p.1).toList, ?_, hr, ?_⟩
    · rw [readFile_head F c hc hi _ _ hout, readRows_tail hF rows hg tail o htl]
      rfl
    · unfold iterate; rw [hp]; exact ⟨_, rfl, rfl⟩

/-- With one output, its name is not what it was: a comma is added to it. -/
theorem read_file_refuted [DecidableEq V] (F : Format V) (hF : F.Good) (c : Config) (hc : c.Good)
    (hi : ∀ n ∈ c.inputNames, Name n) (n : Str) (hn : Name n) (h1 : c.outputNames = [n])
    (solver : List V → List V) (hs : GoodSolver c solver) (text : Str) (h : Reachable F c solver (some text)) :
    ∃ rows, readFile F text = some (c.inputNames, [n ++ [',']], rows) ∧ Right solver rows ∧ [n ++ [',']] ≠ c.outputNames := by
  obtain ⟨rows, tail, o, hg, htl, hr, hp, hf⟩ := prepare_inv hF hc (reachable_inv hF hc hs h)
  rcases hf with ⟨hf, -⟩ | hf
  · cases hf
  · cases hf
    have hout : readNames 18 (tagOutput ++ colon ++ tupleText c.outputNames ++ ['\n']) = [n ++ [',']] := by
      rw [h1]
      exact readNames_one (tagOutput ++ colon) n hn
    refine ⟨rows ++ (o.map fun p => p.1).toList, ?_, hr, by rw [h1]; simp⟩
    rw [readFile_head F c hc hi _ _ hout]
    have := readRows_tail hF rows hg tail o htl
    rw [h1] at this
    rw [show [n ++ [',']].length = [n].length from rfl, this]
    rfl

/-- The names of the example are names. -/
example : (∀ n ∈ exampleConfig.inputNames, Name n) ∧ (∀ n ∈ exampleConfig.outputNames, Name n) ∧
    2 ≤ exampleConfig.outputNames.length := by
  unfold Name
  decide

/-- The results of the example, when the process died in the second row. -/
example : (readFile decimalFormat
    ((crash (iterate decimalFormat exampleConfig exampleSolver exampleTimes exampleSlots [] none).ops 3 30 none).getD [])).map
      (fun r => (r.1, r.2.1, r.2.2.map fun q => (q.inputs, q.outputs))) =
    some ([['a'], ['b'], ['c']], [['p'], ['q']], [([1, 2, 3], [6, 13])]) := by decide +kernel

end Phyem.Runner
