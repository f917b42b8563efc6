import Verif.Runner.Lemmas

/-!
The head of the file is accepted by the runner that wrote it.
-/

namespace Phyem.Runner

lemma tag_no_newline : ∀ tag ∈ [tagInput, tagCriterion, tagOutput, tagKwargs, tagResults], '\n' ∉ tag := by decide

lemma plain_line {l : Str} (h : Plain l) {tag : Str}
    (ht : tag ∈ [tagInput, tagCriterion, tagOutput, tagKwargs, tagResults]) : tag.isPrefixOf (l ++ ['\n']) = false := by
  rw [Bool.eq_false_iff]
  intro hp
  rw [List.isPrefixOf_iff_prefix, List.prefix_concat_iff] at hp
  rcases hp with rfl | hp
  · exact tag_no_newline _ ht (by simp)
  · exact h tag ht hp

lemma scan_plain (c : Config) (i : ℕ) (l : Str) (ls : List Str) (h : Plain l) :
    scan c i ((l ++ ['\n']) :: ls) = scan c (i + 1) ls := by
  rw [scan]
  simp [plain_line h (tag := tagInput) (by simp), plain_line h (tag := tagCriterion) (by simp),
    plain_line h (tag := tagOutput) (by simp), plain_line h (tag := tagKwargs) (by simp),
    plain_line h (tag := tagResults) (by simp)]

lemma scan_plains (c : Config) (i : ℕ) (ls ms : List Str) (h : ∀ l ∈ ls, Plain l) :
    scan c i (ls.map (fun l => l ++ ['\n']) ++ ms) = scan c (i + ls.length) ms := by
  induction ls generalizing i with
  | nil => rfl
  | cons l ls ih =>
    rw [List.map_cons, List.cons_append, scan_plain c i l _ (h l List.mem_cons_self),
      ih _ fun m hm => h m (List.mem_cons_of_mem _ hm), List.length_cons]
    congr 1
    omega

lemma not_prefix {a b : Str} (h : a.isPrefixOf b = false) : ¬ a <+: b := by
  rw [← List.isPrefixOf_iff_prefix, h]; simp

lemma plain_of {l : Str} (h : ∀ tag ∈ [tagInput, tagCriterion, tagOutput, tagKwargs, tagResults], tag.isPrefixOf l = false) :
    Plain l := fun tag ht => not_prefix (h tag ht)

/-- The lines before the source code. -/
lemma before_plain (c : Config) (h : c.Good) : ∀ l ∈ (headLines c).take 7, Plain l := by
  intro l hl
  unfold headLines at hl
  simp only [List.cons_append, List.nil_append, List.take_succ_cons, List.take_zero, List.mem_cons, List.not_mem_nil,
    or_false] at hl
  rcases hl with rfl | rfl | rfl | rfl | rfl | rfl | rfl
  · apply plain_of; intro tag ht; simp only [List.mem_cons, List.not_mem_nil, or_false] at ht
    rcases ht with rfl | rfl | rfl | rfl | rfl <;> rfl
  · exact h.plain _ (by simp)
  · apply plain_of; intro tag ht; simp only [List.mem_cons, List.not_mem_nil, or_false] at ht
    rcases ht with rfl | rfl | rfl | rfl | rfl <;> rfl
  · apply plain_of; intro tag ht; simp only [List.mem_cons, List.not_mem_nil, or_false] at ht
    rcases ht with rfl | rfl | rfl | rfl | rfl <;> rfl
  · exact h.plain _ (by simp)
  · apply plain_of; intro tag ht; simp only [List.mem_cons, List.not_mem_nil, or_false] at ht
    rcases ht with rfl | rfl | rfl | rfl | rfl <;> rfl
  · apply plain_of; intro tag ht; simp only [List.mem_cons, List.not_mem_nil, or_false] at ht
    rcases ht with rfl | rfl | rfl | rfl | rfl <;> rfl

/-- The lines after the source code, but for the last two. -/
def lastLines (c : Config) : List Str :=
  [[], tagInput ++ colon ++ tupleText c.inputNames, tagCriterion ++ colon ++ c.criterion,
    tagOutput ++ colon ++ tupleText c.outputNames, tagKwargs ++ colon ++ c.kwargs,
    ['<', 'I', 'N', 'F', 'O', '>'] ++ colon ++ c.info, [], tagResults ++ colon]

lemma headLines_split (c : Config) : ∃ rest, rest.length = 2 ∧
    headLines c = (headLines c).take 7 ++ (c.source ++ (lastLines c ++ rest)) := by
  refine ⟨(headLines c).drop (c.source.length + 15), by simp [headLines], ?_⟩
  have : (headLines c).drop 7 = c.source ++ (lastLines c ++ (headLines c).drop (c.source.length + 15)) := by
    have e : (headLines c).drop (c.source.length + 15) = ((headLines c).drop 7).drop (c.source.length + 8) := by
      rw [List.drop_drop]; congr 1; omega
    rw [e]
    have e2 : ∃ a b, (headLines c).drop 7 = c.source ++ (lastLines c ++ [a, b]) := ⟨_, _, rfl⟩
    obtain ⟨a, b, e2⟩ := e2
    rw [e2, ← List.drop_drop, List.drop_left' rfl, show 8 = (lastLines c).length from rfl,
      List.drop_left' rfl]
  rw [← this, List.take_append_drop]

lemma headLines_length (c : Config) : (headLines c).length = c.source.length + 17 := by
  simp [headLines]

lemma prefix_self (a b : Str) : a.isPrefixOf (a ++ b) = true := by
  rw [List.isPrefixOf_iff_prefix]; exact List.prefix_append a b

lemma ne_true {b : Bool} (h : b = false) : ¬ b = true := by simp [h]

lemma scan_last (c : Config) (i : ℕ) (ms : List Str) :
    scan c i ((lastLines c).map (fun l => l ++ ['\n']) ++ ms) = some (i + 10) := by
  have pl : ∀ l : Str, (∀ tag ∈ [tagInput, tagCriterion, tagOutput, tagKwargs, tagResults], tag.isPrefixOf l = false) →
      ∀ (j : ℕ) ls, scan c j ((l ++ ['\n']) :: ls) = scan c (j + 1) ls := fun l h j ls => scan_plain c j l ls (plain_of h)
  unfold lastLines
  simp only [List.map_cons, List.map_nil, List.append_assoc, List.cons_append, List.nil_append]
  have p1 := pl [] (by decide) i
  rw [List.nil_append] at p1
  rw [p1]
  rw [scan, if_pos (prefix_self _ _), if_pos (by simp)]
  rw [scan, if_neg (ne_true (show tagInput.isPrefixOf (tagCriterion ++ _) = false from rfl)),
    if_pos (prefix_self _ _), if_pos (by simp)]
  rw [scan, if_neg (ne_true (show tagInput.isPrefixOf (tagOutput ++ _) = false from rfl)),
    if_neg (ne_true (show tagCriterion.isPrefixOf (tagOutput ++ _) = false from rfl)),
    if_pos (prefix_self _ _), if_pos (by simp)]
  rw [scan, if_neg (ne_true (show tagInput.isPrefixOf (tagKwargs ++ _) = false from rfl)),
    if_neg (ne_true (show tagCriterion.isPrefixOf (tagKwargs ++ _) = false from rfl)),
    if_neg (ne_true (show tagOutput.isPrefixOf (tagKwargs ++ _) = false from rfl)),
    if_pos (prefix_self _ _)]
  have p3 := pl (['<', 'I', 'N', 'F', 'O', '>'] ++ colon ++ c.info) (by
    intro tag ht; simp only [List.mem_cons, List.not_mem_nil, or_false] at ht
    rcases ht with rfl | rfl | rfl | rfl | rfl <;> rfl) (i + 1 + 1 + 1 + 1 + 1)
  simp only [List.append_assoc, List.cons_append, List.nil_append] at p3
  rw [p3]
  have p2 := pl [] (by decide) (i + 1 + 1 + 1 + 1 + 1 + 1)
  rw [List.nil_append] at p2
  rw [p2]
  rw [scan, if_neg (ne_true (show tagInput.isPrefixOf (tagResults ++ _) = false from rfl)),
    if_neg (ne_true (show tagCriterion.isPrefixOf (tagResults ++ _) = false from rfl)),
    if_neg (ne_true (show tagOutput.isPrefixOf (tagResults ++ _) = false from rfl)),
    if_neg (ne_true (show tagKwargs.isPrefixOf (tagResults ++ _) = false from rfl)),
    if_pos (prefix_self _ _)]

lemma scan_head (c : Config) (h : c.Good) (ms : List Str) :
    scan c 0 ((headLines c).map (fun l => l ++ ['\n']) ++ ms) = some (headLines c).length := by
  obtain ⟨rest, -, e⟩ := headLines_split c
  have hl := headLines_length c
  have h7 : ((headLines c).take 7).length = 7 := by simp [headLines]
  rw [e, List.map_append, List.map_append, List.map_append, List.append_assoc, List.append_assoc, List.append_assoc,
    scan_plains c 0 _ _ (before_plain c h), scan_plains c _ _ _ (fun l hl => h.plain l (by simp [hl])), scan_last, ← e, h7, hl]
  congr 1
  omega

lemma no_newline_append {a b : Str} (ha : '\n' ∉ a) (hb : '\n' ∉ b) : '\n' ∉ a ++ b := by
  rw [List.mem_append, not_or]; exact ⟨ha, hb⟩

lemma no_newline_flatMap {l : List Str} {f : Str → Str} (h : ∀ a ∈ l, '\n' ∉ f a) : '\n' ∉ l.flatMap f := by
  rw [List.mem_flatMap]; rintro ⟨a, ha, hn⟩; exact h a ha hn

lemma no_newline_replicate (n : ℕ) (c : Char) (h : c ≠ '\n') : '\n' ∉ List.replicate n c := by
  intro hm; exact h (List.eq_of_mem_replicate hm).symm

lemma no_newline_pad (n : ℕ) {t : Str} (h : '\n' ∉ t) : '\n' ∉ pad n t :=
  no_newline_append h (no_newline_replicate _ _ (by decide))

lemma no_newline_tuple (ns : List Str) (h : ∀ n ∈ ns, '\n' ∉ n) : '\n' ∉ tupleText ns := by
  match ns with
  | [] => decide
  | [n] =>
    exact no_newline_append (no_newline_append (by decide) (h n (by simp))) (by decide)
  | n :: m :: ns =>
    refine no_newline_append (no_newline_append (no_newline_append (by decide) (h n (by simp)))
      (no_newline_flatMap fun a ha => no_newline_append (by decide) (h a (List.mem_cons_of_mem _ ha)))) (by decide)

lemma head_no_newline (c : Config) (h : c.Good) : ∀ l ∈ headLines c, '\n' ∉ l := by
  intro l hl
  have g : ∀ t ∈ [c.task, c.time, c.dir, c.solverDir, c.criterion, c.kwargs, c.info] ++ c.source ++ c.inputNames ++ c.outputNames,
    '\n' ∉ t := h.lines
  have gi : ∀ t ∈ c.inputNames, '\n' ∉ t := fun t ht => g t (by simp [ht])
  have go : ∀ t ∈ c.outputNames, '\n' ∉ t := fun t ht => g t (by simp [ht])
  unfold headLines at hl
  rw [List.mem_append, List.mem_append] at hl
  rcases hl with (hl | hl) | hl
  · simp only [List.mem_cons, List.not_mem_nil, or_false] at hl
    rcases hl with rfl | rfl | rfl | rfl | rfl | rfl | rfl
    · exact no_newline_append (no_newline_append (by decide) (g _ (by simp))) (by decide)
    · exact g _ (by simp)
    · exact no_newline_append (by decide) (g _ (by simp))
    · decide
    · exact g _ (by simp)
    · decide
    · decide
  · exact g l (by simp [hl])
  · simp only [List.mem_cons, List.not_mem_nil, or_false] at hl
    rcases hl with rfl | rfl | rfl | rfl | rfl | rfl | rfl | rfl | rfl | rfl
    · decide
    · exact no_newline_append (by decide) (no_newline_tuple _ gi)
    · exact no_newline_append (by decide) (g _ (by simp))
    · exact no_newline_append (by decide) (no_newline_tuple _ go)
    · exact no_newline_append (by decide) (g _ (by simp))
    · exact no_newline_append (by decide) (g _ (by simp))
    · decide
    · decide
    · refine no_newline_append (no_newline_append (no_newline_append (no_newline_append (no_newline_append
        (no_newline_append (no_newline_append (no_newline_pad _ (by decide)) (no_newline_flatMap fun a ha =>
          no_newline_pad _ ?_)) (by decide)) ?_) (by decide)) ?_) (by decide)) ?_
      · rcases List.mem_append.1 ha with ha | ha
        exacts [gi a ha, go a ha]
      all_goals exact no_newline_replicate _ _ (by decide)
    · exact no_newline_append (no_newline_append (no_newline_replicate _ _ (by decide)) (by decide))
        (no_newline_replicate _ _ (by decide))

lemma lines_head (c : Config) (h : c.Good) (s : Str) :
    lines (head c ++ s) = (headLines c).map (fun l => l ++ ['\n']) ++ lines s :=
  lines_lines _ _ (head_no_newline c h)

/-- What is read after the head is what is read from the lines after it. -/
lemma readContents_head {V : Type} (F : Format V) (c : Config) (h : c.Good) (s : Str) :
    readContents F c (head c ++ s) = (readRows F 3 c.outputNames.length (lines s)).map fun rows =>
      ((headLines c).length + rows.length, rows) := by
  have hs := scan_head c h (lines s)
  have hm : tagResults ++ colon ++ ['\n'] ∈ (headLines c).map (fun l => l ++ ['\n']) ++ lines s := by
    rw [List.mem_append]
    left
    rw [List.mem_map]
    exact ⟨tagResults ++ colon, by simp [headLines], rfl⟩
  have hl := lines_head c h s
  have hd : ((headLines c).map (fun l => l ++ ['\n']) ++ lines s).drop (headLines c).length = lines s := by
    rw [List.drop_left']; simp
  unfold readContents
  simp only [hl]
  have h0 : ∃ ls, (headLines c).map (fun l => l ++ ['\n']) ++ lines s =
      (['<'] ++ tagRunner ++ ['>', '-', '<'] ++ className ++ (['>', '-', '<', 't', 'a', 's', 'k', ' ', 'n', 'a', 'm', 'e', ':', ' ']
      ++ c.task ++ ['>'] ++ ['\n'])) :: ls := by
    unfold headLines
    simp only [List.cons_append, List.map_cons]
    exact ⟨_, by simp [List.append_assoc]; rfl⟩
  obtain ⟨ls, h0⟩ := h0
  rw [h0] at hm hs hd ⊢
  dsimp only
  rw [if_pos (by rfl), if_pos ⟨_, _, rfl⟩, if_pos hm, hs, Option.bind_some, hd, h.three]

end Phyem.Runner
