import Verif.Runner.Head

/-!
The rows of a file, also when it was not finished.
-/

namespace Phyem.Runner

variable {V : Type}

lemma token_no_newline {t : Str} (h : Token t) : '\n' ∉ t := fun hm => by
  have := (h.2 _ hm).1
  simp [ws] at this

lemma rowHead_no_newline {F : Format V} (hF : F.Good) {nout : ℕ} {r : Row V} (h : RowGood nout r) : '\n' ∉ rowHead F r := by
  unfold rowHead
  have hi : ∀ (sh : V → Str) (_ : ∀ v, Token (sh v)) (vs : List V), '\n' ∉ vs.flatMap (fun v => pad 23 (sh v) ++ [' ', ' ']) := by
    intro sh hsh vs hm
    rw [List.mem_flatMap] at hm
    obtain ⟨v, -, hv⟩ := hm
    exact no_newline_append (no_newline_pad _ (token_no_newline (hsh v))) (by decide) hv
  refine no_newline_append (no_newline_append (no_newline_append (no_newline_append (no_newline_append (no_newline_append
    (no_newline_append (no_newline_append ?_ (by decide)) (hi _ hF.tokenIn _)) (hi _ hF.tokenOut _)) (by decide)) ?_)
    (by decide)) ?_) (by decide)
  · exact no_newline_pad _ (token_no_newline (hF.tokenIndex _))
  · exact no_newline_pad _ (token_no_newline h.itc)
  · exact no_newline_pad _ (token_no_newline h.ttc)

lemma lines_row {F : Format V} (hF : F.Good) {nout : ℕ} {r : Row V} (h : RowGood nout r) (s : Str) :
    lines (rowText F r ++ s) = rowText F r :: lines s := by
  unfold rowText
  rw [List.append_assoc, List.singleton_append]
  exact lines_line _ _ (no_newline_append (rowHead_no_newline hF h) (no_newline_pad _ (token_no_newline h.ert)))

lemma lines_rows {F : Format V} (hF : F.Good) {nout : ℕ} (rows : List (Row V)) (h : ∀ r ∈ rows, RowGood nout r) (s : Str) :
    lines (rows.flatMap (rowText F) ++ s) = rows.map (rowText F) ++ lines s := by
  induction rows with
  | nil => rfl
  | cons r rows ih =>
    rw [List.flatMap_cons, List.append_assoc, lines_row hF (h r List.mem_cons_self),
      ih fun q hq => h q (List.mem_cons_of_mem _ hq)]
    rfl

lemma rowHead_fields_length {F : Format V} (hF : F.Good) {nout : ℕ} {r : Row V} (h : RowGood nout r) (q : Str) :
    (fields (rowHead F r ++ q)).length = 1 + 3 + nout + 1 + 2 + (fields q).length := by
  rw [rowHead_fields hF h]
  simp [h.inputs, h.outputs]
  omega

lemma fields_ert (t : Str) (h : Token t) : fields (pad 13 t ++ ['\n']) = [t] := by
  rw [fields_append_ws _ _ _ rfl, fields_pad _ _ h]
  rfl

/-- A row whose last column is incomplete, or which goes on, is read if that is one word. -/
lemma readRows_cons {F : Format V} (hF : F.Good) {nout : ℕ} {r : Row V} (h : RowGood nout r) (q e : Str)
    (hq : fields q = [e]) (ls : List Str) :
    readRows F 3 nout ((rowHead F r ++ q) :: ls) = (readRows F 3 nout ls).map fun rs => { r with ert := e } :: rs := by
  rw [readRows, if_pos (by rw [rowHead_fields_length hF h, hq]; simp), rowHead_fields hF h, hq, readRow_words hF h]
  rfl

lemma readRows_rows {F : Format V} (hF : F.Good) {nout : ℕ} (rows : List (Row V)) (h : ∀ r ∈ rows, RowGood nout r)
    (ls : List Str) :
    readRows F 3 nout (rows.map (rowText F) ++ ls) = (readRows F 3 nout ls).map fun rs => rows ++ rs := by
  induction rows with
  | nil => simp
  | cons r rows ih =>
    have hr := h r List.mem_cons_self
    rw [List.map_cons, List.cons_append, rowText, List.append_assoc, readRows_cons hF hr _ _ (fields_ert _ hr.ert),
      ih fun q hq => h q (List.mem_cons_of_mem _ hq), Option.map_map]
    rfl

/-- What can follow the complete rows: nothing, a line that is not read, or a row without the end of its line. -/
inductive Tail (F : Format V) (nout : ℕ) : Str → Option (Row V × Str) → Prop
  | nil : Tail F nout [] none
  | broken (tail l : Str) (ls : List Str) : lines tail = l :: ls → (fields l).length ≠ 1 + 3 + nout + 1 + 3 →
      Tail F nout tail none
  | open (r : Row V) (q e : Str) : RowGood nout r → '\n' ∉ q → fields q = [e] →
      Tail F nout (rowHead F r ++ q) (some ({ r with ert := e }, q))

/-- The rows that are read. -/
lemma readRows_tail {F : Format V} (hF : F.Good) {nout : ℕ} (rows : List (Row V)) (h : ∀ r ∈ rows, RowGood nout r)
    (tail : Str) (o : Option (Row V × Str)) (ht : Tail F nout tail o) :
    readRows F 3 nout (lines (rows.flatMap (rowText F) ++ tail)) = some (rows ++ (o.map fun p => p.1).toList) := by
  rw [lines_rows hF rows h, readRows_rows hF rows h]
  cases ht with
  | nil => simp [lines, readRows]
  | broken _ l ls hl hn => rw [hl, readRows, if_neg hn]; simp
  | «open» r q e hr hq he =>
    rw [lines_last _ (no_newline_append (rowHead_no_newline hF hr) hq), readRows_cons hF hr q e he]
    · simp [readRows]
    · intro hn
      have := rowHead_fields_length hF hr q
      rw [hn, fields_nil] at this
      simp at this
      omega

/-- What is kept of the file. -/
lemma kept_lines {F : Format V} (hF : F.Good) {nout : ℕ} (c : Config) (hc : c.Good) (rows : List (Row V))
    (h : ∀ r ∈ rows, RowGood nout r) (tail : Str) (o : Option (Row V × Str)) (ht : Tail F nout tail o) :
    ((lines (head c ++ (rows.flatMap (rowText F) ++ tail))).take
      ((headLines c).length + (rows ++ (o.map fun p => p.1).toList).length)).flatten =
      head c ++ (rows.flatMap (rowText F) ++ (o.map fun p => rowHead F p.1 ++ p.2).getD []) ∧
    (headLines c).length + (rows ++ (o.map fun p => p.1).toList).length ≤
      (lines (head c ++ (rows.flatMap (rowText F) ++ tail))).length := by
  rw [lines_head c hc, lines_rows hF rows h, ← List.append_assoc]
  have e : head c = ((headLines c).map (fun l => l ++ ['\n'])).flatten := by
    unfold head; rw [List.flatMap_def]
  have e2 : rows.flatMap (rowText F) = (rows.map (rowText F)).flatten := List.flatMap_def
  cases ht with
  | nil =>
    constructor
    · rw [List.take_of_length_le (by simp [lines])]
      simp [lines, e, e2]
    · simp [lines]
  | broken _ l ls hl hn =>
    constructor
    · rw [List.take_left' (by simp)]
      simp [e, e2]
    · simp
  | «open» r q e' hr hq he =>
    have hne : rowHead F r ++ q ≠ [] := by
      intro hn
      have := rowHead_fields_length hF hr q
      rw [hn, fields_nil] at this
      simp at this
      omega
    rw [lines_last _ (no_newline_append (rowHead_no_newline hF hr) hq) hne]
    constructor
    · rw [List.take_of_length_le (by simp)]
      simp [e, e2, rowHead]
    · simp [Nat.add_assoc]

/-- A row that was begun. -/
lemma begun_tail {F : Format V} (hF : F.Good) {nout : ℕ} {r : Row V} (h : RowGood nout r) (p : Str)
    (hp : p <+: rowHead F r ++ pad 13 r.ert) : ∃ o, Tail F nout p o ∧ ∀ x ∈ o, ∃ e, x.1 = { r with ert := e } := by
  have hnl : '\n' ∉ p := fun hm => no_newline_append (rowHead_no_newline hF h) (no_newline_pad _ (token_no_newline h.ert))
    (hp.subset hm)
  by_cases hp0 : p = []
  · exact ⟨none, hp0 ▸ .nil, by simp⟩
  by_cases hn : (fields p).length = 1 + 3 + nout + 1 + 3
  · rcases List.prefix_or_prefix_of_prefix hp (List.prefix_append (rowHead F r) (pad 13 r.ert)) with hq | ⟨q, rfl⟩
    · obtain ⟨s, hs⟩ := hq
      have h1 := fields_length_mono p s
      have h2 := rowHead_fields_length hF h []
      rw [List.append_nil, fields_nil] at h2
      rw [hs, h2, hn] at h1
      simp at h1
      omega
    · rw [rowHead_fields_length hF h] at hn
      have hq : q <+: pad 13 r.ert := (List.prefix_append_right_inj _).1 hp
      obtain ⟨e, he⟩ : ∃ e, fields q = [e] := List.length_eq_one_iff.1 (by omega)
      refine ⟨_, .open r q e h (fun hm => hnl (List.mem_append_right _ hm)) he, by simp⟩
  · exact ⟨none, .broken p p [] (lines_last p hnl hp0) hn, by simp⟩

/-- A row is not read if another one is written behind it without the end of its line. -/
lemma glued_tail {F : Format V} (hF : F.Good) {nout : ℕ} {r : Row V} (h : RowGood nout r) (q e : Str) (hnl : '\n' ∉ q)
    (hq : fields q = [e]) (news : List (Row V)) (hnews : ∀ r ∈ news, RowGood nout r) (w : Str)
    (hw : w <+: news.flatMap (rowText F)) :
    ∃ o, Tail F nout (rowHead F r ++ (q ++ w)) o ∧ ∀ x ∈ o, ∃ e, x.1 = { r with ert := e } := by
  have hpos : rowHead F r ≠ [] := by
    intro hn
    have := rowHead_fields_length hF h []
    rw [hn, List.append_nil, fields_nil] at this
    simp at this
  rcases first_line w with hn | ⟨a, b, rfl, ha⟩
  · by_cases h1 : (fields (q ++ w)).length = 1
    · obtain ⟨e', he'⟩ := List.length_eq_one_iff.1 h1
      exact ⟨_, .open r (q ++ w) e' h (no_newline_append hnl hn) he', by simp⟩
    · refine ⟨none, .broken _ _ [] (lines_last _ (no_newline_append (rowHead_no_newline hF h) (no_newline_append hnl hn))
        (by simp [hpos])) ?_, by simp⟩
      rw [rowHead_fields_length hF h]
      omega
  · cases news with
    | nil => simp at hw
    | cons r' news =>
      have hr' := hnews r' List.mem_cons_self
      have e1 : lines ((a ++ '\n' :: b)) = (a ++ ['\n']) :: lines b := lines_line a b ha
      have ea : a = rowHead F r' ++ pad 13 r'.ert := by
        obtain ⟨s, hs⟩ := hw
        have h2 := congrArg lines hs
        rw [List.append_assoc, List.cons_append, lines_line a _ ha, List.flatMap_cons, lines_row hF hr'] at h2
        have h3 := (List.cons.inj h2).1
        rw [rowText] at h3
        exact (List.append_inj' h3 rfl).1
      refine ⟨none, .broken _ (rowHead F r ++ (q ++ a) ++ ['\n']) (lines b) ?_ ?_, by simp⟩
      · rw [← List.append_assoc q, ← List.append_assoc (rowHead F r)]
        exact lines_line _ _ (no_newline_append (rowHead_no_newline hF h) (no_newline_append hnl ha))
      · rw [List.append_assoc, rowHead_fields_length hF h, ea]
        have h4 : 2 ≤ (fields (q ++ (rowHead F r' ++ pad 13 r'.ert) ++ ['\n'])).length := by
          have e3 : q ++ (rowHead F r' ++ pad 13 r'.ert) ++ ['\n'] = (q ++ pad 14 (F.showIndex r'.index)) ++ ' ' ::
            (r'.inputs.flatMap (fun v => pad 23 (F.showIn v) ++ [' ', ' ']) ++
              (r'.outputs.flatMap (fun v => pad 23 (F.showOut v) ++ [' ', ' ']) ++
              (['|', ' '] ++ pad 13 r'.itc ++ [' ', ' '] ++ pad 13 r'.ttc ++ [' ', ' '] ++ pad 13 r'.ert ++ ['\n']))) := by
            simp [rowHead]
          rw [e3, fields_append_ws _ _ _ rfl, fields_columns F.showIn hF.tokenIn, List.length_append, List.length_append,
            List.length_map, hr'.inputs]
          omega
        omega

end Phyem.Runner
