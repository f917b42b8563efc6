import Verif.Runner.Spec

/-!
Lines and words of a text.
-/

namespace Phyem.Runner

/-! ### Lines -/

lemma lines_line (l s : Str) (h : '\n' ∉ l) : lines (l ++ '\n' :: s) = (l ++ ['\n']) :: lines s := by
  induction l with
  | nil => simp [lines]
  | cons c l ih =>
    rw [List.mem_cons, not_or] at h
    rw [List.cons_append, lines, if_neg (Ne.symm h.1), ih h.2]
    rfl

lemma lines_last (l : Str) (h : '\n' ∉ l) (hl : l ≠ []) : lines l = [l] := by
  induction l with
  | nil => exact absurd rfl hl
  | cons c l ih =>
    rw [List.mem_cons, not_or] at h
    rw [lines, if_neg (Ne.symm h.1)]
    cases l with
    | nil => rfl
    | cons d l => rw [ih h.2 (by simp)]

lemma lines_flatten (s : Str) : (lines s).flatten = s := by
  induction s with
  | nil => rfl
  | cons c s ih =>
    rw [lines]
    split_ifs with h
    · simp [ih]
    · cases hl : lines s with
      | nil => rw [hl] at ih; simp at ih; simp [← ih]
      | cons l ls => rw [hl] at ih; simp at ih; simp [← ih]

lemma lines_lines (ls : List Str) (s : Str) (h : ∀ l ∈ ls, '\n' ∉ l) :
    lines (ls.flatMap (fun l => l ++ ['\n']) ++ s) = ls.map (fun l => l ++ ['\n']) ++ lines s := by
  induction ls with
  | nil => simp
  | cons l ls ih =>
    rw [List.flatMap_cons, List.append_assoc, List.append_assoc, List.singleton_append,
      lines_line l _ (h l List.mem_cons_self), ih fun m hm => h m (List.mem_cons_of_mem _ hm)]
    rfl

/-- Where the first line ends. -/
lemma first_line (s : Str) : '\n' ∉ s ∨ ∃ a b, s = a ++ '\n' :: b ∧ '\n' ∉ a := by
  induction s with
  | nil => left; simp
  | cons c s ih =>
    by_cases hc : c = '\n'
    · right; exact ⟨[], s, by simp [hc], by simp⟩
    · rcases ih with h | ⟨a, b, rfl, ha⟩
      · left; simp [h, Ne.symm hc]
      · right; exact ⟨c :: a, b, rfl, by simp [ha, Ne.symm hc]⟩

/-! ### Words -/

lemma go_append_ws (acc a : Str) (w : Char) (b : Str) (hw : ws w = true) :
    fields.go acc (a ++ w :: b) = fields.go acc a ++ fields.go [] b := by
  induction a generalizing acc with
  | nil =>
    rw [List.nil_append]
    simp only [fields.go, hw, if_true]
    split_ifs <;> simp
  | cons c a ih =>
    rw [List.cons_append, fields.go, fields.go]
    by_cases hc : ws c = true
    · rw [if_pos hc, if_pos hc]
      split_ifs
      · exact ih []
      · rw [ih []]; rfl
    · rw [if_neg hc, if_neg hc]
      exact ih _

lemma fields_append_ws (a : Str) (w : Char) (b : Str) (hw : ws w = true) :
    fields (a ++ w :: b) = fields a ++ fields b := go_append_ws [] a w b hw

lemma go_token (acc t : Str) (h : ∀ c ∈ t, ws c = false) :
    fields.go acc t = if t.reverse ++ acc = [] then [] else [(t.reverse ++ acc).reverse] := by
  induction t generalizing acc with
  | nil => simp only [fields.go, List.reverse_nil, List.nil_append]; congr
  | cons c t ih =>
    rw [fields.go, if_neg (by simp [h c List.mem_cons_self]), ih _ fun d hd => h d (List.mem_cons_of_mem _ hd)]
    simp

lemma fields_token (t : Str) (h : Token t) : fields t = [t] := by
  unfold fields
  rw [go_token _ _ fun c hc => (h.2 c hc).1]
  simp [h.1]

lemma fields_spaces (k : ℕ) (s : Str) : fields (List.replicate k ' ' ++ s) = fields s := by
  induction k with
  | zero => simp
  | succ k ih =>
    rw [List.replicate_succ, List.cons_append]
    have := fields_append_ws [] ' ' (List.replicate k ' ' ++ s) rfl
    rw [List.nil_append] at this
    rw [this, ih]
    rfl

lemma fields_nil : fields [] = [] := rfl

lemma fields_append_space (a : Str) (w : Char) (hw : ws w = true) (b : Str) : fields (a ++ [w] ++ b) = fields (a ++ [w]) ++ fields b := by
  rw [List.append_assoc, List.singleton_append, fields_append_ws _ _ _ hw, fields_append_ws _ _ _ hw, fields_nil]
  simp

lemma fields_spaces_end (s : Str) (k : ℕ) : fields (s ++ List.replicate k ' ') = fields s := by
  cases k with
  | zero => simp
  | succ k =>
    rw [List.replicate_succ, fields_append_ws _ _ _ rfl]
    have := fields_spaces k []
    rw [List.append_nil] at this
    rw [this, fields_nil, List.append_nil]

lemma fields_pad (n : ℕ) (t : Str) (h : Token t) : fields (pad n t) = [t] := by
  unfold pad
  rw [fields_spaces_end, fields_token t h]

/-- A padded word, a space and something else. -/
lemma fields_pad_cons (n : ℕ) (t s : Str) (h : Token t) : fields (pad n t ++ ' ' :: s) = t :: fields s := by
  rw [fields_append_ws _ _ _ rfl, fields_pad n t h]
  rfl

lemma fields_cons_space (s : Str) : fields (' ' :: s) = fields s := by
  have := fields_append_ws [] ' ' s rfl
  rw [List.nil_append] at this
  rw [this]
  rfl

lemma fields_columns {V : Type} (sh : V → Str) (h : ∀ v, Token (sh v)) (n : ℕ) (vs : List V) (s : Str) :
    fields (vs.flatMap (fun v => pad n (sh v) ++ [' ', ' ']) ++ s) = vs.map sh ++ fields s := by
  induction vs with
  | nil => rfl
  | cons v vs ih =>
    rw [List.flatMap_cons, List.append_assoc, List.append_assoc, List.cons_append, fields_pad_cons _ _ _ (h v),
      List.singleton_append, fields_cons_space, ih]
    rfl

lemma go_length_pos (acc s : Str) (h : acc ≠ []) : 1 ≤ (fields.go acc s).length := by
  induction s generalizing acc with
  | nil => simp [fields.go, h]
  | cons c s ih =>
    rw [fields.go, if_neg h]
    split_ifs
    · simp
    · exact ih _ (by simp)

/-- More text has no fewer words. -/
lemma go_length_mono (acc a b : Str) : (fields.go acc a).length ≤ (fields.go acc (a ++ b)).length := by
  induction a generalizing acc with
  | nil =>
    rw [List.nil_append, fields.go]
    split_ifs with h
    · simp
    · exact go_length_pos _ _ h
  | cons c a ih =>
    rw [List.cons_append, fields.go, fields.go]
    split_ifs with h1 h2
    · exact ih _
    · simpa using ih []
    · exact ih _

lemma fields_length_mono (a b : Str) : (fields a).length ≤ (fields (a ++ b)).length := go_length_mono [] a b

lemma fields_pos (c : Char) (s : Str) (h : ws c = false) : 1 ≤ (fields (c :: s)).length := by
  unfold fields
  rw [fields.go, if_neg (by simp [h])]
  exact go_length_pos _ _ (by simp)

/-! ### Rows -/

/-- A row that was written. -/
structure RowGood {V : Type} (nout : ℕ) (r : Row V) : Prop where
  inputs : r.inputs.length = 3
  outputs : r.outputs.length = nout
  itc : Token r.itc
  ttc : Token r.ttc
  ert : Token r.ert

lemma rowHead_fields {V : Type} {F : Format V} (hF : F.Good) {nout : ℕ} {r : Row V} (h : RowGood nout r) (q : Str) :
    fields (rowHead F r ++ q) = F.showIndex r.index :: (r.inputs.map F.showIn ++ (r.outputs.map F.showOut ++
      ['|'] :: r.itc :: r.ttc :: fields q)) := by
  unfold rowHead
  simp only [List.append_assoc, List.cons_append, List.nil_append]
  rw [fields_pad_cons _ _ _ (hF.tokenIndex _)]
  have e1 := fields_columns F.showIn hF.tokenIn 23 r.inputs
  have e2 := fields_columns F.showOut hF.tokenOut 23 r.outputs
  rw [e1, e2]
  have e3 : ∀ s, fields ('|' :: ' ' :: s) = ['|'] :: fields s := fun s => by
    have := fields_append_ws ['|'] ' ' s rfl
    rw [List.singleton_append] at this
    rw [this]; rfl
  rw [e3, fields_pad_cons _ _ _ h.itc, fields_cons_space, fields_pad_cons _ _ _ h.ttc, fields_cons_space]

lemma mapM_map {V : Type} (rd : Str → Option V) (sh : V → Str) (h : ∀ v, rd (sh v) = some v) (vs : List V) :
    (vs.map sh).mapM rd = some vs := by
  induction vs with
  | nil => rfl
  | cons v vs ih => rw [List.map_cons, List.mapM_cons, h v, ih]; rfl

lemma mapM_two {V : Type} (rd : Str → Option V) (a b : List Str) (x y : List V) (ha : a.mapM rd = some x)
    (hb : b.mapM rd = some y) : (a ++ b).mapM rd = some (x ++ y) := by
  induction a generalizing x with
  | nil => rw [List.mapM_nil] at ha; cases ha; exact hb
  | cons c a ih =>
    rw [List.mapM_cons] at ha
    rw [List.cons_append, List.mapM_cons]
    cases hc : rd c with
    | none => rw [hc] at ha; simp at ha
    | some v =>
      rw [hc] at ha
      cases ha' : a.mapM rd with
      | none => rw [ha'] at ha; simp at ha
      | some vs =>
        rw [ha'] at ha
        simp at ha
        subst ha
        rw [ih vs ha']
        rfl

/-- A complete row is read as what it was, whatever its last word. -/
lemma readRow_words {V : Type} {F : Format V} (hF : F.Good) {nout : ℕ} {r : Row V} (h : RowGood nout r) (e : Str) :
    readRow F 3 (F.showIndex r.index :: (r.inputs.map F.showIn ++ (r.outputs.map F.showOut ++
      ['|'] :: r.itc :: r.ttc :: [e]))) = some { r with ert := e } := by
  have hbar : ∀ t, Token t → t ≠ ['|'] := by
    rintro t ⟨-, ht⟩ rfl
    exact (ht '|' (by simp)).2 rfl
  unfold readRow
  rw [if_pos (by simp)]
  have he : (F.showIndex r.index :: (r.inputs.map F.showIn ++ (r.outputs.map F.showOut ++
      ['|'] :: r.itc :: r.ttc :: [e]))).erase ['|'] = F.showIndex r.index :: (r.inputs.map F.showIn ++
        r.outputs.map F.showOut ++ [r.itc, r.ttc, e]) := by
    rw [List.erase_cons_tail (by simpa using hbar _ (hF.tokenIndex _)), List.erase_append_right, List.erase_append_right,
      List.erase_cons_head]
    · simp
    · intro hm; obtain ⟨v, -, hv⟩ := List.mem_map.1 hm; exact hbar _ (hF.tokenOut v) hv
    · intro hm; obtain ⟨v, -, hv⟩ := List.mem_map.1 hm; exact hbar _ (hF.tokenIn v) hv
  rw [he]
  dsimp only
  have hlen : (F.showIndex r.index :: (r.inputs.map F.showIn ++ r.outputs.map F.showOut ++ [r.itc, r.ttc, e])).length =
      (r.inputs.map F.showIn ++ r.outputs.map F.showOut).length + 4 := by simp [Nat.add_assoc]
  rw [hlen, List.drop_one, List.tail_cons]
  have hd : (r.inputs.map F.showIn ++ r.outputs.map F.showOut).length + 4 - 4 =
      (r.inputs.map F.showIn ++ r.outputs.map F.showOut).length := by omega
  have hd3 : (r.inputs.map F.showIn ++ r.outputs.map F.showOut).length + 4 - 3 =
      (r.inputs.map F.showIn ++ r.outputs.map F.showOut).length + 1 := by omega
  rw [hd, hd3, List.take_left', List.drop_succ_cons, List.drop_left', mapM_two F.read _ _ _ _ (mapM_map _ _ hF.readIn _)
    (mapM_map _ _ hF.readOut _), Option.bind_some, hF.readIndex]
  · simp [← h.inputs]
  · rfl
  · rfl

end Phyem.Runner
