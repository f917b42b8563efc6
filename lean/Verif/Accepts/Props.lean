import Verif.Accepts.Model

/-! What is accepted. -/

namespace Phyem.Accepts

variable {Cls : Type} [DecidableEq Cls]

lemma formed_iff : ∀ ds, formed ds = true ↔ Dim.bad ∉ ds ∧ ∀ j : ℕ, ds[j]? = some Dim.dots → j + 1 = ds.length
  | [] => by simp [formed]
  | [.dots] => by
    simp only [formed, List.mem_singleton, List.length_singleton, true_iff]
    refine ⟨by simp, fun j hj => ?_⟩
    cases j with
    | zero => rfl
    | succ j => simp at hj
  | .dots :: d :: ds => by
    simp only [formed, Bool.false_eq_true, false_iff, not_and]
    intro _ h
    have := h 0 rfl
    simp at this
  | .bad :: ds => by simp [formed]
  | .num z :: ds => by
    simp only [formed, formed_iff ds, List.mem_cons, reduceCtorEq, false_or, List.length_cons]
    refine and_congr_right fun _ => ⟨fun h j hj => ?_, fun h j hj => ?_⟩
    · cases j with
      | zero => simp at hj
      | succ j => simpa using h j (by simpa using hj)
    · simpa using h (j + 1) (by simpa using hj)
  | .any :: ds => by
    simp only [formed, formed_iff ds, List.mem_cons, reduceCtorEq, false_or, List.length_cons]
    refine and_congr_right fun _ => ⟨fun h j hj => ?_, fun h j hj => ?_⟩
    · cases j with
      | zero => simp at hj
      | succ j => simpa using h j (by simpa using hj)
    · simpa using h (j + 1) (by simpa using hj)

lemma fits_iff : ∀ (ds : List Dim) (sh : List ℕ), formed ds = true →
    (fits ds sh = true ↔ ∀ (j : ℕ) (z : ℤ), ds[j]? = some (Dim.num z) → ∃ n : ℕ, sh[j]? = some n ∧ (n : ℤ) = z)
  | [], sh, _ => by simp [fits]
  | .dots :: ds, sh, h => by
    cases ds with
    | cons d ds => simp [formed] at h
    | nil =>
      simp only [fits, true_iff]
      intro j z hj
      cases j <;> simp at hj
  | .bad :: ds, sh, h => by simp [formed] at h
  | .num z :: ds, [], h => by
    simp only [fits, Bool.false_eq_true, false_iff]
    intro h'
    obtain ⟨n, hn, _⟩ := h' 0 z rfl
    simp at hn
  | .num z :: ds, n :: sh, h => by
    simp only [fits, Bool.and_eq_true, beq_iff_eq, fits_iff ds sh (by simpa [formed] using h)]
    constructor
    · rintro ⟨h0, hr⟩ j y hj
      cases j with
      | zero => simp only [List.getElem?_cons_zero, Option.some.injEq, Dim.num.injEq] at hj; exact ⟨n, rfl, hj ▸ h0⟩
      | succ j => simpa using hr j y (by simpa using hj)
    · intro h'
      refine ⟨?_, fun j y hj => by simpa using h' (j + 1) y (by simpa using hj)⟩
      obtain ⟨m, hm, he⟩ := h' 0 z rfl
      simp only [List.getElem?_cons_zero, Option.some.injEq] at hm
      exact hm ▸ he
  | .any :: ds, sh, h => by
    simp only [fits, fits_iff ds sh.tail (by simpa [formed] using h)]
    constructor
    · intro hr j y hj
      cases j with
      | zero => simp at hj
      | succ j =>
        obtain ⟨n, hn, he⟩ := hr j y (by simpa using hj)
        exact ⟨n, by rw [← hn]; simp, he⟩
    · intro h' j y hj
      obtain ⟨n, hn, he⟩ := h' (j + 1) y (by simpa using hj)
      exact ⟨n, by rw [← hn]; simp, he⟩

/-- C187: a shape is accepted iff it is not empty, the requirement is well formed (`...` is the last entry only), and where it has a number the shape
has this number at the same place. -/
theorem shape_iff (sh : List ℕ) (ds : List Dim) :
    shapeOk sh ds = true ↔ sh ≠ [] ∧ Dim.bad ∉ ds ∧ (∀ j : ℕ, ds[j]? = some Dim.dots → j + 1 = ds.length) ∧
      ∀ (j : ℕ) (z : ℤ), ds[j]? = some (Dim.num z) → ∃ n : ℕ, sh[j]? = some n ∧ (n : ℤ) = z := by
  unfold shapeOk
  rw [Bool.and_eq_true, Bool.and_eq_true, Bool.not_eq_true', List.isEmpty_eq_false_iff, and_assoc]
  refine and_congr_right fun _ => ?_
  rw [← and_assoc, ← formed_iff]
  exact and_congr_right fun h => fits_iff ds sh h

lemma isInst_cases (a : Val Cls) : ∀ l : List (Item Cls),
    (isInst a l = some true ↔ ∃ pre c post, l = pre ++ .cls c :: post ∧ c ∈ a.inst ∧ ∀ t ∈ pre, ∃ d, t = Item.cls d) ∧
      (isInst a l = some false → ∀ t ∈ l, ∃ d, t = Item.cls d)
  | [] => by simp [isInst]
  | .cls c :: l => by
    obtain ⟨h1, h2⟩ := isInst_cases a l
    simp only [isInst]
    by_cases hc : a.inst.contains c = true
    · rw [if_pos hc]
      refine ⟨⟨fun _ => ⟨[], c, l, rfl, by simpa using hc, by simp⟩, fun _ => rfl⟩, by simp⟩
    · rw [if_neg hc, h1]
      refine ⟨⟨?_, ?_⟩, ?_⟩
      · rintro ⟨pre, d, post, rfl, hd, hp⟩
        refine ⟨.cls c :: pre, d, post, rfl, hd, ?_⟩
        intro t ht
        rcases List.mem_cons.1 ht with rfl | ht
        · exact ⟨c, rfl⟩
        · exact hp t ht
      · rintro ⟨pre, d, post, he, hd, hp⟩
        cases pre with
        | nil =>
          simp only [List.nil_append, List.cons.injEq, Item.cls.injEq] at he
          exact absurd (by rw [he.1]; simpa using hd) hc
        | cons p pre =>
          simp only [List.cons_append, List.cons.injEq] at he
          exact ⟨pre, d, post, he.2, hd, fun t ht => hp t (List.mem_cons_of_mem _ ht)⟩
      · intro h t ht
        rcases List.mem_cons.1 ht with rfl | ht
        · exact ⟨c, rfl⟩
        · exact h2 h t ht
  | .name s :: l => by
    simp only [isInst, reduceCtorEq, false_iff, false_implies, and_true]
    rintro ⟨pre, c, post, he, _, hp⟩
    cases pre with
    | nil => simp at he
    | cons p pre =>
      simp only [List.cons_append, List.cons.injEq] at he
      obtain ⟨d, hd⟩ := hp p List.mem_cons_self
      rw [hd] at he; simp at he
  | .shape s :: l => by
    simp only [isInst, reduceCtorEq, false_iff, false_implies, and_true]
    rintro ⟨pre, c, post, he, _, hp⟩
    cases pre with
    | nil => simp at he
    | cons p pre =>
      simp only [List.cons_append, List.cons.injEq] at he
      obtain ⟨d, hd⟩ := hp p List.mem_cons_self
      rw [hd] at he; simp at he
  | .ndim s :: l => by
    simp only [isInst, reduceCtorEq, false_iff, false_implies, and_true]
    rintro ⟨pre, c, post, he, _, hp⟩
    cases pre with
    | nil => simp at he
    | cons p pre =>
      simp only [List.cons_append, List.cons.injEq] at he
      obtain ⟨d, hd⟩ := hp p List.mem_cons_self
      rw [hd] at he; simp at he

/-- C187: the type of an argument is accepted by a tuple iff the name of its class is an entry, or it is an instance of a class that comes before all
texts. -/
theorem type_iff (a : Val Cls) (l : List (Item Cls)) :
    typeOk a l = true ↔ Item.name a.name ∈ l ∨ ∃ pre c post, l = pre ++ .cls c :: post ∧ c ∈ a.inst ∧ ∀ t ∈ pre, ∃ d, t = Item.cls d := by
  obtain ⟨h1, h2⟩ := isInst_cases a l
  unfold typeOk
  cases h : isInst a l with
  | none =>
    rw [h] at h1
    simp only [List.contains_iff_mem]
    exact ⟨Or.inl, fun h' => h'.elim id fun h' => absurd (h1.2 h') (by simp)⟩
  | some b =>
    cases b with
    | true => simp only [true_iff]; exact Or.inr (h1.1 h)
    | false =>
      simp only [Bool.false_eq_true, false_iff, not_or]
      refine ⟨fun hm => ?_, fun h' => ?_⟩
      · obtain ⟨d, hd⟩ := h2 h _ hm; simp at hd
      · have := h1.2 h'; rw [h] at this; simp at this

/-- C187: if the classes come before the texts, as is asked for, an argument is accepted iff it is an instance of one of the classes or the name of its
class is one of the texts. -/
theorem type_ordered (a : Val Cls) (cs : List Cls) (ts : List (Item Cls)) (h : ∀ t ∈ ts, ∀ c, t ≠ .cls c) :
    typeOk a (cs.map .cls ++ ts) = true ↔ (∃ c ∈ cs, c ∈ a.inst) ∨ Item.name a.name ∈ ts := by
  rw [type_iff, or_comm]
  refine or_congr ⟨?_, ?_⟩ (by simp)
  · rintro ⟨pre, c, post, he, hc, hp⟩
    have : Item.cls c ∈ cs.map Item.cls ++ ts := by rw [he]; simp
    rcases List.mem_append.1 this with hm | hm
    · obtain ⟨d, hd, e⟩ := List.mem_map.1 hm
      exact ⟨c, by rw [Item.cls.injEq] at e; exact e ▸ hd, hc⟩
    · exact absurd rfl (h _ hm c)
  · rintro ⟨c, hc, hi⟩
    obtain ⟨p, q, rfl⟩ := List.append_of_mem hc
    refine ⟨p.map .cls, c, q.map .cls ++ ts, by simp, hi, ?_⟩
    intro t ht
    obtain ⟨d, _, rfl⟩ := List.mem_map.1 ht
    exact ⟨d, rfl⟩

/-- C187: the three kinds of integers, the sparse matrices, `None`, the empty text and a class. -/
theorem single_iff (i : ℕ) (a : Val Cls) :
    (check i a (.text "natural_number".toList) = true ↔ ∃ n, a.int = some n ∧ 0 ≤ n) ∧
      (check i a (.text "positive_int".toList) = true ↔ ∃ n, a.int = some n ∧ 0 < n) ∧
      (check i a (.text "negative_int".toList) = true ↔ ∃ n, a.int = some n ∧ n < 0) ∧
      (check i a (.text "sparse_matrix".toList) = true ↔ a.name ∈ sparse) ∧
      check i a .none = true ∧ check i a (.text []) = true ∧ (∀ c, check i a (.cls c) = true ↔ c ∈ a.inst) := by
  refine ⟨?_, ?_, ?_, ?_, rfl, ?_, ?_⟩
  · simp only [check]
    rw [if_neg (by decide), if_pos trivial]
    cases a.int <;> simp
  · simp only [check]
    rw [if_neg (by decide), if_neg (by decide), if_pos trivial]
    cases a.int <;> simp
  · simp only [check]
    rw [if_neg (by decide), if_neg (by decide), if_neg (by decide), if_pos trivial]
    cases a.int <;> simp
  · simp only [check, if_true, List.contains_iff_mem]
  · simp only [check]
    rw [if_neg (by decide), if_neg (by decide), if_neg (by decide), if_neg (by decide), if_pos (Or.inl trivial)]
  · intro c; simp [check]

/-- C187: another text is the name of the class of the argument; `self` as the first one accepts everything. -/
theorem text_iff (i : ℕ) (a : Val Cls) (s : Str) (hs : s ∉ "sparse_matrix".toList :: alone) (h0 : s ≠ []) :
    check i a (.text s) = true ↔ (s = "self".toList ∧ i = 0) ∨ a.name = s := by
  simp only [alone, List.mem_cons, List.not_mem_nil, or_false, not_or] at hs
  simp only [check]
  rw [if_neg hs.1, if_neg hs.2.1, if_neg hs.2.2.1, if_neg hs.2.2.2]
  by_cases h : s = "self".toList ∧ i = 0
  · rw [if_pos (Or.inr h)]; simp [h]
  · rw [if_neg (by rintro (h' | h'); exacts [h0 h', h h'])]
    rw [beq_iff_eq, or_iff_right h]

lemma dims_prefix (sh : List ℕ) : ∀ l : List (Item Cls),
    dimsOk sh l = true ↔ (∀ pre n post, l = pre ++ .ndim n :: post → (∀ t ∈ pre, ∀ ds, t ≠ Item.shape ds) → (sh.length : ℤ) = n) ∧
      ∀ pre ds post, l = pre ++ .shape ds :: post → (∀ t ∈ pre, ∀ ds, t ≠ Item.shape ds) → shapeOk sh ds = true
  | [] => by simp [dimsOk]
  | .shape ds :: l => by
    simp only [dimsOk]
    refine ⟨fun h => ⟨?_, ?_⟩, fun h => h.2 [] ds l rfl (by simp)⟩
    · intro pre n post he hp
      cases pre with
      | nil => simp at he
      | cons p pre =>
        simp only [List.cons_append, List.cons.injEq] at he
        exact absurd he.1.symm (hp p List.mem_cons_self ds)
    · intro pre ds' post he hp
      cases pre with
      | nil => simp only [List.nil_append, List.cons.injEq, Item.shape.injEq] at he; exact he.1 ▸ h
      | cons p pre =>
        simp only [List.cons_append, List.cons.injEq] at he
        exact absurd he.1.symm (hp p List.mem_cons_self ds)
  | .ndim m :: l => by
    simp only [dimsOk, Bool.and_eq_true, beq_iff_eq, dims_prefix sh l]
    constructor
    · rintro ⟨h0, h1, h2⟩
      refine ⟨?_, ?_⟩
      · intro pre n post he hp
        cases pre with
        | nil => simp only [List.nil_append, List.cons.injEq, Item.ndim.injEq] at he; exact he.1 ▸ h0
        | cons p pre =>
          simp only [List.cons_append, List.cons.injEq] at he
          exact h1 pre n post he.2 fun t ht => hp t (List.mem_cons_of_mem _ ht)
      · intro pre ds post he hp
        cases pre with
        | nil => simp at he
        | cons p pre =>
          simp only [List.cons_append, List.cons.injEq] at he
          exact h2 pre ds post he.2 fun t ht => hp t (List.mem_cons_of_mem _ ht)
    · rintro ⟨h1, h2⟩
      refine ⟨h1 [] m l rfl (by simp), ?_, ?_⟩
      · intro pre n post he hp
        refine h1 (.ndim m :: pre) n post (by simp [he]) ?_
        intro t ht
        rcases List.mem_cons.1 ht with rfl | ht
        · simp
        · exact hp t ht
      · intro pre ds post he hp
        refine h2 (.ndim m :: pre) ds post (by simp [he]) ?_
        intro t ht
        rcases List.mem_cons.1 ht with rfl | ht
        · simp
        · exact hp t ht
  | .cls m :: l => by
    simp only [dimsOk, dims_prefix sh l]
    refine and_congr ⟨?_, ?_⟩ ⟨?_, ?_⟩
    all_goals
      intro h pre n post he hp
    · cases pre with
      | nil => simp at he
      | cons p pre =>
        simp only [List.cons_append, List.cons.injEq] at he
        exact h pre n post he.2 fun t ht => hp t (List.mem_cons_of_mem _ ht)
    · refine h (.cls m :: pre) n post (by simp [he]) ?_
      intro t ht
      rcases List.mem_cons.1 ht with rfl | ht
      · simp
      · exact hp t ht
    · cases pre with
      | nil => simp at he
      | cons p pre =>
        simp only [List.cons_append, List.cons.injEq] at he
        exact h pre n post he.2 fun t ht => hp t (List.mem_cons_of_mem _ ht)
    · refine h (.cls m :: pre) n post (by simp [he]) ?_
      intro t ht
      rcases List.mem_cons.1 ht with rfl | ht
      · simp
      · exact hp t ht
  | .name m :: l => by
    simp only [dimsOk, dims_prefix sh l]
    refine and_congr ⟨?_, ?_⟩ ⟨?_, ?_⟩
    all_goals
      intro h pre n post he hp
    · cases pre with
      | nil => simp at he
      | cons p pre =>
        simp only [List.cons_append, List.cons.injEq] at he
        exact h pre n post he.2 fun t ht => hp t (List.mem_cons_of_mem _ ht)
    · refine h (.name m :: pre) n post (by simp [he]) ?_
      intro t ht
      rcases List.mem_cons.1 ht with rfl | ht
      · simp
      · exact hp t ht
    · cases pre with
      | nil => simp at he
      | cons p pre =>
        simp only [List.cons_append, List.cons.injEq] at he
        exact h pre n post he.2 fun t ht => hp t (List.mem_cons_of_mem _ ht)
    · refine h (.name m :: pre) n post (by simp [he]) ?_
      intro t ht
      rcases List.mem_cons.1 ht with rfl | ht
      · simp
      · exact hp t ht

/-- C187: of the requirements of shapes and dimensions in a tuple, those up to the first shape are checked. -/
theorem dims_iff (sh : List ℕ) (l : List (Item Cls)) :
    dimsOk sh l = true ↔ (∀ pre n post, l = pre ++ .ndim n :: post → (∀ t ∈ pre, ∀ ds, t ≠ Item.shape ds) → (sh.length : ℤ) = n) ∧
      ∀ pre ds post, l = pre ++ .shape ds :: post → (∀ t ∈ pre, ∀ ds, t ≠ Item.shape ds) → shapeOk sh ds = true := dims_prefix sh l

/-- C187: a tuple without `sparse_matrix` accepts an argument iff none of its texts stands for a kind of integers, its dimensions are accepted and its type
is; `sparse_matrix` stands for the names of all sparse matrices. -/
theorem many_iff (i : ℕ) (a : Val Cls) (l : List (Item Cls)) :
    (Item.name "sparse_matrix".toList ∉ l →
      (check i a (.many l) = true ↔ (∀ s ∈ alone, Item.name s ∉ l) ∧ dimsOk a.shape l = true ∧ typeOk a l = true)) ∧
      (Item.name "sparse_matrix".toList ∈ l →
        (check i a (.many l) = true ↔ (∀ s ∈ alone, Item.name s ∉ l) ∧ dimsOk a.shape l = true ∧ (typeOk a l = true ∨ a.name ∈ sparse))) := by
  have hal : ∀ l : List (Item Cls), (l.all among = true) ↔ ∀ s ∈ alone, Item.name s ∉ l := by
    intro l
    rw [List.all_eq_true]
    constructor
    · intro h s hs hm
      have := h _ hm
      simp only [among, Bool.not_eq_true', List.contains_eq_mem, decide_eq_false_iff_not] at this
      exact this hs
    · intro h t ht
      cases t with
      | name s =>
        simp only [among, Bool.not_eq_true', List.contains_eq_mem, decide_eq_false_iff_not]
        exact fun hs => h s hs ht
      | _ => rfl
  constructor
  · intro hn
    have he : extend l = l := by unfold extend; rw [if_neg (by simpa using hn)]
    simp only [check, he, Bool.and_eq_true, hal, and_assoc]
  · intro hm
    have he : extend l = l ++ sparse.map .name := by unfold extend; rw [if_pos (by simpa using hm)]
    simp only [check, he, Bool.and_eq_true, hal, and_assoc]
    refine and_congr ?_ (and_congr ?_ ?_)
    · refine forall₂_congr fun s hs => ?_
      rw [List.mem_append, not_or, and_iff_left]
      intro h
      obtain ⟨r, hr, e⟩ := List.mem_map.1 h
      rw [Item.name.injEq] at e
      subst e
      exact absurd hr ((by decide +kernel : ∀ x ∈ alone, x ∉ sparse) _ hs)
    · clear hm he
      have hs : ∀ r : List Str, dimsOk (Cls := Cls) a.shape (r.map .name) = true := by
        intro r; induction r with
        | nil => rfl
        | cons x r ih => simpa [dimsOk] using ih
      induction l with
      | nil => simpa [dimsOk] using hs sparse
      | cons t l ih => cases t <;> simp [dimsOk, ih]
    · rw [type_iff, type_iff, List.mem_append]
      constructor
      · rintro ((h | h) | ⟨pre, c, post, he', hc, hp⟩)
        · exact Or.inl (Or.inl h)
        · obtain ⟨r, hr, e⟩ := List.mem_map.1 h
          rw [Item.name.injEq] at e
          exact Or.inr (e ▸ hr)
        · left; right
          have : pre.length < l.length := by
            by_contra hge
            have hsub : l <+: pre := by
              have h1 : l <+: pre ++ .cls c :: post := ⟨_, he'⟩
              exact List.prefix_of_prefix_length_le h1 (List.prefix_append _ _) (by omega)
            obtain ⟨d, hd⟩ := hp _ (hsub.subset hm)
            simp at hd
          refine ⟨pre, c, l.drop (pre.length + 1), ?_, hc, hp⟩
          have h1 : pre ++ [Item.cls c] <+: l := by
            refine List.prefix_of_prefix_length_le (l₃ := l ++ sparse.map .name) ?_ (List.prefix_append _ _) (by simp; omega)
            rw [he']; exact ⟨post, by simp⟩
          obtain ⟨r, hr⟩ := h1
          rw [← hr]
          simp
      · rintro ((h | ⟨pre, c, post, rfl, hc, hp⟩) | h)
        · exact Or.inl (Or.inl h)
        · exact Or.inr ⟨pre, c, post ++ sparse.map .name, by simp, hc, hp⟩
        · exact Or.inl (Or.inr (List.mem_map.2 ⟨_, h, rfl⟩))

lemma checks_iff : ∀ (as : List (Val Cls)) (ts : List (Req Cls)) (k : ℕ),
    checks k as ts = true ↔ ∀ (i : ℕ) a t, as[i]? = some a → ts[i]? = some t → check (k + i) a t = true
  | [], ts, k => by simp [checks]
  | a :: as, [], k => by simp [checks]
  | a :: as, t :: ts, k => by
    simp only [checks, Bool.and_eq_true, checks_iff as ts (k + 1)]
    constructor
    · rintro ⟨h0, h⟩ i b s hb hs
      cases i with
      | zero =>
        simp only [List.getElem?_cons_zero, Option.some.injEq] at hb hs
        rw [← hb, ← hs]; exact h0
      | succ i =>
        have := h i b s (by simpa using hb) (by simpa using hs)
        rwa [show k + 1 + i = k + (i + 1) by omega] at this
    · intro h
      refine ⟨h 0 a t rfl rfl, fun i b s hb hs => ?_⟩
      have := h (i + 1) b s (by simpa using hb) (by simpa using hs)
      rwa [show k + (i + 1) = k + 1 + i by omega] at this

/-- C187: a function is called iff each positional argument meets the requirement at its place; what has no requirement is not checked, and keyword
arguments are not either. -/
theorem accepted_iff (types : List (Req Cls)) (args : List (Val Cls)) (kwds : List (Str × Val Cls)) :
    accepted types args kwds = true ↔ ∀ (i : ℕ) a t, args[i]? = some a → types[i]? = some t → check i a t = true := by
  unfold accepted
  rw [checks_iff]
  simp

end Phyem.Accepts
