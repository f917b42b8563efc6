import Verif.Samples.PieceSpec
import Mathlib.Tactic.Linarith

/-!
# Functions given piece by piece: theorems
-/

namespace Phyem.Samples

lemma loop_spec (np : Numpy) (xs : List (List ℚ)) (n : Nat) (hx : ∀ a ∈ xs, a.length = n) (conds : List (List Bool)) :
    ∀ (funcs : List Piece) (gs : Nat → List ℚ → ℚ) (out : List ℚ), out.length = n → (∀ c ∈ conds, c.length = n) →
      funcs.length = conds.length → (∀ j p, funcs[j]? = some p → Means xs.length p (gs j)) →
      ∃ out', (conds.zip funcs).foldlM (fun out p => piece np false xs out p.1 p.2) out = some out' ∧ out'.length = n ∧
        ∀ i, i < n → (∀ j, Holds conds j i → (∀ k, j < k → ¬ Holds conds k i) → out'.getD i 0 = gs j (pt xs i)) ∧
          ((∀ j, ¬ Holds conds j i) → out'.getD i 0 = out.getD i 0) := by
  induction conds with
  | nil =>
    intro funcs gs out ho _ _ _
    exact ⟨out, rfl, ho, fun i _ => ⟨fun j h => absurd h (by simp [Holds]), fun _ => rfl⟩⟩
  | cons c conds ih =>
    intro funcs gs out ho hc hf hg
    cases funcs with
    | nil => simp at hf
    | cons p funcs =>
      obtain ⟨o1, h1, h2, h3⟩ := piece_spec np xs out c p (gs 0) n hx ho (hc c (List.mem_cons_self ..)) (hg 0 p rfl)
      obtain ⟨o2, h4, h5, h6⟩ := ih funcs (fun j => gs (j + 1)) o1 h2 (fun d hd => hc d (List.mem_cons_of_mem _ hd))
        (by simpa using hf) (fun j q hq => hg (j + 1) q hq)
      refine ⟨o2, by simp only [List.zip_cons_cons, List.foldlM_cons, h1]; exact h4, h5, fun i hi => ?_⟩
      obtain ⟨h7, h8⟩ := h6 i hi
      refine ⟨fun j hj hk => ?_, fun hn => ?_⟩
      · cases j with
        | zero =>
          have hj' : c.getD i false = true := hj
          rw [h8 fun k hk' => hk (k + 1) (by omega) hk', h3 i hi, hj', if_pos rfl]
        | succ j => exact h7 j hj fun k hk' hh => hk (k + 1) (by omega) hh
      · have h0 : ¬ c.getD i false = true := hn 0
        rw [h8 fun k hk' => hn (k + 1) hk', h3 i hi, if_neg h0]

/-- The property: floats, a condition for every function, all of the same length as the arrays. Every point gets the value of
the last function whose condition holds, and the fill value if none does. -/
theorem piece_values (np : Numpy) (xs : List (List ℚ)) (conds : List (List Bool)) (funcs : List Piece)
    (gs : Nat → List ℚ → ℚ) (fill : ℚ) (n : Nat) (hx : ∀ a ∈ xs, a.length = n) (hc : ∀ c ∈ conds, c.length = n)
    (hne : conds ≠ []) (hf : funcs.length = conds.length)
    (hg : ∀ j p, funcs[j]? = some p → Means xs.length p (gs j)) :
    ∃ out, genpiecewise np false xs conds funcs fill = some out ∧ out.length = n ∧
      ∀ i, i < n → (∀ j, Holds conds j i → (∀ k, j < k → ¬ Holds conds k i) → out.getD i 0 = gs j (pt xs i)) ∧
        ((∀ j, ¬ Holds conds j i) → out.getD i 0 = fill) := by
  obtain ⟨c, l, rfl⟩ := List.exists_cons_of_ne_nil hne
  have hcl := hc c (List.mem_cons_self ..)
  obtain ⟨o, h1, h2, h3⟩ := loop_spec np xs n hx (c :: l) funcs gs (c.map fun _ => fill) (by simpa using hcl) hc hf hg
  refine ⟨o, ?_, h2, fun i hi => ⟨(h3 i hi).1, fun hn => ?_⟩⟩
  · unfold genpiecewise
    rw [if_neg (fun h => h.2 hf.symm), if_neg (by omega)]
    simpa using h1
  · rw [(h3 i hi).2 hn]
    have : i < (c.map fun _ => fill).length := by simpa [hcl] using hi
    rw [List.getD_eq_getElem _ _ this]
    simp

lemma or_fold_length (l : List (List Bool)) (n : Nat) : ∀ c : List Bool, c.length = n → (∀ d ∈ l, d.length = n) →
    (l.foldl (fun a b => List.zipWith (· || ·) a b) c).length = n := by
  induction l with
  | nil => intro c h _; exact h
  | cons d l ih =>
    intro c h hl
    have hd := hl d (List.mem_cons_self ..)
    exact ih _ (by simp [h, hd]) fun e he => hl e (List.mem_cons_of_mem _ he)

lemma or_fold (l : List (List Bool)) (n : Nat) (i : Nat) (hi : i < n) : ∀ c : List Bool, c.length = n →
    (∀ d ∈ l, d.length = n) → ((l.foldl (fun a b => List.zipWith (· || ·) a b) c).getD i false = true ↔
      ∃ j, Holds (c :: l) j i) := by
  induction l with
  | nil =>
    intro c _ _
    refine ⟨fun h => ⟨0, h⟩, ?_⟩
    rintro ⟨j, hj⟩
    cases j with
    | zero => exact hj
    | succ j => simp [Holds] at hj
  | cons d l ih =>
    intro c h hl
    have hd := hl d (List.mem_cons_self ..)
    rw [List.foldl_cons, ih _ (by simp [h, hd]) fun e he => hl e (List.mem_cons_of_mem _ he)]
    have hz : (List.zipWith (· || ·) c d).getD i false = (c.getD i false || d.getD i false) := by
      rw [List.getD_eq_getElem _ _ (by simp [h, hd, hi]), List.getD_eq_getElem _ _ (by omega),
        List.getD_eq_getElem _ _ (by omega)]
      simp
    constructor
    · rintro ⟨j, hj⟩
      cases j with
      | zero =>
        have hj' : (List.zipWith (· || ·) c d).getD i false = true := hj
        rw [hz, Bool.or_eq_true] at hj'
        rcases hj' with h1 | h1
        · exact ⟨0, h1⟩
        · exact ⟨1, h1⟩
      | succ j => exact ⟨j + 2, hj⟩
    · rintro ⟨j, hj⟩
      match j, hj with
      | 0, hj =>
        refine ⟨0, ?_⟩
        have hj' : c.getD i false = true := hj
        show (List.zipWith (· || ·) c d).getD i false = true
        rw [hz, hj']; rfl
      | 1, hj =>
        refine ⟨0, ?_⟩
        have hj' : d.getD i false = true := hj
        show (List.zipWith (· || ·) c d).getD i false = true
        rw [hz, hj', Bool.or_true]
      | j + 2, hj => exact ⟨j + 1, hj⟩

lemma remaining_spec (conds : List (List Bool)) (n i : Nat) (hi : i < n) (hne : conds ≠ [])
    (hc : ∀ c ∈ conds, c.length = n) :
    (remaining conds).length = n ∧ ((remaining conds).getD i false = true ↔ ∀ j, ¬ Holds conds j i) := by
  obtain ⟨c, l, rfl⟩ := List.exists_cons_of_ne_nil hne
  have hcl := hc c (List.mem_cons_self ..)
  have hl : ∀ d ∈ l, d.length = n := fun e he => hc e (List.mem_cons_of_mem _ he)
  have h1 := or_fold_length l n c hcl hl
  have h2 := or_fold l n i hi c hcl hl
  refine ⟨by simp [remaining, h1], ?_⟩
  rw [List.getD_eq_getElem _ _ (by rw [h1]; exact hi)] at h2
  rw [List.getD_eq_getElem _ _ (by simp [remaining, h1, hi])]
  simp only [remaining, List.getElem_map, Bool.not_eq_true', ← not_exists, ← h2]
  simp

lemma holds_append (conds : List (List Bool)) (r : List Bool) (j i : Nat) :
    Holds (conds ++ [r]) j i ↔ Holds conds j i ∨ (j = conds.length ∧ r.getD i false = true) := by
  unfold Holds
  rcases lt_trichotomy j conds.length with h | h | h
  · rw [List.getD_append _ _ _ _ h]
    constructor
    · exact Or.inl
    · rintro (h1 | ⟨h1, _⟩)
      · exact h1
      · omega
  · subst h
    rw [List.getD_append_right _ _ _ _ (le_refl _)]
    simp
  · have e1 : (conds ++ [r]).getD j [] = [] :=
      List.getD_eq_default _ _ (by simp only [List.length_append, List.length_singleton]; omega)
    have e2 : conds.getD j [] = [] := List.getD_eq_default _ _ h.le
    rw [e1, e2]
    simp only [List.getD_nil, Bool.false_eq_true, false_or, false_iff]
    omega

/-- The property: one more function than conditions. With numpy 1 the points where no condition holds get the value of the last
function. -/
theorem piece_default (np : Numpy) (hnp : np.tuples = false) (xs : List (List ℚ)) (conds : List (List Bool))
    (funcs : List Piece) (gs : Nat → List ℚ → ℚ) (fill : ℚ) (n : Nat) (hx : ∀ a ∈ xs, a.length = n)
    (hc : ∀ c ∈ conds, c.length = n) (hne : conds ≠ []) (hf : funcs.length = conds.length + 1)
    (hg : ∀ j p, funcs[j]? = some p → Means xs.length p (gs j)) :
    ∃ out, genpiecewise np false xs conds funcs fill = some out ∧ out.length = n ∧
      ∀ i, i < n → (∀ j, Holds conds j i → (∀ k, j < k → ¬ Holds conds k i) → out.getD i 0 = gs j (pt xs i)) ∧
        ((∀ j, ¬ Holds conds j i) → out.getD i 0 = gs conds.length (pt xs i)) := by
  have hrl : (remaining conds).length = n := by
    obtain ⟨c, l, rfl⟩ := List.exists_cons_of_ne_nil hne
    simp [remaining, or_fold_length l n c (hc c (List.mem_cons_self ..)) fun e he => hc e (List.mem_cons_of_mem _ he)]
  have hc' : ∀ c ∈ conds ++ [remaining conds], c.length = n := by
    intro c h
    rcases List.mem_append.1 h with h | h
    · exact hc c h
    · rw [List.mem_singleton.1 h, hrl]
  obtain ⟨o, h1, h2, h3⟩ := piece_values np xs (conds ++ [remaining conds]) funcs gs fill n hx hc' (by simp)
    (by simpa using hf) hg
  have hfl : conds.length + 1 = funcs.length := hf.symm
  refine ⟨o, ?_, h2, fun i hi => ?_⟩
  · rw [← h1]
    unfold genpiecewise
    have e1 : ¬ (np.tuples = true) := by simp [hnp]
    have e2 : ¬ ((conds ++ [remaining conds]).length + 1 ≠ funcs.length ∧
        (conds ++ [remaining conds]).length ≠ funcs.length) := fun h => h.2 (by simpa using hfl)
    have e3 : ¬ (conds ++ [remaining conds]).length + 1 = funcs.length := by
      simp only [List.length_append, List.length_singleton]; omega
    rw [if_neg (fun h => h.1 hfl), if_pos hfl, if_neg e1, if_neg e2, if_neg e3]
  · obtain ⟨h4, _⟩ := h3 i hi
    have hr := (remaining_spec conds n i hi hne hc).2
    refine ⟨fun j hj hk => h4 j ((holds_append ..).2 (Or.inl hj)) fun k hk' hh => ?_, fun hn => ?_⟩
    · rcases (holds_append ..).1 hh with h | ⟨_, h⟩
      · exact hk k hk' h
      · exact hr.1 h j hj
    · refine h4 _ ((holds_append ..).2 (Or.inr ⟨rfl, hr.2 hn⟩)) fun k hk' hh => ?_
      rcases (holds_append ..).1 hh with h | ⟨h, _⟩
      · exact hn k h
      · omega

/-- With numpy 2 a default function is always an error, whatever the arrays, conditions and functions are. -/
theorem piece_default_refuted (np : Numpy) (hnp : np.tuples = true) (ints : Bool) (xs : List (List ℚ))
    (conds : List (List Bool)) (funcs : List Piece) (fill : ℚ) (hf : funcs.length = conds.length + 1) :
    genpiecewise np ints xs conds funcs fill = none := by
  unfold genpiecewise
  rw [if_neg (fun h => h.1 hf.symm), if_pos hf.symm, if_pos hnp]
  rfl

/-- Numbers of functions that do not fit the conditions, and no conditions at all without functions, are errors. -/
theorem piece_counts (np : Numpy) (ints : Bool) (xs : List (List ℚ)) (conds : List (List Bool)) (funcs : List Piece)
    (fill : ℚ) (h : (funcs.length ≠ conds.length ∧ funcs.length ≠ conds.length + 1) ∨ (conds = [] ∧ funcs = [])) :
    genpiecewise np ints xs conds funcs fill = none := by
  unfold genpiecewise
  rcases h with h | ⟨rfl, rfl⟩
  · rw [if_pos ⟨fun e => h.2 e.symm, fun e => h.1 e.symm⟩]
  · simp

/-- The lengths of the arrays and of the conditions are not compared: a condition that is too short gives a result that is too
short, without a value for the other points. -/
theorem piece_short_refuted (np : Numpy) (c : ℚ) (xs : List (List ℚ)) (cond : List Bool) (fill : ℚ) :
    ∃ out, genpiecewise np false xs [cond] [.num c] fill = some out ∧ out.length = cond.length := by
  refine ⟨placeLoop [c] 0 cond (cond.map fun _ => fill), ?_, by simp [placeLoop_length]⟩
  simp [genpiecewise, piece, place, List.foldlM]

/-- Arrays of integers: the points where no condition holds do not get the fill value but its integer part. -/
theorem piece_integer_fill_refuted (np : Numpy) (xs : List (List ℚ)) (n : Nat) (fill : ℚ) (hx : ∀ a ∈ xs, a.length = n)
    (c : ℚ) (hs : np.store c ≠ none) :
    genpiecewise np true xs [List.replicate n false] [.num c] fill = some (List.replicate n (truncate fill)) := by
  obtain ⟨d, hd⟩ := Option.ne_none_iff_exists'.1 hs
  have h : ∀ (m k : Nat), placeLoop [d] k (List.replicate m false) (List.replicate m (truncate fill)) =
      List.replicate m (truncate fill) := by
    intro m
    induction m with
    | zero => intro k; rfl
    | succ m ih => intro k; simp [List.replicate_succ, placeLoop, ih]
  simp [genpiecewise, piece, place, List.foldlM, hd, h]

/-- Not every fill value is its integer part. -/
theorem piece_integer_fill_wrong : truncate (1 / 2) = 0 ∧ truncate (-7 / 2) = -3 := by
  constructor <;> (unfold truncate; norm_num [Int.floor_eq_iff, Int.ceil_eq_iff])

/-- Two arrays and two overlapping conditions meet the hypotheses. -/
example : ∃ (xs : List (List ℚ)) (conds : List (List Bool)) (funcs : List Piece) (gs : Nat → List ℚ → ℚ),
    (∀ a ∈ xs, a.length = 3) ∧ (∀ c ∈ conds, c.length = 3) ∧ conds ≠ [] ∧ funcs.length = conds.length ∧
    (∀ j p, funcs[j]? = some p → Means xs.length p (gs j)) ∧ Holds conds 0 1 ∧ Holds conds 1 1 ∧ ¬ Holds conds 0 2 := by
  refine ⟨[[0, 1, 2], [3, 4, 5]], [[true, true, false], [false, true, false]],
    [.call fun cols => some (List.zipWith (· + ·) (cols.getD 0 []) (cols.getD 1 [])), .num 7],
    fun j => if j = 0 then fun q => q.getD 0 0 + q.getD 1 0 else fun _ => 7, by decide, by decide, by decide, by decide, ?_,
    by unfold Holds; decide, by unfold Holds; decide, by unfold Holds; decide⟩
  intro j p hp
  match j, hp with
  | 0, hp =>
    cases hp
    intro k cols hcl hk
    left
    match cols, hcl with
    | [a, b], _ =>
      have ha := hk a (by simp)
      have hb := hk b (by simp)
      simp only [List.getD_cons_zero, List.getD_cons_succ, rows, Option.some.injEq, if_true, List.map_map]
      apply List.ext_getElem
      · simp [ha, hb]
      · intro i h1 h2
        have h3 : i < k := by simpa using h2
        simp [List.getD_eq_getElem, ha, hb, h3]
  | 1, hp => cases hp; intro q; rfl
  | j + 2, hp => simp at hp

example : genpiecewise ⟨true, some⟩ false [[0, 1, 2], [3, 4, 5]] [[true, true, false], [false, true, false]]
    [.call fun cols => some (List.zipWith (· + ·) (cols.getD 0 []) (cols.getD 1 [])), .num 7] 9 = some [3, 7, 9] := by
  decide +kernel

example : genpiecewise ⟨false, some⟩ false [[0, 1, 2]] [[true, false, false]] [.num 1, .num 2] 9 = some [1, 2, 2] := by
  decide +kernel

/-- With a default function and no conditions at all the result has one entry, however many points there are. -/
theorem piece_no_conditions_refuted (np : Numpy) (hnp : np.tuples = false) (xs : List (List ℚ)) (c fill : ℚ) :
    genpiecewise np false xs [] [.num c] fill = some [c] := by
  simp [genpiecewise, hnp, remaining, piece, place, placeLoop, List.foldlM]

/-! ### Concentrations with a jump -/

lemma jump_aux (np : Numpy) (x y : List ℚ) (n : Nat) (hx : x.length = n) (hy : y.length = n) (P : ℚ → Prop)
    [DecidablePred P] (a b : List Bool) (ha : a = List.zipWith (fun x y => decide (x ≥ 3 / 4) && !decide (P y)) x y)
    (hb : b = List.zipWith (fun x y => decide (x ≥ 3 / 4) && decide (P y)) x y) :
    ∃ out, genpiecewise np false [x, y] [x.map fun x => decide (x < 3 / 4), a, b] [zeroPiece, zeroPiece, onePiece] 0 =
        some out ∧ out.length = n ∧
      ∀ i, i < n → out.getD i 0 = if 3 / 4 ≤ x.getD i 0 ∧ P (y.getD i 0) then 1 else 1 / 1000000 := by
  have hz : Means 2 zeroPiece fun _ => 1 / 1000000 := by
    intro k cols hc hk
    left
    have : (cols.getD 0 []).length = k := by
      match cols, hc with
      | c :: l, _ => exact hk c (by simp)
    simp only [rows, List.map_map, Function.comp_def, List.map_const', this, List.length_range]
  have ho : Means 2 onePiece fun _ => 1 := by
    intro k cols hc hk
    left
    have : (cols.getD 0 []).length = k := by
      match cols, hc with
      | c :: l, _ => exact hk c (by simp)
    simp only [rows, List.map_map, Function.comp_def, List.map_const', this, List.length_range]
  obtain ⟨o, h1, h2, h3⟩ := piece_values np [x, y] [x.map fun x => decide (x < 3 / 4), a, b]
    [zeroPiece, zeroPiece, onePiece] (fun j _ => if j = 2 then 1 else 1 / 1000000) 0 n (by simp [hx, hy])
    (by subst ha hb; simp [hx, hy]) (by simp) rfl (by
      intro j p hp
      match j, hp with
      | 0, hp => cases hp; exact hz
      | 1, hp => cases hp; exact hz
      | 2, hp => cases hp; exact ho
      | j + 3, hp => simp at hp)
  refine ⟨o, h1, h2, fun i hi => ?_⟩
  have hxi : i < x.length := hx ▸ hi
  have hyi : i < y.length := hy ▸ hi
  have g0 : Holds [x.map fun x => decide (x < 3 / 4), a, b] 0 i ↔ x.getD i 0 < 3 / 4 := by
    simp [Holds, List.getD_eq_getElem, hxi]
  have g1 : Holds [x.map fun x => decide (x < 3 / 4), a, b] 1 i ↔ 3 / 4 ≤ x.getD i 0 ∧ ¬ P (y.getD i 0) := by
    subst ha
    simp [Holds, List.getD_eq_getElem, hxi, hyi]
  have g2 : Holds [x.map fun x => decide (x < 3 / 4), a, b] 2 i ↔ 3 / 4 ≤ x.getD i 0 ∧ P (y.getD i 0) := by
    subst hb
    simp [Holds, List.getD_eq_getElem, hxi, hyi]
  have g3 : ∀ k, 2 < k → ¬ Holds [x.map fun x => decide (x < 3 / 4), a, b] k i := by
    intro k hk
    have : [x.map fun x => decide (x < 3 / 4), a, b].getD k [] = [] := List.getD_eq_default _ _ (by simp; omega)
    simp only [Holds, this]
    simp
  obtain ⟨h4, -⟩ := h3 i hi
  by_cases hc : 3 / 4 ≤ x.getD i 0 ∧ P (y.getD i 0)
  · rw [if_pos hc, h4 2 (g2.2 hc) g3]; rfl
  · rw [if_neg hc]
    by_cases hc0 : x.getD i 0 < 3 / 4
    · rw [h4 0 (g0.2 hc0)]
      · rfl
      · intro k hk hh
        match k, hk, hh with
        | 1, _, hh => exact absurd (g1.1 hh).1 (by linarith)
        | 2, _, hh => exact hc (g2.1 hh)
        | k + 3, _, hh => exact g3 _ (by omega) hh
    · rw [h4 1 (g1.2 ⟨not_lt.1 hc0, fun hp => hc ⟨not_lt.1 hc0, hp⟩⟩)]
      · rfl
      · intro k hk hh
        match k, hk, hh with
        | 2, _, hh => exact hc (g2.1 hh)
        | k + 3, _, hh => exact g3 _ (by omega) hh

/-- The concentrations with a jump: one in their corner, and `1e-6` everywhere else, so their logarithms exist; no point is left
out by the conditions. -/
theorem jump_values (np : Numpy) (x y : List ℚ) (h : x.length = y.length) : ∃ p q, jumpP np x y = some p ∧
    jumpN np x y = some q ∧ p.length = x.length ∧ q.length = x.length ∧ ∀ i, i < x.length →
      p.getD i 0 = (if 3 / 4 ≤ x.getD i 0 ∧ 11 / 20 ≤ y.getD i 0 then 1 else 1 / 1000000) ∧
      q.getD i 0 = if 3 / 4 ≤ x.getD i 0 ∧ y.getD i 0 ≤ 9 / 20 then 1 else 1 / 1000000 := by
  obtain ⟨p, p1, p2, p3⟩ := jump_aux np x y x.length rfl h.symm (fun y => 11 / 20 ≤ y)
    (List.zipWith (fun x y => decide (x ≥ 3 / 4) && decide (y < 11 / 20)) x y)
    (List.zipWith (fun x y => decide (x ≥ 3 / 4) && decide (y ≥ 11 / 20)) x y)
    (by congr 1; funext x y; simp [← decide_not]) rfl
  obtain ⟨q, q1, q2, q3⟩ := jump_aux np x y x.length rfl h.symm (fun y => y ≤ 9 / 20)
    (List.zipWith (fun x y => decide (x ≥ 3 / 4) && decide (y > 9 / 20)) x y)
    (List.zipWith (fun x y => decide (x ≥ 3 / 4) && decide (y ≤ 9 / 20)) x y)
    (by congr 1; funext x y; simp [← decide_not]) rfl
  exact ⟨p, q, p1, q1, p2, q2, fun i hi => ⟨p3 i hi, q3 i hi⟩⟩

example : jumpP ⟨true, some⟩ [1 / 2, 4 / 5, 4 / 5] [1, 1 / 2, 3 / 5] = some [1 / 1000000, 1 / 1000000, 1] := by
  decide +kernel

end Phyem.Samples
