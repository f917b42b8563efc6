import Verif.Samples.Pieces
import Mathlib.Tactic.Ring
import Mathlib.Tactic.NormNum

/-!
# Functions given piece by piece: every point gets the value of its piece
-/

namespace Phyem.Samples

/-- The points with the coordinates in `cols`, `k` of them. -/
def rows (k : Nat) (cols : List (List ℚ)) : List (List ℚ) :=
  (List.range k).map fun i => cols.map fun c => c.getD i 0

/-- The point number `i`. -/
def pt (xs : List (List ℚ)) (i : Nat) : List ℚ := xs.map fun a => a.getD i 0

/-- An entry of the list of functions stands for the function `g` of one point: it is a number and `g` is constant, or it is
a function of arrays of coordinates that returns the values of `g` at the points, or one number if `g` is constant. -/
def Means (d : Nat) (p : Piece) (g : List ℚ → ℚ) : Prop :=
  match p with
  | .num c => ∀ q, g q = c
  | .call f => ∀ k cols, cols.length = d → (∀ c ∈ cols, c.length = k) →
      f cols = some ((rows k cols).map g) ∨ ∃ c, f cols = some [c] ∧ ∀ q, g q = c

/-- The condition number `j` holds at the point number `i`. -/
def Holds (conds : List (List Bool)) (j i : Nat) : Prop := (conds.getD j []).getD i false = true

/-! ### Lemmas -/

/-- The indices where the mask is true, counted from `o`. -/
def selFrom (o : Nat) (mask : List Bool) : List Nat := ((mask.zipIdx o).filter (·.1)).map (·.2)

lemma selFrom_cons_true (o : Nat) (m : List Bool) : selFrom o (true :: m) = o :: selFrom (o + 1) m := by
  simp [selFrom]

lemma selFrom_cons_false (o : Nat) (m : List Bool) : selFrom o (false :: m) = selFrom (o + 1) m := by
  simp [selFrom]

lemma selFrom_lt (m : List Bool) : ∀ o, ∀ s ∈ selFrom o m, s < o + m.length := by
  induction m with
  | nil => intro o s h; simp [selFrom] at h
  | cons b m ih =>
    intro o s h
    cases b
    · rw [selFrom_cons_false] at h
      have := ih _ _ h
      simp only [List.length_cons]; omega
    · rw [selFrom_cons_true] at h
      rcases List.mem_cons.1 h with h | h
      · simp only [List.length_cons]; omega
      · have := ih _ _ h
        simp only [List.length_cons]; omega

lemma mapM_some {α β : Type} (l : List α) (f : α → Option β) (g : α → β) (h : ∀ a ∈ l, f a = some (g a)) :
    l.mapM f = some (l.map g) := by
  induction l with
  | nil => rfl
  | cons a l ih =>
    rw [List.mapM_cons, h a (List.mem_cons_self ..), ih fun b hb => h b (List.mem_cons_of_mem _ hb)]
    rfl

lemma extract_eq (mask : List Bool) (arr : List ℚ) (h : mask.length ≤ arr.length) :
    extract mask arr = some ((selFrom 0 mask).map fun s => arr.getD s 0) := by
  unfold extract
  rw [mapM_some _ _ (fun p => arr.getD p.2 0)]
  · simp [selFrom]
  · intro p hp
    have : p.2 ∈ selFrom 0 mask := List.mem_map.2 ⟨p, hp, rfl⟩
    have := selFrom_lt mask 0 _ this
    have hl : p.2 < arr.length := by omega
    rw [List.getElem?_eq_getElem hl, List.getD_eq_getElem _ _ hl]

lemma rows_extract (xs : List (List ℚ)) (sel : List Nat) :
    rows sel.length (xs.map fun a => sel.map fun s => a.getD s 0) = sel.map (pt xs) := by
  unfold rows pt
  apply List.ext_getElem
  · simp
  · intro i h1 h2
    simp only [List.getElem_map, List.getElem_range, List.map_map]
    apply List.map_congr_left
    intro a _
    have h3 : i < sel.length := by simpa using h2
    simp [List.getD_eq_getElem, h3]

lemma placeLoop_length (vals : List ℚ) (mask : List Bool) : ∀ k out, (placeLoop vals k mask out).length = out.length := by
  induction mask with
  | nil => intro k out; rfl
  | cons b m ih =>
    intro k out
    cases out with
    | nil => cases b <;> rfl
    | cons a o => cases b <;> simp [placeLoop, ih]

lemma placeLoop_values (h : Nat → ℚ) (mask : List Bool) : ∀ (o : Nat) (pre out : List ℚ), mask.length = out.length →
    ∀ i, i < mask.length → (placeLoop (pre ++ (selFrom o mask).map h) pre.length mask out).getD i 0 =
      if mask.getD i false then h (o + i) else out.getD i 0 := by
  induction mask with
  | nil => intro o pre out _ i hi; simp at hi
  | cons b m ih =>
    intro o pre out hl i hi
    cases out with
    | nil => simp at hl
    | cons a out =>
      have hl' : m.length = out.length := by simpa using hl
      cases b
      · rw [selFrom_cons_false]
        cases i with
        | zero => simp [placeLoop]
        | succ i =>
          have := ih (o + 1) pre out hl' i (by simpa using hi)
          simp only [placeLoop, List.getD_cons_succ, this]
          rw [show o + 1 + i = o + (i + 1) by omega]
      · rw [selFrom_cons_true]
        have e : pre ++ (o :: selFrom (o + 1) m).map h = (pre ++ [h o]) ++ (selFrom (o + 1) m).map h := by simp
        cases i with
        | zero =>
          have hlt : pre.length % (pre.length + ((selFrom (o + 1) m).length + 1)) = pre.length :=
            Nat.mod_eq_of_lt (by omega)
          simp [placeLoop, hlt]
        | succ i =>
          have := ih (o + 1) (pre ++ [h o]) out hl' i (by simpa using hi)
          rw [show (pre ++ [h o]).length = pre.length + 1 by simp] at this
          simp only [placeLoop, List.getD_cons_succ]
          rw [e, this, show o + 1 + i = o + (i + 1) by omega]

lemma placeLoop_const (c : ℚ) (mask : List Bool) : ∀ (k : Nat) (out : List ℚ), mask.length = out.length →
    ∀ i, i < mask.length → (placeLoop [c] k mask out).getD i 0 = if mask.getD i false then c else out.getD i 0 := by
  induction mask with
  | nil => intro k out _ i hi; simp at hi
  | cons b m ih =>
    intro k out hl i hi
    cases out with
    | nil => simp at hl
    | cons a out =>
      have hl' : m.length = out.length := by simpa using hl
      cases b <;> cases i with
        | zero => simp [placeLoop, Nat.mod_one]
        | succ i =>
          simp only [placeLoop, List.getD_cons_succ]
          exact ih _ out hl' i (by simpa using hi)

lemma selFrom_nil (mask : List Bool) : ∀ o, selFrom o mask = [] → ∀ i, mask.getD i false = false := by
  induction mask with
  | nil => intro o _ i; rfl
  | cons b m ih =>
    intro o h i
    cases b
    · cases i with
      | zero => rfl
      | succ i => rw [selFrom_cons_false] at h; exact ih _ h i
    · rw [selFrom_cons_true] at h; exact absurd h (by simp)

lemma any_of_sel (mask : List Bool) (h : selFrom 0 mask = []) : mask.any id = false := by
  rw [Bool.eq_false_iff]
  intro h1
  obtain ⟨b, hb, hb2⟩ := List.any_eq_true.1 h1
  obtain ⟨i, hi, rfl⟩ := List.getElem_of_mem hb
  have := selFrom_nil mask 0 h i
  rw [List.getD_eq_getElem _ _ hi] at this
  simp [this] at hb2

lemma piece_spec (np : Numpy) (xs : List (List ℚ)) (out : List ℚ) (cond : List Bool) (p : Piece) (g : List ℚ → ℚ) (n : Nat)
    (hx : ∀ a ∈ xs, a.length = n) (ho : out.length = n) (hc : cond.length = n) (hg : Means xs.length p g) :
    ∃ out', piece np false xs out cond p = some out' ∧ out'.length = n ∧
      ∀ i, i < n → out'.getD i 0 = if cond.getD i false then g (pt xs i) else out.getD i 0 := by
  have const : ∀ c, (∀ q, g q = c) → ∃ out', place cond [c] out = some out' ∧ out'.length = n ∧
      ∀ i, i < n → out'.getD i 0 = if cond.getD i false then g (pt xs i) else out.getD i 0 := by
    intro c hg
    refine ⟨_, rfl, (placeLoop_length ..).trans ho, fun i hi => ?_⟩
    rw [placeLoop_const c cond 0 out (hc.trans ho.symm) i (hc ▸ hi), hg]
  cases p with
  | num c =>
    obtain ⟨o, h1, h2⟩ := const c hg
    exact ⟨o, by simp [piece, h1], h2⟩
  | call f =>
    have hm : xs.mapM (extract cond) = some (xs.map fun a => (selFrom 0 cond).map fun s => a.getD s 0) :=
      mapM_some _ _ _ fun a ha => extract_eq _ _ (by rw [hc, hx a ha])
    rcases hg (selFrom 0 cond).length (xs.map fun a => (selFrom 0 cond).map fun s => a.getD s 0) (by simp) (by simp)
      with h | ⟨c, h, h2⟩
    · rw [rows_extract] at h
      have hp : piece np false xs out cond (.call f) = place cond (((selFrom 0 cond).map (pt xs)).map g) out := by
        simp only [piece, hm, Option.bind_some, h, Bool.false_eq_true, if_false]
      rw [hp]
      by_cases he : selFrom 0 cond = []
      · refine ⟨out, by simp [place, he, any_of_sel cond he], ho, fun i hi => ?_⟩
        rw [selFrom_nil cond 0 he i]
        rfl
      · refine ⟨_, by rw [place, if_neg (by simpa using he)], (placeLoop_length ..).trans ho, fun i hi => ?_⟩
        have := placeLoop_values (fun s => g (pt xs s)) cond 0 [] out (hc.trans ho.symm) i (hc ▸ hi)
        simp only [List.nil_append, List.length_nil, Nat.zero_add] at this
        rw [List.map_map]
        exact this
    · obtain ⟨o, h3, h4⟩ := const c h2
      exact ⟨o, by simp only [piece, hm, Option.bind_some, h, Bool.false_eq_true, if_false, h3], h4⟩

end Phyem.Samples
