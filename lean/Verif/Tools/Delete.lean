import Mathlib.Data.List.Basic
import Mathlib.Data.List.Range
import Mathlib.Data.List.Sort
import Mathlib.Data.List.NodupEquivFin

/-!
Model of `msepy/tools/remove_rows_columns_of_csr.py` (`delete_from_csr`) and property C40.
-/

namespace Phyem.Delete

/-- A matrix with its shape (values of an arbitrary type; sparse storage is not modelled). -/
structure M (R : Type) where
  rows : Nat
  cols : Nat
  entry : Nat → Nat → R

/-- Argument `_rows`/`_cols`: an int or a list of ints. -/
inductive Arg where
  | int (i : Int)
  | list (l : List Int)

/-- `if isinstance(_rows, int): rows = [_rows, ] else: rows = _rows`, lines 17-25. -/
def Arg.toList : Arg → List Int
  | .int i => [i]
  | .list l => l

/-- Python/numpy index normalisation for an axis of length `n`: negative indices count from the end;
`none` is an IndexError. -/
def norm (n : Nat) (i : Int) : Option Nat :=
  if 0 ≤ i ∧ i < n then some i.toNat
  else if i < 0 ∧ -(n : Int) ≤ i then some (i + n).toNat
  else none

/-- `mask = np.ones(n, dtype=bool); mask[idx] = False`, lines 28-31; `none` is an IndexError. -/
def mask (n : Nat) (idx : List Int) : Option (List Bool) :=
  idx.foldlM (fun m i => (norm n i).map fun k => m.set k false) (List.replicate n true)

/-- `np.nonzero(mask)`: the positions selected by a boolean index. -/
def selected (m : List Bool) : List Nat := (List.range m.length).filter fun i => m.getD i false

/-- `mat[mask]` with a boolean mask on the rows. -/
def takeRows {R : Type} (a : M R) (m : List Bool) : M R :=
  ⟨(selected m).length, a.cols, fun i j => a.entry ((selected m).getD i 0) j⟩

/-- `mat[:, mask]`. -/
def takeCols {R : Type} (a : M R) (m : List Bool) : M R :=
  ⟨a.rows, (selected m).length, fun i j => a.entry i ((selected m).getD j 0)⟩

/-- `delete_from_csr`, remove_rows_columns_of_csr.py:8-42 (the test for the csr format is not
modelled). -/
def deleteFromCsr {R : Type} (a : M R) (rows cols : Arg) : Option (M R) :=
  let r := rows.toList
  let c := cols.toList
  if r.length > 0 ∧ c.length > 0 then
    match mask a.rows r, mask a.cols c with
    | some rm, some cm => some (takeCols (takeRows a rm) cm)
    | _, _ => none
  else if r.length > 0 then (mask a.rows r).map (takeRows a)
  else if c.length > 0 then (mask a.cols c).map (takeCols a)
  else some a

/-! ### Specification -/

/-- Index `i` is one of the listed ones, negative ones counting from the end. -/
def Listed (n : Nat) (l : List Int) (i : Nat) : Prop := (i : Int) ∈ l ∨ (i : Int) - n ∈ l

instance (n : Nat) (l : List Int) (i : Nat) : Decidable (Listed n l i) := by
  unfold Listed; infer_instance

/-- All listed indices exist on an axis of length `n`. -/
def AllExist (n : Nat) (l : List Int) : Prop := ∀ i ∈ l, -(n : Int) ≤ i ∧ i < n

/-- `f` enumerates in increasing order exactly the positions of an axis of length `n` that are not
listed, `k` of them. -/
structure Enumerates (n : Nat) (l : List Int) (k : Nat) (f : Nat → Nat) : Prop where
  increasing : ∀ i j, i < j → j < k → f i < f j
  exactly : ∀ p, (∃ i < k, f i = p) ↔ p < n ∧ ¬ Listed n l p

/-! ### Proofs -/

theorem norm_some {n : Nat} {i : Int} {k : Nat} (h : norm n i = some k) :
    k < n ∧ ((k : Int) = i ∨ (k : Int) - n = i) := by
  unfold norm at h
  split_ifs at h <;> simp at h <;> omega

theorem norm_isSome (n : Nat) (i : Int) : (norm n i).isSome ↔ -(n : Int) ≤ i ∧ i < n := by
  unfold norm
  split_ifs <;> simp <;> omega

theorem norm_listed {n : Nat} {i : Int} {k : Nat} (h : norm n i = some k) (p : Nat) (hp : p < n) :
    Listed n [i] p ↔ p = k := by
  have := norm_some h
  unfold Listed
  simp only [List.mem_singleton]
  omega

theorem mask_fold (n : Nat) (l : List Int) (m : List Bool) (hm : m.length = n) :
    (AllExist n l → ∃ m', l.foldlM (fun m i => (norm n i).map fun k => m.set k false) m = some m' ∧
      m'.length = n ∧ ∀ p < n, m'.getD p false = (m.getD p false && !decide (Listed n l p))) ∧
    (¬ AllExist n l → l.foldlM (fun m i => (norm n i).map fun k => m.set k false) m = none) := by

  induction l generalizing m with
  | nil =>
    refine ⟨fun _ => ⟨m, rfl, hm, ?_⟩, fun h => absurd (by intro i hi; simp at hi) h⟩
    intro p _
    simp [Listed]
  | cons i l ih =>
    simp only [List.foldlM_cons]
    cases hi : norm n i with
    | none =>
      have hno : ¬ AllExist n (i :: l) := by
        intro h
        have := (norm_isSome n i).2 (h i (by simp))
        rw [hi] at this
        simp at this
      exact ⟨fun h => absurd h hno, fun _ => rfl⟩
    | some k =>
      have hk := norm_some hi
      have hex : -(n : Int) ≤ i ∧ i < n := (norm_isSome n i).1 (by simp [hi])
      have ih := ih (m.set k false) (by simpa using hm)
      have hall : AllExist n (i :: l) ↔ AllExist n l := by
        constructor
        · intro h j hj; exact h j (by simp [hj])
        · intro h j hj
          rcases List.mem_cons.1 hj with rfl | hj
          · exact hex
          · exact h j hj
      constructor
      · intro h
        obtain ⟨m', h1, h2, h3⟩ := ih.1 (hall.1 h)
        refine ⟨m', by simpa using h1, h2, ?_⟩
        intro p hp
        rw [h3 p hp]
        have hl : Listed n (i :: l) p ↔ p = k ∨ Listed n l p := by
          rw [← norm_listed hi p hp]
          unfold Listed
          simp only [List.mem_cons, List.not_mem_nil, or_false]
          tauto
        by_cases hpk : p = k
        · subst hpk
          simp [hl, List.getD_eq_getElem?_getD, hm, hp]
        · simp [hl, hpk, List.getD_eq_getElem?_getD, List.getElem?_set_ne (Ne.symm hpk)]
      · intro h
        have := ih.2 (fun h' => h (hall.2 h'))
        simpa using this

theorem selected_spec (n : Nat) (l : List Int) (m : List Bool) (hm : m.length = n)
    (h : ∀ p < n, m.getD p false = true ↔ ¬ Listed n l p) :
    Enumerates n l (selected m).length (fun i => (selected m).getD i 0) := by
  have hs : (selected m).Pairwise (· < ·) := List.pairwise_lt_range.filter _
  constructor
  · intro i j hij hj
    have hi : i < (selected m).length := by omega
    simp only [List.getD_eq_getElem?_getD, List.getElem?_eq_getElem hi, List.getElem?_eq_getElem hj,
      Option.getD_some]
    exact List.pairwise_iff_getElem.1 hs i j hi hj hij
  · intro p
    constructor
    · rintro ⟨i, hi, rfl⟩
      have hmem : (selected m).getD i 0 ∈ selected m := by
        simp only [List.getD_eq_getElem?_getD, List.getElem?_eq_getElem hi, Option.getD_some]
        exact List.getElem_mem hi
      have := List.mem_filter.1 hmem
      rw [List.mem_range, hm] at this
      exact ⟨this.1, (h _ this.1).1 this.2⟩
    · rintro ⟨hp, hl⟩
      have hmem : p ∈ selected m :=
        List.mem_filter.2 ⟨by rw [List.mem_range, hm]; exact hp, (h p hp).2 hl⟩
      obtain ⟨i, hi, rfl⟩ := List.getElem_of_mem hmem
      exact ⟨i, hi, by simp [List.getD_eq_getElem?_getD, hi]⟩

theorem mask_spec (n : Nat) (l : List Int) :
    (AllExist n l → ∃ m, mask n l = some m ∧
      Enumerates n l (selected m).length (fun i => (selected m).getD i 0)) ∧
    (¬ AllExist n l → mask n l = none) := by

  have := mask_fold n l (List.replicate n true) (by simp)
  refine ⟨fun h => ?_, this.2⟩
  obtain ⟨m, h1, h2, h3⟩ := this.1 h
  refine ⟨m, h1, selected_spec n l m h2 ?_⟩
  intro p hp
  rw [h3 p hp]
  simp [List.getD_eq_getElem?_getD, hp]

theorem enumerates_nil (n : Nat) : Enumerates n [] n (fun i => i) :=
  ⟨fun i j h _ => h, fun p => ⟨fun ⟨i, hi, e⟩ => ⟨e ▸ hi, by simp [Listed]⟩,
    fun h => ⟨p, h.1, rfl⟩⟩⟩

/-- **C40.** For every matrix and all index arguments: if all listed rows and columns exist, the
result is the matrix of the remaining rows and columns in their order; otherwise the call
raises. -/
theorem delete_from_csr_spec {R : Type} (a : M R) (rows cols : Arg) :
    (AllExist a.rows rows.toList → AllExist a.cols cols.toList →
      ∃ b f g, deleteFromCsr a rows cols = some b ∧
        Enumerates a.rows rows.toList b.rows f ∧ Enumerates a.cols cols.toList b.cols g ∧
        ∀ i < b.rows, ∀ j < b.cols, b.entry i j = a.entry (f i) (g j)) ∧
    (¬ (AllExist a.rows rows.toList ∧ AllExist a.cols cols.toList) →
      deleteFromCsr a rows cols = none) := by
  have mr := mask_spec a.rows rows.toList
  have mc := mask_spec a.cols cols.toList
  constructor
  · intro hr hc
    obtain ⟨rm, r1, r2⟩ := mr.1 hr
    obtain ⟨cm, c1, c2⟩ := mc.1 hc
    unfold deleteFromCsr
    simp only [r1, c1]
    by_cases h1 : rows.toList.length > 0
    · by_cases h2 : cols.toList.length > 0
      · rw [if_pos ⟨h1, h2⟩]
        exact ⟨_, _, _, rfl, r2, c2, fun i _ j _ => rfl⟩
      · rw [if_neg (fun h => h2 h.2), if_pos h1]
        have h3 : cols.toList = [] := List.length_eq_zero_iff.1 (by omega)
        rw [h3]
        exact ⟨_, _, _, rfl, r2, enumerates_nil _, fun i _ j _ => rfl⟩
    · have h3 : rows.toList = [] := List.length_eq_zero_iff.1 (by omega)
      rw [if_neg (fun h => h1 h.1), if_neg h1, h3]
      by_cases h2 : cols.toList.length > 0
      · rw [if_pos h2]
        exact ⟨_, _, _, rfl, enumerates_nil _, c2, fun i _ j _ => rfl⟩
      · rw [if_neg h2]
        have h4 : cols.toList = [] := List.length_eq_zero_iff.1 (by omega)
        rw [h4]
        exact ⟨_, _, _, rfl, enumerates_nil _, enumerates_nil _, fun i _ j _ => rfl⟩
  · intro h
    have hnil : ∀ n l, ¬ AllExist n l → l.length > 0 := by
      intro n l h
      by_contra h0
      apply h
      have : l = [] := List.length_eq_zero_iff.1 (by omega)
      rw [this]; intro i hi; simp at hi
    unfold deleteFromCsr
    by_cases hr : AllExist a.rows rows.toList
    · have hc : ¬ AllExist a.cols cols.toList := fun hc => h ⟨hr, hc⟩
      have h2 := hnil _ _ hc
      simp only [mc.2 hc]
      by_cases h1 : rows.toList.length > 0
      · rw [if_pos ⟨h1, h2⟩]
        cases mask a.rows rows.toList <;> rfl
      · rw [if_neg (fun h => h1 h.1), if_neg h1, if_pos h2]; rfl
    · have h1 := hnil _ _ hr
      simp only [mr.2 hr]
      by_cases h2 : cols.toList.length > 0
      · rw [if_pos ⟨h1, h2⟩]
      · rw [if_neg (fun h => h2 h.2), if_pos h1]; rfl

/-- A 3 × 4 matrix with rows 0 and -1 and column 2 (listed twice) removed. -/
example : AllExist 3 [0, -1] ∧ AllExist 4 [2, 2] ∧
    ((deleteFromCsr (⟨3, 4, fun i j => 10 * i + j⟩ : M Nat) (.list [0, -1]) (.list [2, 2])).map
      fun b => (b.rows, b.cols, b.entry 0 0, b.entry 0 1, b.entry 0 2)) = some (1, 3, 10, 11, 13) := by
  refine ⟨by unfold AllExist; decide, by unfold AllExist; decide, by decide +kernel⟩

end Phyem.Delete
