import Mathlib.MeasureTheory.Measure.Lebesgue.Basic

/-!
# Boxes that tile a box

The specification of the union tests: a box is given by its two bounds on every axis, its points are real, its measure is the product of its
sides. Boxes are separate if they have no inner point in common. For separate boxes inside a box, the measures add up to that of the box exactly
if they cover it.
-/

namespace Phyem.Boxes

open MeasureTheory Set

variable {n : ℕ}

/-- A box: the lower and the upper bound on every axis. -/
abbrev Box (n : ℕ) := Fin n → ℚ × ℚ

/-- The points of a box. -/
def pts (b : Box n) : Set (Fin n → ℝ) := {p | ∀ i, ((b i).1 : ℝ) ≤ p i ∧ p i ≤ ((b i).2 : ℝ)}

/-- The inner points of a box. -/
def inner (b : Box n) : Set (Fin n → ℝ) := {p | ∀ i, ((b i).1 : ℝ) < p i ∧ p i < ((b i).2 : ℝ)}

/-- The points of some of the boxes. -/
def union (l : List (Box n)) : Set (Fin n → ℝ) := {p | ∃ b ∈ l, p ∈ pts b}

/-- The measure of a box. -/
def vol (b : Box n) : ℚ := ∏ i, ((b i).2 - (b i).1)

/-- A box that is not flat. -/
def Solid (b : Box n) : Prop := ∀ i, (b i).1 < (b i).2

/-- No two of the boxes have an inner point in common. -/
def Separate (l : List (Box n)) : Prop := l.Pairwise fun a b => ∀ p, ¬ (p ∈ inner a ∧ p ∈ inner b)

lemma pts_eq (b : Box n) : pts b = Icc (fun i => ((b i).1 : ℝ)) (fun i => ((b i).2 : ℝ)) := by
  ext p
  simp only [pts, mem_ofPred_eq, mem_Icc, Pi.le_def]
  exact ⟨fun h => ⟨fun i => (h i).1, fun i => (h i).2⟩, fun h i => ⟨h.1 i, h.2 i⟩⟩

lemma inner_eq (b : Box n) : inner b = univ.pi fun i => Ioo ((b i).1 : ℝ) ((b i).2 : ℝ) := by
  ext p
  simp only [inner, mem_ofPred_eq, mem_univ_pi, mem_Ioo]

lemma inner_sub (b : Box n) : inner b ⊆ pts b := fun _ h i => ⟨(h i).1.le, (h i).2.le⟩

lemma closed_pts (b : Box n) : IsClosed (pts b) := by rw [pts_eq]; exact isClosed_Icc

lemma open_inner (b : Box n) : IsOpen (inner b) := by rw [inner_eq]; exact isOpen_set_pi finite_univ fun _ _ => isOpen_Ioo

lemma closure_inner {b : Box n} (h : Solid b) : closure (inner b) = pts b := by
  rw [inner_eq, closure_pi_set, pts_eq, ← pi_univ_Icc]
  congr 1
  funext i
  exact closure_Ioo (by exact_mod_cast (h i).ne)

lemma volume_pts {b : Box n} (h : ∀ i, (b i).1 ≤ (b i).2) : volume (pts b) = ENNReal.ofReal (vol b : ℚ) := by
  rw [pts_eq, Real.volume_Icc_pi, ← ENNReal.ofReal_prod_of_nonneg]
  · congr 1
    unfold vol
    push_cast
    rfl
  · intro i _
    exact sub_nonneg.2 (by exact_mod_cast h i)

/-- Solid boxes have no inner point in common exactly if some axis separates them. -/
lemma separate_axis {a b : Box n} (ha : Solid a) (hb : Solid b) :
    (∀ p, ¬ (p ∈ inner a ∧ p ∈ inner b)) ↔ ∃ i, (a i).2 ≤ (b i).1 ∨ (b i).2 ≤ (a i).1 := by
  constructor
  · intro h
    by_contra hn
    push Not at hn
    refine h (fun i => ((max (a i).1 (b i).1 : ℚ) + (min (a i).2 (b i).2 : ℚ)) / 2) ⟨fun i => ?_, fun i => ?_⟩
    all_goals
      obtain ⟨h1, h2⟩ := hn i
      have h3 := ha i
      have h4 := hb i
      have hlt : (max (a i).1 (b i).1 : ℚ) < min (a i).2 (b i).2 := max_lt (lt_min h3 h2) (lt_min h1 h4)
      have hltr : ((max (a i).1 (b i).1 : ℚ) : ℝ) < ((min (a i).2 (b i).2 : ℚ) : ℝ) := by exact_mod_cast hlt
      have e1 : ((a i).1 : ℝ) ≤ ((max (a i).1 (b i).1 : ℚ) : ℝ) := by exact_mod_cast le_max_left _ _
      have e2 : ((b i).1 : ℝ) ≤ ((max (a i).1 (b i).1 : ℚ) : ℝ) := by exact_mod_cast le_max_right _ _
      have e3 : ((min (a i).2 (b i).2 : ℚ) : ℝ) ≤ ((a i).2 : ℝ) := by exact_mod_cast min_le_left _ _
      have e4 : ((min (a i).2 (b i).2 : ℚ) : ℝ) ≤ ((b i).2 : ℝ) := by exact_mod_cast min_le_right _ _
      constructor <;> linarith
  · rintro ⟨i, h | h⟩ p ⟨h1, h2⟩
    · have : ((a i).2 : ℝ) ≤ (b i).1 := by exact_mod_cast h
      linarith [(h1 i).2, (h2 i).1]
    · have : ((b i).2 : ℝ) ≤ (a i).1 := by exact_mod_cast h
      linarith [(h1 i).1, (h2 i).2]

lemma inter_null {a b : Box n} (ha : Solid a) (hb : Solid b) (h : ∀ p, ¬ (p ∈ inner a ∧ p ∈ inner b)) : volume (pts a ∩ pts b) = 0 := by
  obtain ⟨i, hi⟩ := (separate_axis ha hb).1 h
  rw [pts_eq, pts_eq, Icc_inter_Icc, Real.volume_Icc_pi]
  refine Finset.prod_eq_zero (Finset.mem_univ i) (ENNReal.ofReal_of_nonpos ?_)
  simp only [Pi.inf_apply, Pi.sup_apply]
  rcases hi with h | h
  · have : ((a i).2 : ℝ) ≤ (b i).1 := by exact_mod_cast h
    have h1 : ((a i).2 : ℝ) ⊓ ((b i).2 : ℝ) ≤ (a i).2 := inf_le_left
    have h2 : ((b i).1 : ℝ) ≤ ((a i).1 : ℝ) ⊔ ((b i).1 : ℝ) := le_sup_right
    linarith
  · have : ((b i).2 : ℝ) ≤ (a i).1 := by exact_mod_cast h
    have h1 : ((a i).2 : ℝ) ⊓ ((b i).2 : ℝ) ≤ (b i).2 := inf_le_right
    have h2 : ((a i).1 : ℝ) ≤ ((a i).1 : ℝ) ⊔ ((b i).1 : ℝ) := le_sup_left
    linarith

lemma union_nil : union ([] : List (Box n)) = ∅ := by
  ext p; simp [union]

lemma union_cons (b : Box n) (l : List (Box n)) : union (b :: l) = pts b ∪ union l := by
  ext p; simp [union]

lemma closed_union (l : List (Box n)) : IsClosed (union l) := by
  induction l with
  | nil => rw [union_nil]; exact isClosed_empty
  | cons b l ih => rw [union_cons]; exact (closed_pts b).union ih

lemma vol_pos {b : Box n} (h : Solid b) : 0 < vol b := Finset.prod_pos fun i _ => sub_pos.2 (h i)

lemma union_null {a : Box n} : ∀ {l : List (Box n)}, (∀ b ∈ l, volume (pts a ∩ pts b) = 0) → volume (pts a ∩ union l) = 0
  | [], _ => by rw [union_nil, inter_empty, measure_empty]
  | b :: l, h => by
    rw [union_cons, inter_union_distrib_left]
    refine measure_union_null (h b List.mem_cons_self) (union_null fun c hc => h c (List.mem_cons_of_mem _ hc))

lemma volume_union : ∀ {l : List (Box n)}, (∀ b ∈ l, Solid b) → Separate l → volume (union l) = ENNReal.ofReal ((l.map vol).sum : ℚ)
  | [], _, _ => by simp [union_nil]
  | b :: l, hs, hp => by
    obtain ⟨h1, h2⟩ := List.pairwise_cons.1 hp
    have hb := hs b List.mem_cons_self
    have hl : ∀ c ∈ l, Solid c := fun c hc => hs c (List.mem_cons_of_mem _ hc)
    have hn : AEDisjoint volume (pts b) (union l) := union_null fun c hc => inter_null hb (hl c hc) (h1 c hc)
    rw [union_cons, measure_union₀ (closed_union l).measurableSet.nullMeasurableSet hn, volume_union hl h2, volume_pts fun i => (hb i).le,
      List.map_cons, List.sum_cons, ← ENNReal.ofReal_add]
    · push_cast; rfl
    · exact_mod_cast (vol_pos hb).le
    · exact_mod_cast List.sum_nonneg fun x hx => by
        obtain ⟨c, hc, rfl⟩ := List.mem_map.1 hx
        exact (vol_pos (hl c hc)).le

lemma sum_nonneg {l : List (Box n)} (hs : ∀ b ∈ l, Solid b) : 0 ≤ (l.map vol).sum := List.sum_nonneg fun x hx => by
  obtain ⟨c, hc, rfl⟩ := List.mem_map.1 hx
  exact (vol_pos (hs c hc)).le

/-- Separate boxes inside a box have no more measure than the box. -/
lemma pack {B : Box n} {l : List (Box n)} (hB : Solid B) (hs : ∀ b ∈ l, Solid b) (hp : Separate l) (hin : ∀ b ∈ l, pts b ⊆ pts B) : (l.map vol).sum ≤ vol B := by
  have h : volume (union l) ≤ volume (pts B) := measure_mono fun p ⟨b, hb, hpb⟩ => hin b hb hpb
  rw [volume_union hs hp, volume_pts fun i => (hB i).le, ENNReal.ofReal_le_ofReal_iff (by exact_mod_cast (vol_pos hB).le)] at h
  exact_mod_cast h

/-- Separate boxes inside a box cover it exactly if their measures add up to that of the box. -/
lemma cover_iff {B : Box n} {l : List (Box n)} (hB : Solid B) (hs : ∀ b ∈ l, Solid b) (hp : Separate l) (hin : ∀ b ∈ l, pts b ⊆ pts B) :
    (l.map vol).sum = vol B ↔ union l = pts B := by
  have hsub : union l ⊆ pts B := fun p ⟨b, hb, hpb⟩ => hin b hb hpb
  constructor
  · intro h
    have hv : volume (union l) = volume (pts B) := by rw [volume_union hs hp, h, volume_pts fun i => (hB i).le]
    have hfin : volume (union l) ≠ ⊤ := by rw [volume_union hs hp]; exact ENNReal.ofReal_ne_top
    have hnull : volume (pts B \ union l) = 0 := by
      rw [measure_sdiff hsub (closed_union l).measurableSet.nullMeasurableSet hfin, hv, tsub_self]
    have hopen : IsOpen (inner B \ union l) := (open_inner B).sdiff (closed_union l)
    have hempty : inner B \ union l = ∅ := by
      refine (hopen.measure_eq_zero_iff volume).1 (measure_mono_null (sdiff_subset_sdiff_left (inner_sub B)) hnull)
    refine subset_antisymm hsub ?_
    rw [← closure_inner hB]
    exact (closed_union l).closure_subset_iff.2 (sdiff_eq_empty.1 hempty)
  · intro h
    have hv : volume (union l) = volume (pts B) := by rw [h]
    rw [volume_union hs hp, volume_pts fun i => (hB i).le] at hv
    have := (ENNReal.ofReal_eq_ofReal_iff (by exact_mod_cast sum_nonneg hs) (by exact_mod_cast (vol_pos hB).le)).1 hv
    exact_mod_cast this

lemma le_cast {x y : ℚ} (h : x < y) : (x : ℝ) ≤ (y : ℝ) := by exact_mod_cast h.le

/-- A box inside another one, by the bounds. -/
lemma inside_iff {b B : Box n} (hb : Solid b) : pts b ⊆ pts B ↔ ∀ i, (B i).1 ≤ (b i).1 ∧ (b i).2 ≤ (B i).2 := by
  constructor
  · intro h i
    have h1 := h (show (fun j => ((b j).1 : ℝ)) ∈ pts b from fun j => ⟨le_refl _, le_cast (hb j)⟩) i
    have h2 := h (show (fun j => ((b j).2 : ℝ)) ∈ pts b from fun j => ⟨le_cast (hb j), le_refl _⟩) i
    exact ⟨by exact_mod_cast h1.1, by exact_mod_cast h2.2⟩
  · intro h p hp i
    have h1 : ((B i).1 : ℝ) ≤ (b i).1 := by exact_mod_cast (h i).1
    have h2 : ((b i).2 : ℝ) ≤ (B i).2 := by exact_mod_cast (h i).2
    exact ⟨h1.trans (hp i).1, (hp i).2.trans h2⟩

end Phyem.Boxes
