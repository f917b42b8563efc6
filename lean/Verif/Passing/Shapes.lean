import Verif.Passing.Found
import Mathlib.Data.List.Sort
import Mathlib.Tactic.Linarith
import Mathlib.Tactic.FieldSimp

/-!
# Points and segments
-/

namespace Phyem.Passing

lemma isclose_zero (x y : ℚ) : isclose 0 x y = true ↔ x = y := by
  unfold isclose
  rw [decide_eq_true_eq, zero_mul, max_self, abs_nonpos_iff, sub_eq_zero]

lemma points_exact : Exact (points 0) := fun a b => by
  simp only [points, Bool.and_eq_true, isclose_zero, Prod.ext_iff]

lemma points_perm (g : ℚ × ℚ) (l l' : List (ℚ × ℚ)) (h : l.Perm l') : (points 0).union g l = (points 0).union g l' := by
  simp only [points]
  rw [Bool.eq_iff_iff, List.any_eq_true, List.any_eq_true]
  exact exists_congr fun x => and_congr_left fun _ => h.mem_iff

lemma points_contains (a b : ℚ × ℚ) : (points 0).contains a b = true ↔ a = b := by
  simp only [points, Bool.and_eq_true, isclose_zero, Prod.ext_iff]

/-- A point is a union of points exactly if it is one of them. -/
lemma points_union (g : ℚ × ℚ) (l : List (ℚ × ℚ)) : (points 0).union g l = true ↔ g ∈ l := by
  simp only [points, List.any_eq_true, Bool.and_eq_true, isclose_zero]
  constructor
  · rintro ⟨b, hb, h1, h2⟩
    obtain rfl : b = g := Prod.ext h1 h2
    exact hb
  · exact fun h => ⟨g, h, rfl, rfl⟩

lemma points_add (f : ℚ × ℚ → ℚ) {g : ℚ × ℚ} {l : List (ℚ × ℚ)} (hn : l.Nodup) (h : (points 0).union g l = true) :
    f g = ((l.filter ((points 0).contains g)).map f).sum := by
  rw [points_union] at h
  have hf : l.filter ((points 0).contains g) = [g] := by
    have hp : (l.filter ((points 0).contains g)).Perm [g] := by
      refine (List.perm_ext_iff_of_nodup (hn.filter _) (List.nodup_singleton g)).2 fun x => ?_
      rw [List.mem_filter, points_contains, List.mem_singleton]
      exact ⟨fun hx => hx.2.symm, fun hx => by subst hx; exact ⟨h, rfl⟩⟩
    exact List.perm_singleton.1 hp
  rw [hf]
  simp

/-- Keys of equal points are equal. -/
lemma points_key {a b : ℚ × ℚ} (h : (points 0).contains a b = true) : ∀ k, (points 0).key = some k → k a = k b := by
  rw [points_contains] at h
  subst h
  exact fun _ _ => rfl

/-! ### Segments -/

lemma segments_exact : Exact segments := fun a b => by simp only [segments, decide_eq_true_eq]

lemma separate_iff (a b : Seg) : separate a b = true ↔ (a.upright = b.upright → a.line = b.line → a.hi ≤ b.lo ∨ b.hi ≤ a.lo) := by
  unfold separate; rw [decide_eq_true_eq]

lemma separate_comm {a b : Seg} (h : separate a b = true) : separate b a = true := by
  rw [separate_iff] at h ⊢
  exact fun h1 h2 => (h h1.symm h2.symm).symm

lemma pairs_iff : ∀ l : List Seg, pairs l = true ↔ l.Pairwise fun a b => separate a b = true
  | [] => by simp [pairs]
  | a :: l => by
    unfold pairs
    rw [Bool.and_eq_true, List.all_eq_true, pairs_iff l, List.pairwise_cons]

lemma inSeg_iff (a b : Seg) : inSeg a b = true ↔ a.upright = b.upright ∧ a.line = b.line ∧ a.lo ≤ b.lo ∧ b.hi ≤ a.hi := by
  unfold inSeg; rw [decide_eq_true_eq]

lemma segments_perm (g : Seg) (l l' : List Seg) (h : l.Perm l') : segments.union g l = segments.union g l' := by
  have h1 : pairs (l.filter fun b => g.upright = b.upright) = pairs (l'.filter fun b => g.upright = b.upright) := by
    rw [Bool.eq_iff_iff, pairs_iff, pairs_iff]
    exact (h.filter _).pairwise_iff (fun h => separate_comm h)
  simp only [segments]
  rw [h1, ((h.filter (inSeg g)).map _).sum_eq]

lemma tile_le {b : ℚ} : ∀ (l : List Seg) (a : ℚ), a ≤ b → l.Pairwise (fun s t => s.hi ≤ t.lo) → (∀ s ∈ l, a ≤ s.lo ∧ s.hi ≤ b ∧ s.lo < s.hi) →
    (l.map fun s => s.hi - s.lo).sum ≤ b - a
  | [], a, hab, _, _ => by simpa using hab
  | s :: l, a, hab, hp, hm => by
    obtain ⟨h1, h2⟩ := List.pairwise_cons.1 hp
    obtain ⟨m1, m2, m3⟩ := hm s List.mem_cons_self
    have ih := tile_le l s.hi m2 h2 (fun t ht => ⟨h1 t ht, (hm t (List.mem_cons_of_mem _ ht)).2⟩)
    rw [List.map_cons, List.sum_cons]
    linarith

lemma tile_eq {b : ℚ} (F : ℚ → ℚ) : ∀ (l : List Seg) (a : ℚ), a ≤ b → l.Pairwise (fun s t => s.hi ≤ t.lo) →
    (∀ s ∈ l, a ≤ s.lo ∧ s.hi ≤ b ∧ s.lo < s.hi) → (l.map fun s => s.hi - s.lo).sum = b - a → (l.map fun s => F s.hi - F s.lo).sum = F b - F a
  | [], a, _, _, _, h => by
    have : a = b := by simp only [List.map_nil, List.sum_nil] at h; linarith
    simp [this]
  | s :: l, a, hab, hp, hm, h => by
    obtain ⟨h1, h2⟩ := List.pairwise_cons.1 hp
    obtain ⟨m1, m2, m3⟩ := hm s List.mem_cons_self
    have hl : ∀ t ∈ l, s.hi ≤ t.lo ∧ t.hi ≤ b ∧ t.lo < t.hi := fun t ht => ⟨h1 t ht, (hm t (List.mem_cons_of_mem _ ht)).2⟩
    have ile := tile_le l s.hi m2 h2 hl
    rw [List.map_cons, List.sum_cons] at h
    have hs : s.lo = a := by linarith
    have ih := tile_eq F l s.hi m2 h2 hl (by linarith)
    rw [List.map_cons, List.sum_cons, ih, hs]
    ring

/-- **C154.** A segment that is the union of some of the given segments: differences of any function between the ends add up. So the length test finds
exactly what is needed: the segments inside cover it without gap or overlap. -/
theorem segments_add (F : Bool → ℚ → ℚ → ℚ) {g : Seg} {l : List Seg} (hg : g.lo < g.hi) (hl : ∀ s ∈ l, s.lo < s.hi)
    (h : segments.union g l = true) :
    F g.upright g.line g.hi - F g.upright g.line g.lo
      = ((l.filter (segments.contains g)).map fun s => F s.upright s.line s.hi - F s.upright s.line s.lo).sum := by
  simp only [segments, Bool.and_eq_true, decide_eq_true_eq] at h ⊢
  obtain ⟨hp, hlen⟩ := h
  rw [pairs_iff] at hp
  set m := l.filter (inSeg g) with hm
  have hmm : ∀ s ∈ m, g.upright = s.upright ∧ g.line = s.line ∧ g.lo ≤ s.lo ∧ s.hi ≤ g.hi ∧ s.lo < s.hi := fun s hs => by
    obtain ⟨h1, h2⟩ := List.mem_filter.1 hs
    obtain ⟨a, b, c, d⟩ := (inSeg_iff _ _).1 h2
    exact ⟨a, b, c, d, hl s h1⟩
  have hpm : m.Pairwise fun a b => separate a b = true := by
    refine hp.sublist ?_
    have : m = (l.filter fun b => g.upright = b.upright).filter (inSeg g) := by
      rw [hm, List.filter_filter]
      refine List.filter_congr fun s _ => ?_
      rw [Bool.eq_iff_iff, Bool.and_eq_true, decide_eq_true_eq, inSeg_iff]
      tauto
    rw [this]
    exact List.filter_sublist
  set n := m.insertionSort (fun s t => s.lo ≤ t.lo) with hn
  have hperm : n.Perm m := List.perm_insertionSort _ m
  have hsorted : n.Pairwise (fun s t => s.lo ≤ t.lo) := by
    haveI : Std.Total (fun s t : Seg => s.lo ≤ t.lo) := ⟨fun s t => le_total s.lo t.lo⟩
    haveI : IsTrans Seg (fun s t : Seg => s.lo ≤ t.lo) := ⟨fun _ _ _ h1 h2 => le_trans h1 h2⟩
    exact List.pairwise_insertionSort _ m
  have hsep : n.Pairwise fun a b => separate a b = true := (hperm.pairwise_iff (fun h => separate_comm h)).2 hpm
  have hnm : ∀ s ∈ n, g.upright = s.upright ∧ g.line = s.line ∧ g.lo ≤ s.lo ∧ s.hi ≤ g.hi ∧ s.lo < s.hi := fun s hs => hmm s (hperm.mem_iff.1 hs)
  have hchain : n.Pairwise (fun s t => s.hi ≤ t.lo) := by
    refine ((hsorted.and hsep).imp_of_mem ?_)
    intro s t hs ht h
    have ss := hnm s hs
    have tt := hnm t ht
    rcases (separate_iff _ _).1 h.2 (ss.1.symm.trans tt.1) (ss.2.1.symm.trans tt.2.1) with h' | h'
    · exact h'
    · linarith [h.1, tt.2.2.2.2]
  have hsum : (n.map fun s => s.hi - s.lo).sum = g.hi - g.lo := by rw [(hperm.map _).sum_eq, ← hlen]
  have ht := tile_eq (F g.upright g.line) n g.lo hg.le hchain (fun s hs => ⟨(hnm s hs).2.2.1, (hnm s hs).2.2.2.1, (hnm s hs).2.2.2.2⟩) hsum
  rw [← ht, (hperm.map _).sum_eq]
  congr 1
  refine List.map_congr_left fun s hs => ?_
  rw [(hmm s hs).1, (hmm s hs).2.1]

/-- Keys of a segment and its parts are equal. -/
lemma segments_key {a b : Seg} (h : segments.contains a b = true) : ∀ k, segments.key = some k → k a = k b := by
  obtain ⟨h1, h2, -⟩ := (inSeg_iff _ _).1 h
  intro k hk
  obtain rfl := Option.some.inj hk
  dsimp only
  rw [h1, h2]

example : segments.union ⟨false, 0, 0, 1⟩ [⟨false, 0, 1/2, 1⟩, ⟨false, 0, 0, 1/3⟩, ⟨true, 0, 0, 1⟩, ⟨false, 0, 1/3, 1/2⟩] = true := by decide +kernel

end Phyem.Passing
