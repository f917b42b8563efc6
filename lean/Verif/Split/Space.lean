import Verif.Split.Plane

/-!
# Hexahedra, curvilinear quads, and regions of triangles and quadrilaterals
-/

namespace Phyem.Split

open Phyem

section
variable {R : Type} [Field R]

/-! ### Hexahedra -/

/-- Specification: the corners of a box, the first coordinate fastest. -/
def boxCorners (o d : Pt3 R) : List (Pt3 R) :=
  [(o.1, o.2.1, o.2.2), (o.1 + d.1, o.2.1, o.2.2), (o.1, o.2.1 + d.2.1, o.2.2), (o.1 + d.1, o.2.1 + d.2.1, o.2.2),
    (o.1, o.2.1, o.2.2 + d.2.2), (o.1 + d.1, o.2.1, o.2.2 + d.2.2), (o.1, o.2.1 + d.2.1, o.2.2 + d.2.2),
    (o.1 + d.1, o.2.1 + d.2.1, o.2.2 + d.2.2)]

/-- Specification: the corners of an element in space, in the order of its map. -/
def corners3 : Shape R → Option (List (Pt3 R))
  | .hexa o d => some (boxCorners o d)
  | .voxel p0 p1 p2 p3 p4 p5 p6 p7 => some [p0, p1, p2, p3, p4, p5, p6, p7]
  | _ => none

/-- Specification: the element is the box from `o` with the edges `d`. -/
def IsBox {κ : Type} (e : Elem R κ) (o d : Pt3 R) : Prop := corners3 e.shape = some (boxCorners o d)

/-- Specification: the corners of the element are at the places of the nodes of its map. -/
def Placed3 (x : ℕ → Pt3 R) (e : Elem R ℕ) : Prop := corners3 e.shape = some (e.map.map x)

/-- Specification: the place of a node of the split mesh: the average of the old nodes it is made of. -/
def average8 (x : ℕ → Pt3 R) : Key → Pt3 R
  | .node n => x n
  | .tup l => ((l.map fun n => (x n).1).sum / l.length, (l.map fun n => (x n).2.1).sum / l.length,
      (l.map fun n => (x n).2.2).sum / l.length)

lemma average8_srt (x : ℕ → Pt3 R) (l : List ℕ) : average8 x (srt l) = average8 x (.tup l) := by
  have hp := List.perm_insertionSort (· ≤ ·) l
  unfold srt average8
  dsimp only
  rw [(hp.map _).sum_eq, (hp.map _).sum_eq, (hp.map _).sum_eq, hp.length_eq]

/-- The halves of a box in each direction. -/
def octant (o d : Pt3 R) (k : ℕ) : Pt3 R :=
  (if k % 2 = 1 then o.1 + d.1 / 2 else o.1, if k / 2 % 2 = 1 then o.2.1 + d.2.1 / 2 else o.2.1,
    if k / 4 % 2 = 1 then o.2.2 + d.2.2 / 2 else o.2.2)

/-- Half of the edges. -/
def half (d : Pt3 R) : Pt3 R := (d.1 / 2, d.2.1 / 2, d.2.2 / 2)

variable [CharZero R]

lemma splitHexa_box (o d : Pt3 R) (a b d' c k l m n : ℕ) : ∀ (j : ℕ) (e : Elem R Key), (splitHexa o d a b d' c k l m n)[j]? = some e →
    IsBox e (octant o d j) (half d) := by
  intro j e he
  have hj : j < 8 := by
    have := (List.getElem?_eq_some_iff.1 he).1
    simpa [splitHexa] using this
  interval_cases j <;> (cases he) <;>
    simp only [IsBox, corners3, boxCorners, octant, half, midAt, centreAt, Option.some.injEq, List.cons.injEq, Prod.mk.injEq, and_true,
      Nat.reduceMod, Nat.reduceDiv, zero_ne_one, if_false, if_true, Nat.zero_mod, Nat.zero_div, Nat.mod_self] <;>
    (repeat' apply And.intro) <;> first | trivial | rfl | ring1 | (field_simp; done) | (field_simp; ring1)

/-- The box of an element. -/
lemma split_box {e : Elem R ℕ} {o d : Pt3 R} (he : IsBox e o d) {l : List (Elem R Key)} (h : split e = some l) :
    ∃ a b d' c k q m n, e.map = [a, b, d', c, k, q, m, n] ∧ l = splitHexa o d a b d' c k q m n := by
  obtain ⟨s, map⟩ := e
  unfold split at h
  unfold IsBox at he
  dsimp only at h he
  split at h
  · cases he
  · cases he
  · cases he
  · cases he
  · cases h
    refine ⟨_, _, _, _, _, _, _, _, rfl, ?_⟩
    simp only [corners3, boxCorners, Option.some.injEq, List.cons.injEq, Prod.mk.injEq, and_true, true_and, add_left_inj] at he
    obtain ⟨⟨h1, h2, h3⟩, ⟨h4, -⟩, ⟨-, h5, -⟩, -, ⟨-, -, h6⟩, -⟩ := he
    congr 1
    · exact Prod.ext h1 (Prod.ext h2 h3)
    · refine Prod.ext ?_ (Prod.ext ?_ ?_)
      · rw [h1] at h4; exact add_left_cancel h4
      · rw [h2] at h5; exact add_left_cancel h5
      · rw [h3] at h6; exact add_left_cancel h6
  · cases h
    refine ⟨_, _, _, _, _, _, _, _, rfl, ?_⟩
    simp only [corners3, boxCorners, Option.some.injEq, List.cons.injEq, and_true] at he
    obtain ⟨rfl, rfl, rfl, rfl, rfl, rfl, rfl, rfl⟩ := he
    simp
  · cases h

/-- **Octants.** The new elements of a box are its eight octants: boxes with half the edges. -/
theorem octants_spec {e : Elem R ℕ} {o d : Pt3 R} (he : IsBox e o d) {l : List (Elem R Key)} (h : split e = some l) :
    l.length = 8 ∧ ∀ (j : ℕ) (c : Elem R Key), l[j]? = some c → IsBox c (octant o d j) (half d) := by
  obtain ⟨a, b, d', c, k, q, m, n, -, rfl⟩ := split_box he h
  exact ⟨rfl, splitHexa_box o d a b d' c k q m n⟩

lemma splitHexa_placed (x : ℕ → Pt3 R) (o d : Pt3 R) (a b d' c k l m n : ℕ)
    (hx : boxCorners o d = [a, b, d', c, k, l, m, n].map x) :
    ∀ e ∈ splitHexa o d a b d' c k l m n, corners3 e.shape = some (e.map.map (average8 x)) := by
  simp only [boxCorners, List.map_cons, List.map_nil, List.cons.injEq, and_true] at hx
  obtain ⟨h0, h1, h2, h3, h4, h5, h6, h7⟩ := hx
  simp only [splitHexa, List.mem_cons, List.not_mem_nil, or_false]
  rintro e (rfl | rfl | rfl | rfl | rfl | rfl | rfl | rfl) <;>
    simp only [corners3, List.map_cons, List.map_nil, average8_srt, Option.some.injEq] <;>
    simp only [average8, List.map_cons, List.map_nil, List.sum_cons, List.sum_nil, List.length_cons, List.length_nil, midAt, centreAt,
      ← h0, ← h1, ← h2, ← h3, ← h4, ← h5, ← h6, ← h7, List.cons.injEq, Prod.mk.injEq, and_true] <;>
    (repeat' apply And.intro) <;> first | rfl | ring1 | (push_cast; done) | (push_cast; field_simp; done) | (push_cast; field_simp; ring1)

/-- **Coordinates in space.** The same as in the plane for boxes: nodes have one place in the split mesh if they have one in the mesh. -/
theorem ts_placed3 {M M' : Mesh R ℕ} (hd : Distinct M) (h : ts M = some M') (x : ℕ → Pt3 R)
    (hb : ∀ e ∈ elems M, ∃ o d, IsBox e o d) (hx : ∀ e ∈ elems M, Placed3 x e) :
    (∀ e ∈ elems M', ∃ o d, IsBox e o d) ∧ ∃ num, Numbers M num ∧ ∃ x' : ℕ → Pt3 R, (∀ k, Used M k → x' (num k) = average8 x k) ∧
      (∀ e ∈ elems M, ∀ n ∈ e.map, x' n = x n) ∧ ∀ e ∈ elems M', Placed3 x' e := by
  classical
  obtain ⟨-, -, num, hnum, L, hL, e⟩ := ts_spec hd h
  let x' : ℕ → Pt3 R := fun n => if hk : ∃ k, Used M k ∧ num k = n then average8 x hk.choose else x n
  have h1 : ∀ k, Used M k → x' (num k) = average8 x k := by
    intro k hk
    have hex : ∃ k', Used M k' ∧ num k' = num k := ⟨k, hk, rfl⟩
    have : x' (num k) = average8 x hex.choose := dif_pos hex
    rw [this, hnum.inj _ _ hex.choose_spec.1 hk hex.choose_spec.2]
  refine ⟨?_, num, hnum, x', h1, ?_, ?_⟩
  · intro c' hc'
    obtain ⟨p, hp, l, hl, c, hc, rfl⟩ := kids_mem hL e hc'
    obtain ⟨o, d, hod⟩ := hb p hp
    obtain ⟨j, hj⟩ := List.getElem?_of_mem hc
    exact ⟨_, _, (octants_spec hod hl).2 j c hj⟩
  · intro p hp n hn
    obtain ⟨b, -, hb⟩ := forall₂_mem_left hL hp
    obtain ⟨c, hc, hcn⟩ := split_nodes hb n hn
    have := h1 (.node n) ⟨p, hp, b, hb, c, hc, hcn⟩
    rw [hnum.old] at this
    exact this
  · intro c' hc'
    obtain ⟨p, hp, l, hl, c, hc, rfl⟩ := kids_mem hL e hc'
    obtain ⟨o, d, hod⟩ := hb p hp
    obtain ⟨a1, a2, a3, a4, a5, a6, a7, a8, hm, rfl⟩ := split_box hod hl
    have hxp := hx p hp
    unfold Placed3 at hxp
    rw [hod, hm] at hxp
    have := splitHexa_placed x o d a1 a2 a3 a4 a5 a6 a7 a8 (Option.some.inj hxp) c hc
    unfold Placed3 Elem.num
    dsimp only
    rw [this, List.map_map]
    congr 1
    apply List.map_congr_left
    intro k hk
    exact (h1 k ⟨p, hp, _, hl, c, hc, hk⟩).symm

/-- The same after any number of splits. -/
theorem iter_placed3 {M : Mesh R ℕ} (hd : Distinct M) (x : ℕ → Pt3 R) (hb : ∀ e ∈ elems M, ∃ o d, IsBox e o d)
    (hx : ∀ e ∈ elems M, Placed3 x e) (t : ℕ) {M' : Mesh R ℕ} (h : iter t M = some M') :
    (∀ e ∈ elems M', ∃ o d, IsBox e o d) ∧
      ∃ x' : ℕ → Pt3 R, (∀ e ∈ elems M, ∀ n ∈ e.map, x' n = x n) ∧ ∀ e ∈ elems M', Placed3 x' e := by
  induction t generalizing M x with
  | zero => cases h; exact ⟨hb, x, fun _ _ _ _ => rfl, hx⟩
  | succ t ih =>
    obtain ⟨M1, h1, h2⟩ := Option.bind_eq_some_iff.1 h
    obtain ⟨hb1, num, hnum, x1, -, a2, a3⟩ := ts_placed3 hd h1 x hb hx
    obtain ⟨hd1, -, num', hnum', L, hL, e⟩ := ts_spec hd h1
    obtain ⟨b0, x', b1, b2⟩ := ih hd1 x1 hb1 a3 h2
    refine ⟨b0, x', ?_, b2⟩
    intro p hp n hn
    rw [← a2 p hp n hn]
    obtain ⟨b, hbL, hpb⟩ := forall₂_mem_left hL hp
    obtain ⟨c, hc, hcn⟩ := split_nodes hpb n hn
    refine b1 (c.num num') ?_ n ?_
    · rw [e]; exact List.mem_map.2 ⟨c, List.mem_flatten.2 ⟨b, hbL, hc⟩, rfl⟩
    · exact List.mem_map.2 ⟨_, hcn, hnum'.old n⟩

omit [CharZero R] in
/-- **Middles of edges and faces.** The middles of two edges or faces are the same node exactly if the edges or faces have the same nodes, in
whichever order the elements list them. -/
theorem middles_spec (l l' : List ℕ) : srt l = srt l' ↔ l.Perm l' := by
  unfold srt
  rw [Key.tup.injEq]
  constructor
  · intro h
    have h1 := List.perm_insertionSort (· ≤ ·) l
    rw [h] at h1
    exact h1.symm.trans (List.perm_insertionSort (· ≤ ·) l')
  · intro h
    exact (((List.perm_insertionSort (· ≤ ·) l).trans h).trans (List.perm_insertionSort (· ≤ ·) l').symm).eq_of_pairwise'
      (List.pairwise_insertionSort _ _) (List.pairwise_insertionSort _ _)

end

section
variable {R : Type} [Field R] [LinearOrder R] [IsStrictOrderedRing R]

/-- Specification: the points of a box. -/
def InBox (o d p : Pt3 R) : Prop :=
  (o.1 ≤ p.1 ∧ p.1 ≤ o.1 + d.1) ∧ (o.2.1 ≤ p.2.1 ∧ p.2.1 ≤ o.2.1 + d.2.1) ∧ o.2.2 ≤ p.2.2 ∧ p.2.2 ≤ o.2.2 + d.2.2

/-- Specification: the points inside a box. -/
def Inside (o d p : Pt3 R) : Prop :=
  (o.1 < p.1 ∧ p.1 < o.1 + d.1) ∧ (o.2.1 < p.2.1 ∧ p.2.1 < o.2.1 + d.2.1) ∧ o.2.2 < p.2.2 ∧ p.2.2 < o.2.2 + d.2.2

lemma half_iff {o d p : R} (hd : 0 ≤ d) : (o ≤ p ∧ p ≤ o + d) ↔
    (o ≤ p ∧ p ≤ o + d / 2) ∨ (o + d / 2 ≤ p ∧ p ≤ o + d / 2 + d / 2) := by
  constructor
  · rintro ⟨h1, h2⟩
    rcases le_total p (o + d / 2) with h | h
    · exact Or.inl ⟨h1, h⟩
    · exact Or.inr ⟨h, by linarith⟩
  · rintro (⟨h1, h2⟩ | ⟨h1, h2⟩) <;> constructor <;> linarith

/-- **Octants cover a box without overlap.** A point is in a box exactly if it is in one of its octants, and it is inside at most one of them. -/
theorem octants_cover (o d p : Pt3 R) (h1 : 0 ≤ d.1) (h2 : 0 ≤ d.2.1) (h3 : 0 ≤ d.2.2) :
    (InBox o d p ↔ ∃ j < 8, InBox (octant o d j) (half d) p) ∧
      ∀ i < 8, ∀ j < 8, Inside (octant o d i) (half d) p → Inside (octant o d j) (half d) p → i = j := by
  constructor
  · have e : InBox o d p ↔ ((o.1 ≤ p.1 ∧ p.1 ≤ o.1 + d.1 / 2) ∨ (o.1 + d.1 / 2 ≤ p.1 ∧ p.1 ≤ o.1 + d.1 / 2 + d.1 / 2)) ∧
        ((o.2.1 ≤ p.2.1 ∧ p.2.1 ≤ o.2.1 + d.2.1 / 2) ∨ (o.2.1 + d.2.1 / 2 ≤ p.2.1 ∧ p.2.1 ≤ o.2.1 + d.2.1 / 2 + d.2.1 / 2)) ∧
        ((o.2.2 ≤ p.2.2 ∧ p.2.2 ≤ o.2.2 + d.2.2 / 2) ∨ (o.2.2 + d.2.2 / 2 ≤ p.2.2 ∧ p.2.2 ≤ o.2.2 + d.2.2 / 2 + d.2.2 / 2)) := by
      unfold InBox
      rw [half_iff h1, half_iff h2, half_iff h3]
    rw [e]
    constructor
    · rintro ⟨a | a, b | b, c | c⟩
      · exact ⟨0, by omega, by simpa [InBox, octant, half] using ⟨a, b, c⟩⟩
      · exact ⟨4, by omega, by simpa [InBox, octant, half] using ⟨a, b, c⟩⟩
      · exact ⟨2, by omega, by simpa [InBox, octant, half] using ⟨a, b, c⟩⟩
      · exact ⟨6, by omega, by simpa [InBox, octant, half] using ⟨a, b, c⟩⟩
      · exact ⟨1, by omega, by simpa [InBox, octant, half] using ⟨a, b, c⟩⟩
      · exact ⟨5, by omega, by simpa [InBox, octant, half] using ⟨a, b, c⟩⟩
      · exact ⟨3, by omega, by simpa [InBox, octant, half] using ⟨a, b, c⟩⟩
      · exact ⟨7, by omega, by simpa [InBox, octant, half] using ⟨a, b, c⟩⟩
    · rintro ⟨j, hj, a, b, c⟩
      unfold octant half at a b c
      dsimp only at a b c
      refine ⟨?_, ?_, ?_⟩
      · split at a
        · exact Or.inr a
        · exact Or.inl a
      · split at b
        · exact Or.inr b
        · exact Or.inl b
      · split at c
        · exact Or.inr c
        · exact Or.inl c
  · rintro i hi j hj ⟨a, b, c⟩ ⟨a', b', c'⟩
    unfold octant half at a b c a' b' c'
    dsimp only at a b c a' b' c'
    have e1 : i % 2 = 1 ↔ j % 2 = 1 := by
      constructor <;> intro hh <;> by_contra hn
      · rw [if_pos hh] at a; rw [if_neg hn] at a'; linarith [a.1, a'.2]
      · rw [if_neg hn] at a; rw [if_pos hh] at a'; linarith [a.2, a'.1]
    have e2 : i / 2 % 2 = 1 ↔ j / 2 % 2 = 1 := by
      constructor <;> intro hh <;> by_contra hn
      · rw [if_pos hh] at b; rw [if_neg hn] at b'; linarith [b.1, b'.2]
      · rw [if_neg hn] at b; rw [if_pos hh] at b'; linarith [b.2, b'.1]
    have e3 : i / 4 % 2 = 1 ↔ j / 4 % 2 = 1 := by
      constructor <;> intro hh <;> by_contra hn
      · rw [if_pos hh] at c; rw [if_neg hn] at c'; linarith [c.1, c'.2]
      · rw [if_neg hn] at c; rw [if_pos hh] at c'; linarith [c.2, c'.1]
    omega

end

/-- Two boxes with a common face, one of them a voxel. -/
def boxes : Mesh ℚ ℕ :=
  [[(.inl 0, ⟨.hexa (0, 0, 0) (1, 2, 3), [0, 1, 2, 3, 4, 5, 6, 7]⟩)],
    [(.inl 1, ⟨.voxel (1, 0, 0) (2, 0, 0) (1, 2, 0) (2, 2, 0) (1, 0, 3) (2, 0, 3) (1, 2, 3) (2, 2, 3), [1, 8, 3, 9, 5, 10, 7, 11]⟩)]]

/-- The places of their nodes. -/
def boxesAt : ℕ → Pt3 ℚ := fun n => [(0, 0, 0), (1, 0, 0), (0, 2, 0), (1, 2, 0), (0, 0, 3), (1, 0, 3), (0, 2, 3), (1, 2, 3), (2, 0, 0),
  (2, 2, 0), (2, 0, 3), (2, 2, 3)].getD n (0, 0, 0)

example : ∀ e ∈ elems boxes, Placed3 boxesAt e := by
  unfold elems boxes Placed3
  decide +kernel

example : ∀ e ∈ elems boxes, ∃ o d, IsBox e o d := by
  intro e he
  simp only [elems, boxes, List.flatten_cons, List.flatten_nil, List.map_cons, List.cons_append, List.nil_append, List.append_nil,
    List.map_nil, List.mem_cons, List.not_mem_nil, or_false] at he
  rcases he with rfl | rfl
  · exact ⟨_, _, rfl⟩
  · refine ⟨(1, 0, 0), (1, 2, 3), ?_⟩
    unfold IsBox
    decide +kernel

/-- Each split box has 27 nodes, and 9 are common: 45 nodes of the 16 new boxes. -/
example : ((ts boxes).map fun M => ((elems M).length, ((elems M).flatMap Elem.map).dedup.length)) = some (16, 45) := by decide +kernel

end Phyem.Split
