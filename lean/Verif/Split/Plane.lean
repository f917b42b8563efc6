import Verif.Split.Numbers
import Verif.Geometry.Model
import Mathlib.Algebra.CharZero.Defs
import Mathlib.Algebra.Order.Field.Basic

/-!
# Coordinates, areas and sides of the elements of a split mesh in the plane
-/

namespace Phyem.Split

open Phyem

section
variable {R : Type} [Field R]

/-! ### Coordinates -/

/-- Specification: the corners of an element with straight sides in the plane, in the order of its map. -/
def corners : Shape R → Option (List (Pt R))
  | .tri A B C => some [A, B, C]
  | .quad A B C D => some [A, B, C, D]
  | .rect o d => some [o, (o.1 + d.1, o.2), (o.1, o.2 + d.2), (o.1 + d.1, o.2 + d.2)]
  | _ => none

/-- Specification: the corners of the element are at the places of the nodes of its map. -/
def Placed (x : ℕ → Pt R) (e : Elem R ℕ) : Prop := corners e.shape = some (e.map.map x)

/-- Specification: the place of a node of the split mesh: the average of the old nodes it is made of. -/
def average (x : ℕ → Pt R) : Key → Pt R
  | .node n => x n
  | .tup l => ((l.map fun n => (x n).1).sum / l.length, (l.map fun n => (x n).2).sum / l.length)

lemma average_srt (x : ℕ → Pt R) (a b : ℕ) : average x (srt [a, b]) = mid (x a) (x b) := by
  have hp := List.perm_insertionSort (· ≤ ·) [a, b]
  unfold srt average mid
  dsimp only
  rw [(hp.map _).sum_eq, (hp.map _).sum_eq, hp.length_eq]
  simp

lemma average3 (x : ℕ → Pt R) (a b c : ℕ) : average x (.tup [a, b, c]) = centre3 (x a) (x b) (x c) := by
  simp [average, centre3, add_assoc]

lemma average4 (x : ℕ → Pt R) (a b c d : ℕ) : average x (.tup [a, b, c, d]) = centre4 (x a) (x b) (x c) (x d) := by
  simp [average, centre4, add_assoc]

lemma mid_comm (A B : Pt R) : mid A B = mid B A := by
  unfold mid
  rw [add_comm A.1, add_comm A.2]

lemma split_placed {x : ℕ → Pt R} {e : Elem R ℕ} (hx : Placed x e) {l : List (Elem R Key)} (h : split e = some l) :
    ∀ c ∈ l, corners c.shape = some (c.map.map (average x)) := by
  obtain ⟨s, m⟩ := e
  unfold Placed at hx
  unfold split at h
  dsimp only at h hx
  split at h
  · cases h
    simp only [corners, Option.some.injEq, List.map_cons, List.map_nil, List.cons.injEq, and_true] at hx
    obtain ⟨rfl, rfl, rfl⟩ := hx
    simp only [splitTri, List.mem_cons, List.not_mem_nil, or_false]
    rintro c (rfl | rfl | rfl) <;>
      simp only [corners, List.map_cons, List.map_nil, average_srt, average3, Option.some.injEq, List.cons.injEq, and_true] <;>
      simp only [average, mid_comm, true_and, and_true, and_self]
  · cases h
    simp only [corners, Option.some.injEq, List.map_cons, List.map_nil, List.cons.injEq, and_true] at hx
    obtain ⟨rfl, rfl, rfl, rfl⟩ := hx
    simp only [splitQuad, List.mem_cons, List.not_mem_nil, or_false]
    rintro c (rfl | rfl | rfl | rfl) <;>
      simp only [corners, List.map_cons, List.map_nil, average_srt, average4, Option.some.injEq, List.cons.injEq, and_true] <;>
      simp only [average, true_and, and_true, and_self]
  · cases h
    simp only [corners, Option.some.injEq, List.map_cons, List.map_nil, List.cons.injEq, and_true] at hx
    obtain ⟨h0, h1, h2, h3⟩ := hx
    simp only [splitRect]
    rw [h1, h2, h3, h0]
    simp only [splitQuad, List.mem_cons, List.not_mem_nil, or_false]
    rintro c (rfl | rfl | rfl | rfl) <;>
      simp only [corners, List.map_cons, List.map_nil, average_srt, average4, Option.some.injEq, List.cons.injEq, and_true] <;>
      simp only [average, true_and, and_true, and_self]
  · cases hx
  · cases hx
  · cases hx
  · cases h

lemma kids_mem {M M' : Mesh R ℕ} {num : Key → ℕ} {L : List (List (Elem R Key))}
    (hL : List.Forall₂ (fun e l => split e = some l) (elems M) L) (e : elems M' = L.flatten.map (Elem.num num))
    {c' : Elem R ℕ} (hc : c' ∈ elems M') : ∃ p ∈ elems M, ∃ l, split p = some l ∧ ∃ c ∈ l, c' = c.num num := by
  rw [e] at hc
  obtain ⟨c, hc1, rfl⟩ := List.mem_map.1 hc
  obtain ⟨b, hb, hcb⟩ := List.mem_flatten.1 hc1
  obtain ⟨y, hy, hyb⟩ := forall₂_mem_right hL hb
  exact ⟨y, hy, b, hyb, c, hcb, rfl⟩

/-- **Coordinates.** If in a mesh of elements with straight sides every node has one place, then so it is in the split mesh: old nodes stay where
they are, and a new node is at the average of the two nodes of its side or of the nodes of its element, in whichever elements it is a corner. -/
theorem ts_placed {M M' : Mesh R ℕ} (hd : Distinct M) (h : ts M = some M') (x : ℕ → Pt R) (hx : ∀ e ∈ elems M, Placed x e) :
    ∃ num, Numbers M num ∧ ∃ x' : ℕ → Pt R, (∀ k, Used M k → x' (num k) = average x k) ∧
      (∀ e ∈ elems M, ∀ n ∈ e.map, x' n = x n) ∧ ∀ e ∈ elems M', Placed x' e := by
  classical
  obtain ⟨-, -, num, hnum, L, hL, e⟩ := ts_spec hd h
  let x' : ℕ → Pt R := fun n => if hk : ∃ k, Used M k ∧ num k = n then average x hk.choose else x n
  have h1 : ∀ k, Used M k → x' (num k) = average x k := by
    intro k hk
    have hex : ∃ k', Used M k' ∧ num k' = num k := ⟨k, hk, rfl⟩
    have : x' (num k) = average x hex.choose := dif_pos hex
    rw [this, hnum.inj _ _ hex.choose_spec.1 hk hex.choose_spec.2]
  refine ⟨num, hnum, x', h1, ?_, ?_⟩
  · intro p hp n hn
    obtain ⟨b, -, hb⟩ := forall₂_mem_left hL hp
    obtain ⟨c, hc, hcn⟩ := split_nodes hb n hn
    have := h1 (.node n) ⟨p, hp, b, hb, c, hc, hcn⟩
    rw [hnum.old] at this
    exact this
  · intro c' hc'
    obtain ⟨p, hp, l, hl, c, hc, rfl⟩ := kids_mem hL e hc'
    unfold Placed Elem.num
    dsimp only
    rw [split_placed (hx p hp) hl c hc, List.map_map]
    congr 1
    apply List.map_congr_left
    intro k hk
    exact (h1 k ⟨p, hp, l, hl, c, hc, hk⟩).symm

/-- **Coordinates of all levels.** The same after any number of splits. -/
theorem iter_placed {M : Mesh R ℕ} (hd : Distinct M) (x : ℕ → Pt R) (hx : ∀ e ∈ elems M, Placed x e) (t : ℕ) {M' : Mesh R ℕ}
    (h : iter t M = some M') :
    ∃ x' : ℕ → Pt R, (∀ e ∈ elems M, ∀ n ∈ e.map, x' n = x n) ∧ ∀ e ∈ elems M', Placed x' e := by
  induction t generalizing M x with
  | zero => cases h; exact ⟨x, fun _ _ _ _ => rfl, hx⟩
  | succ t ih =>
    obtain ⟨M1, h1, h2⟩ := Option.bind_eq_some_iff.1 h
    obtain ⟨num, hnum, x1, -, a2, a3⟩ := ts_placed hd h1 x hx
    obtain ⟨hd1, -, num', hnum', L, hL, e⟩ := ts_spec hd h1
    obtain ⟨x', b1, b2⟩ := ih hd1 x1 a3 h2
    refine ⟨x', ?_, b2⟩
    intro p hp n hn
    rw [← a2 p hp n hn]
    obtain ⟨b, hb, hpb⟩ := forall₂_mem_left hL hp
    obtain ⟨c, hc, hcn⟩ := split_nodes hpb n hn
    refine b1 (c.num num') ?_ n ?_
    · rw [e]; exact List.mem_map.2 ⟨c, List.mem_flatten.2 ⟨b, hb, hc⟩, rfl⟩
    · exact List.mem_map.2 ⟨_, hcn, hnum'.old n⟩

/-! ### Areas and convexity -/

/-- Specification: the corners of an element with straight sides, around it. -/
def ring : Shape R → Option (List (Pt R))
  | .tri A B C => some [A, B, C]
  | .quad A B C D => some [A, B, C, D]
  | .rect o d => some [o, (o.1 + d.1, o.2), (o.1 + d.1, o.2 + d.2), (o.1, o.2 + d.2)]
  | _ => none

/-- Specification: the area of a polygon with a sign, from its corners around it. -/
def area (l : List (Pt R)) : R := ((l.zip (l.rotate 1)).map fun q => q.1.1 * q.2.2 - q.2.1 * q.1.2).sum / 2

/-- The area of an element. -/
def areaOf {κ : Type} (e : Elem R κ) : R := match ring e.shape with | some l => area l | none => 0

/-- The elements with straight sides in the plane. -/
def Flat {κ : Type} (e : Elem R κ) : Prop := (ring e.shape).isSome

variable [CharZero R]

lemma area3 (A B C : Pt R) : area [A, B, C] = (A.1 * B.2 - B.1 * A.2 + (B.1 * C.2 - C.1 * B.2) + (C.1 * A.2 - A.1 * C.2)) / 2 := by
  simp [area, List.rotate, add_assoc]

lemma area4 (A B C D : Pt R) : area [A, B, C, D] =
    (A.1 * B.2 - B.1 * A.2 + (B.1 * C.2 - C.1 * B.2) + (C.1 * D.2 - D.1 * C.2) + (D.1 * A.2 - A.1 * D.2)) / 2 := by
  simp [area, List.rotate, add_assoc]

lemma area_quad (A B C D : Pt R) (a b c d : ℕ) : ((splitQuad A B C D a b c d).map areaOf).sum = area [A, B, C, D] := by
  simp only [splitQuad, List.map_cons, List.map_nil, List.sum_cons, List.sum_nil, areaOf, ring, area4, mid, centre4]
  field_simp
  ring

lemma split_area {e : Elem R ℕ} (hf : Flat e) {l : List (Elem R Key)} (h : split e = some l) :
    (∀ c ∈ l, Flat c) ∧ (l.map areaOf).sum = areaOf e := by
  obtain ⟨s, m⟩ := e
  unfold split at h
  dsimp only at h
  split at h
  · cases h
    refine ⟨by simp [splitTri, Flat, ring], ?_⟩
    simp only [splitTri, List.map_cons, List.map_nil, List.sum_cons, List.sum_nil, areaOf, ring, area4, area3, mid, centre3]
    field_simp
    ring
  · cases h
    exact ⟨by simp [splitQuad, Flat, ring], area_quad ..⟩
  · cases h
    exact ⟨by simp [splitRect, splitQuad, Flat, ring], area_quad ..⟩
  · cases hf
  · cases hf
  · cases hf
  · cases h

lemma sum_kids {l : List (Elem R ℕ)} {L : List (List (Elem R Key))} (h : List.Forall₂ (fun e l => split e = some l) l L)
    (hf : ∀ e ∈ l, Flat e) : (L.flatten.map areaOf).sum = (l.map areaOf).sum := by
  induction h with
  | nil => rfl
  | cons h1 _ ih =>
    rw [List.flatten_cons, List.map_append, List.sum_append, ih fun e he => hf e (List.mem_cons_of_mem _ he),
      (split_area (hf _ List.mem_cons_self) h1).2, List.map_cons, List.sum_cons]

omit [CharZero R] in
lemma areaOf_num {κ μ : Type} (f : κ → μ) (e : Elem R κ) : areaOf (e.num f) = areaOf e := rfl

/-- **Areas.** The new elements of an element have its area together, and so have those of the mesh, after any number of splits. -/
theorem iter_area {M : Mesh R ℕ} (hd : Distinct M) (hf : ∀ e ∈ elems M, Flat e) (t : ℕ) {M' : Mesh R ℕ} (h : iter t M = some M') :
    (∀ e ∈ elems M, ∀ l, split e = some l → (l.map areaOf).sum = areaOf e) ∧
      (∀ e ∈ elems M', Flat e) ∧ ((elems M').map areaOf).sum = ((elems M).map areaOf).sum := by
  refine ⟨fun e he l hl => (split_area (hf e he) hl).2, ?_⟩
  induction t generalizing M with
  | zero => cases h; exact ⟨hf, rfl⟩
  | succ t ih =>
    obtain ⟨M1, h1, h2⟩ := Option.bind_eq_some_iff.1 h
    obtain ⟨hd1, -, num, -, L, hL, e⟩ := ts_spec hd h1
    have hf1 : ∀ c ∈ elems M1, Flat c := by
      intro c hc
      obtain ⟨p, hp, l, hl, c', hc', rfl⟩ := kids_mem hL e hc
      exact (split_area (hf p hp) hl).1 c' hc'
    obtain ⟨a, b⟩ := ih hd1 hf1 h2
    refine ⟨a, b.trans ?_⟩
    rw [e, List.map_map, ← sum_kids hL hf]
    rfl

end

section
variable {R : Type} [Field R] [LinearOrder R] [IsStrictOrderedRing R]

/-- Whether the turn from `A` over `B` to `C` is to the left. -/
def Left (A B C : Pt R) : Prop := 0 < (B.1 - A.1) * (C.2 - B.2) - (C.1 - B.1) * (B.2 - A.2)

/-- Specification: a convex element, its corners in the positive sense: all turns around it are to the left. -/
def Convex {κ : Type} (e : Elem R κ) : Prop := match ring e.shape with
  | some [A, B, C] => Left A B C ∧ Left B C A ∧ Left C A B
  | some [A, B, C, D] => Left A B C ∧ Left B C D ∧ Left C D A ∧ Left D A B
  | _ => False

lemma convex_quad {A B C D : Pt R} (a b c d : ℕ) (h1 : Left A B C) (h2 : Left B C D) (h3 : Left C D A) (h4 : Left D A B) :
    ∀ e ∈ splitQuad A B C D a b c d, Convex e := by
  simp only [splitQuad, List.mem_cons, List.not_mem_nil, or_false]
  unfold Left at h1 h2 h3 h4
  rintro e (rfl | rfl | rfl | rfl) <;> simp only [Convex, ring, Left, mid, centre4] <;> refine ⟨?_, ?_, ?_, ?_⟩ <;> linarith

lemma split_convex {e : Elem R ℕ} (hc : Convex e) {l : List (Elem R Key)} (h : split e = some l) : ∀ c ∈ l, Convex c := by
  obtain ⟨s, m⟩ := e
  unfold split at h
  dsimp only at h
  split at h
  · cases h
    simp only [Convex, ring] at hc
    obtain ⟨h1, h2, h3⟩ := hc
    simp only [splitTri, List.mem_cons, List.not_mem_nil, or_false]
    unfold Left at h1 h2 h3
    rintro e (rfl | rfl | rfl) <;> simp only [Convex, ring, Left, mid, centre3] <;> refine ⟨?_, ?_, ?_, ?_⟩ <;> linarith
  · cases h
    simp only [Convex, ring] at hc
    exact convex_quad _ _ _ _ hc.1 hc.2.1 hc.2.2.1 hc.2.2.2
  · cases h
    simp only [Convex, ring] at hc
    exact convex_quad _ _ _ _ hc.1 hc.2.1 hc.2.2.1 hc.2.2.2
  · cases hc
  · cases hc
  · cases hc
  · cases h

/-- **Convexity.** If the elements are convex with their corners in the positive sense, then so are all those after any number of splits. -/
theorem iter_convex {M : Mesh R ℕ} (hd : Distinct M) (hf : ∀ e ∈ elems M, Convex e) (t : ℕ) {M' : Mesh R ℕ}
    (h : iter t M = some M') : ∀ e ∈ elems M', Convex e := by
  induction t generalizing M with
  | zero => cases h; exact hf
  | succ t ih =>
    obtain ⟨M1, h1, h2⟩ := Option.bind_eq_some_iff.1 h
    obtain ⟨hd1, -, num, -, L, hL, e⟩ := ts_spec hd h1
    refine ih hd1 ?_ h2
    intro c hc
    obtain ⟨p, hp, l, hl, c', hc', rfl⟩ := kids_mem hL e hc
    exact split_convex (hf p hp) hl c' hc'

end

/-! ### The mapping of a quarter -/

open Geometry in
/-- The mapping of the element in the plane: a bilinear quadrilateral, a rectangle (as such) or the given mapping. -/
noncomputable def mapping : Shape ℝ → Option (ℝ → ℝ → Pt ℝ)
  | .quad A B C D => some (quadMap [A.1, B.1, C.1, D.1] [A.2, B.2, C.2, D.2])
  | .rect o d => some fun xi et => (o.1 + (xi + 1) * (d.1 / 2), o.2 + (et + 1) * (d.2 / 2))
  | .ucq m _ => some m
  | _ => none

open Geometry in
lemma quadMap_eq (a b c d a' b' c' d' xi et : ℝ) : quadMap [a, b, c, d] [a', b', c', d'] xi et =
    (a + (b - a) * ((xi + 1) / 2) + (d - a) * ((et + 1) / 2) + (a - b + c - d) * ((xi + 1) / 2) * ((et + 1) / 2),
      a' + (b' - a') * ((xi + 1) / 2) + (d' - a') * ((et + 1) / 2) + (a' - b' + c' - d') * ((xi + 1) / 2) * ((et + 1) / 2)) := by
  simp only [quadMap, bilin, quadCoef, quadInvA, dot, List.map_cons, List.map_nil, List.zipWith_cons_cons, List.zipWith_nil_left,
    List.sum_cons, List.sum_nil, List.getD_cons_zero, List.getD_cons_succ]
  ext <;> dsimp only <;> ring

/-- **Quarters.** The new elements of a quadrilateral, a rectangle or a curvilinear quad are its four quarters: their mappings are those of the
element, on the quarters of the reference square. -/
theorem quarter_spec {e : Elem ℝ ℕ} {m : ℝ → ℝ → Pt ℝ} (hm : mapping e.shape = some m) {l : List (Elem ℝ Key)} (h : split e = some l) :
    ∃ c0 c1 c2 c3, l = [c0, c1, c2, c3] ∧
      mapping c0.shape = some (fun xi et => m ((xi - 1) / 2) ((et - 1) / 2)) ∧
      mapping c1.shape = some (fun xi et => m ((xi + 1) / 2) ((et - 1) / 2)) ∧
      mapping c2.shape = some (fun xi et => m ((xi + 1) / 2) ((et + 1) / 2)) ∧
      mapping c3.shape = some (fun xi et => m ((xi - 1) / 2) ((et + 1) / 2)) := by
  obtain ⟨s, map⟩ := e
  unfold split at h
  dsimp only at h hm
  split at h
  · cases hm
  · cases h; cases hm
    refine ⟨_, _, _, _, rfl, ?_, ?_, ?_, ?_⟩ <;> simp only [mapping, Option.some.injEq] <;> funext xi et <;>
      simp only [quadMap_eq, mid, centre4] <;> ext <;> dsimp only <;> ring
  · cases h; cases hm
    refine ⟨_, _, _, _, rfl, ?_, ?_, ?_, ?_⟩ <;> simp only [mapping, Option.some.injEq] <;> funext xi et <;>
      simp only [quadMap_eq, mid, centre4] <;> ext <;> dsimp only <;> ring
  · cases h; cases hm
    refine ⟨_, _, _, _, rfl, ?_, ?_, ?_, ?_⟩ <;> simp only [mapping, Option.some.injEq] <;> funext xi et <;>
      simp only [quarterMap, Bool.false_eq_true, if_false, if_true] <;> congr 1 <;> ring
  · cases hm
  · cases hm
  · cases h

/-! ### Sides -/

section
variable {R : Type} [Field R]

/-- Specification: the nodes around an element in the plane. The third and the fourth node of a rectangle are swapped in its map. -/
def around {κ : Type} (e : Elem R κ) : List κ := match e.shape, e.map with
  | .rect .., [a, b, d, c] => [a, b, c, d]
  | _, m => m

/-- Specification: the sides of an element in the plane, each from one node to the next. -/
def sides {κ : Type} (e : Elem R κ) : List (κ × κ) := (around e).zip ((around e).rotate 1)

/-- Specification: how often there is a side between two nodes, in whichever sense: once on the boundary, twice inside. -/
def sideCount {κ : Type} [DecidableEq κ] (l : List (Elem R κ)) (a b : κ) : ℕ :=
  (l.flatMap sides).countP fun s => decide (s = (a, b) ∨ s = (b, a))

lemma srt2_iff (a b c d : ℕ) : srt [a, b] = srt [c, d] ↔ (a = c ∧ b = d) ∨ (a = d ∧ b = c) := by
  unfold srt
  simp only [Key.tup.injEq, List.insertionSort_cons, List.insertionSort_nil, List.orderedInsert_nil, List.orderedInsert_cons]
  split <;> split <;> simp <;> omega

lemma halves (x y a b : ℕ) (hab : a ≠ b) :
    (if ((Key.node x, srt [x, y]) = (Key.node a, srt [a, b]) ∨ (Key.node x, srt [x, y]) = (srt [a, b], Key.node a)) then 1 else 0) +
      (if ((srt [x, y], Key.node y) = (Key.node a, srt [a, b]) ∨ (srt [x, y], Key.node y) = (srt [a, b], Key.node a)) then 1 else 0) =
    if (x, y) = (a, b) ∨ (x, y) = (b, a) then 1 else (0 : ℕ) := by
  have e1 : (Key.node x, srt [x, y]) = (Key.node a, srt [a, b]) ↔ x = a ∧ y = b := by
    simp only [Prod.mk.injEq, Key.node.injEq, srt2_iff]
    omega
  have e2 : (Key.node x, srt [x, y]) ≠ (srt [a, b], Key.node a) := by simp [srt]
  have e3 : (srt [x, y], Key.node y) ≠ (Key.node a, srt [a, b]) := by simp [srt]
  have e4 : (srt [x, y], Key.node y) = (srt [a, b], Key.node a) ↔ x = b ∧ y = a := by
    simp only [Prod.mk.injEq, Key.node.injEq, srt2_iff]
    omega
  simp only [e1, e2, e3, e4, or_false, false_or, Prod.mk.injEq]
  split_ifs <;> omega

lemma halves' (x y a b : ℕ) (hab : a ≠ b) :
    (if ((Key.node x, srt [y, x]) = (Key.node a, srt [a, b]) ∨ (Key.node x, srt [y, x]) = (srt [a, b], Key.node a)) then 1 else 0) +
      (if ((srt [y, x], Key.node y) = (Key.node a, srt [a, b]) ∨ (srt [y, x], Key.node y) = (srt [a, b], Key.node a)) then 1 else 0) =
    if (x, y) = (a, b) ∨ (x, y) = (b, a) then 1 else (0 : ℕ) := by
  rw [(srt2_iff y x x y).2 (Or.inr ⟨rfl, rfl⟩)]
  exact halves x y a b hab

lemma count_quad (A B C D : Pt R) (n0 n1 n2 n3 a b : ℕ) (hab : a ≠ b) :
    sideCount (splitQuad A B C D n0 n1 n2 n3) (.node a) (srt [a, b]) =
      [(n0, n1), (n1, n2), (n2, n3), (n3, n0)].countP fun s => decide (s = (a, b) ∨ s = (b, a)) := by
  have h0 := halves n0 n1 a b hab
  have h1 := halves n1 n2 a b hab
  have h2 := halves n2 n3 a b hab
  have h3 := halves n3 n0 a b hab
  simp only [sideCount, splitQuad, sides, around, List.flatMap_cons, List.flatMap_nil, List.rotate_cons_succ, List.rotate_zero,
    List.cons_append, List.nil_append, List.zip_cons_cons, List.zip_nil_left, List.append_nil, List.countP_cons, List.countP_nil, decide_eq_true_eq,
    ← h0, ← h1, ← h2, ← h3]
  simp only [srt, Prod.mk.injEq, reduceCtorEq, false_and, and_false, or_false, false_or, if_false, add_zero, zero_add]
  ring

lemma count_ucq (m : R → R → Pt R) (J : R → R → Pt R × Pt R) (n0 n1 n2 n3 a b : ℕ) (hab : a ≠ b) :
    sideCount (splitUcq m J n0 n1 n2 n3) (.node a) (srt [a, b]) =
      [(n0, n1), (n1, n2), (n2, n3), (n3, n0)].countP fun s => decide (s = (a, b) ∨ s = (b, a)) := by
  have h0 := halves n0 n1 a b hab
  have h1 := halves n1 n2 a b hab
  have h2 := halves n2 n3 a b hab
  have h3 := halves n3 n0 a b hab
  simp only [sideCount, splitUcq, sides, around, List.flatMap_cons, List.flatMap_nil, List.rotate_cons_succ, List.rotate_zero,
    List.cons_append, List.nil_append, List.zip_cons_cons, List.zip_nil_left, List.append_nil, List.countP_cons, List.countP_nil, decide_eq_true_eq,
    ← h0, ← h1, ← h2, ← h3]
  simp only [srt, Prod.mk.injEq, reduceCtorEq, false_and, and_false, or_false, false_or, if_false, add_zero, zero_add]
  ring

lemma count_tri (A B C : Pt R) (n0 n1 n2 a b : ℕ) (hab : a ≠ b) :
    sideCount (splitTri A B C n0 n1 n2) (.node a) (srt [a, b]) =
      [(n0, n1), (n1, n2), (n2, n0)].countP fun s => decide (s = (a, b) ∨ s = (b, a)) := by
  have h0 := halves n0 n1 a b hab
  have h1 := halves n1 n2 a b hab
  have h2 := halves' n2 n0 a b hab
  simp only [sideCount, splitTri, sides, around, List.flatMap_cons, List.flatMap_nil, List.rotate_cons_succ, List.rotate_zero,
    List.cons_append, List.nil_append, List.zip_cons_cons, List.zip_nil_left, List.append_nil, List.countP_cons, List.countP_nil, decide_eq_true_eq,
    ← h0, ← h1, ← h2]
  simp only [srt, Prod.mk.injEq, reduceCtorEq, false_and, and_false, or_false, false_or, if_false, add_zero, zero_add]
  ring

lemma split_count {e : Elem R ℕ} (hp : inSpace e.shape = false) {l : List (Elem R Key)} (h : split e = some l) (a b : ℕ) (hab : a ≠ b) :
    sideCount l (.node a) (srt [a, b]) = (sides e).countP fun s => decide (s = (a, b) ∨ s = (b, a)) := by
  obtain ⟨s, m⟩ := e
  unfold split at h
  dsimp only at h
  split at h
  · cases h; exact count_tri _ _ _ _ _ _ _ _ hab
  · cases h; exact count_quad _ _ _ _ _ _ _ _ _ _ hab
  · cases h; exact count_quad _ _ _ _ _ _ _ _ _ _ hab
  · cases h; exact count_ucq _ _ _ _ _ _ _ _ hab
  · cases hp
  · cases hp
  · cases h

lemma count_kids {l : List (Elem R ℕ)} {L : List (List (Elem R Key))} (h : List.Forall₂ (fun e l => split e = some l) l L)
    (hp : ∀ e ∈ l, inSpace e.shape = false) (a b : ℕ) (hab : a ≠ b) :
    sideCount L.flatten (.node a) (srt [a, b]) = sideCount l a b := by
  unfold sideCount
  induction h with
  | nil => rfl
  | cons h1 _ ih =>
    rw [List.flatten_cons, List.flatMap_append, List.countP_append, ih fun e he => hp e (List.mem_cons_of_mem _ he),
      List.flatMap_cons, List.countP_append]
    exact congrArg (· + _) (split_count (hp _ List.mem_cons_self) h1 a b hab)

lemma sides_num {κ μ : Type} (f : κ → μ) (e : Elem R κ) : sides (e.num f) = (sides e).map fun s => (f s.1, f s.2) := by
  have : around (e.num f) = (around e).map f := by
    obtain ⟨s, m⟩ := e
    unfold around Elem.num
    dsimp only
    cases s <;> try rfl
    match m with
    | [] => rfl
    | [_] => rfl
    | [_, _] => rfl
    | [_, _, _] => rfl
    | [_, _, _, _] => rfl
    | _ :: _ :: _ :: _ :: _ :: _ => rfl
  unfold sides
  rw [this, ← List.map_rotate, List.zip_map]
  rfl

lemma mem_around {κ : Type} {e : Elem R κ} {k : κ} : k ∈ around e ↔ k ∈ e.map := by
  unfold around
  split
  · rename_i h
    rw [h]
    simp only [List.mem_cons, List.not_mem_nil, or_false]
    tauto
  · rfl

lemma mem_sides {κ : Type} {e : Elem R κ} {s : κ × κ} (h : s ∈ sides e) : s.1 ∈ e.map ∧ s.2 ∈ e.map := by
  have := List.of_mem_zip h
  exact ⟨mem_around.1 this.1, mem_around.1 (List.mem_rotate.1 this.2)⟩

/-- The middle of a side is a corner of new elements. -/
lemma side_used {e : Elem R ℕ} (hp : inSpace e.shape = false) {l : List (Elem R Key)} (h : split e = some l) {a b : ℕ}
    (hs : (a, b) ∈ sides e) : ∃ c ∈ l, srt [a, b] ∈ c.map := by
  obtain ⟨s, m⟩ := e
  have hc : ∀ x y : ℕ, srt [x, y] = srt [y, x] := fun x y => (srt2_iff x y y x).2 (Or.inr ⟨rfl, rfl⟩)
  unfold split at h
  dsimp only at h
  split at h
  · cases h
    simp only [sides, around, List.rotate_cons_succ, List.rotate_zero, List.cons_append, List.nil_append, List.zip_cons_cons,
      List.zip_nil_left, List.mem_cons, List.not_mem_nil, or_false, Prod.mk.injEq] at hs
    rcases hs with ⟨rfl, rfl⟩ | ⟨rfl, rfl⟩ | ⟨rfl, rfl⟩
    · simp [splitTri]
    · simp [splitTri]
    · rw [hc]; simp [splitTri]
  · cases h
    simp only [sides, around, List.rotate_cons_succ, List.rotate_zero, List.cons_append, List.nil_append, List.zip_cons_cons,
      List.zip_nil_left, List.mem_cons, List.not_mem_nil, or_false, Prod.mk.injEq] at hs
    rcases hs with ⟨rfl, rfl⟩ | ⟨rfl, rfl⟩ | ⟨rfl, rfl⟩ | ⟨rfl, rfl⟩ <;> simp [splitQuad]
  · cases h
    simp only [sides, around, List.rotate_cons_succ, List.rotate_zero, List.cons_append, List.nil_append, List.zip_cons_cons,
      List.zip_nil_left, List.mem_cons, List.not_mem_nil, or_false, Prod.mk.injEq] at hs
    rcases hs with ⟨rfl, rfl⟩ | ⟨rfl, rfl⟩ | ⟨rfl, rfl⟩ | ⟨rfl, rfl⟩ <;> simp [splitRect, splitQuad]
  · cases h
    simp only [sides, around, List.rotate_cons_succ, List.rotate_zero, List.cons_append, List.nil_append, List.zip_cons_cons,
      List.zip_nil_left, List.mem_cons, List.not_mem_nil, or_false, Prod.mk.injEq] at hs
    rcases hs with ⟨rfl, rfl⟩ | ⟨rfl, rfl⟩ | ⟨rfl, rfl⟩ | ⟨rfl, rfl⟩ <;> simp [splitUcq]
  · cases hp
  · cases hp
  · cases h

/-- **Sides.** In a mesh in the plane, with straight or curved elements, let a side be between two different nodes `a` and `b`. In the split
mesh it is two sides: between `a` and the middle, and between the middle and `b`. Each of them belongs to as many elements as the side did: what
was shared by two elements is shared by two, and what was on the boundary is on the boundary. -/
theorem sides_spec {M M' : Mesh R ℕ} (hd : Distinct M) (h : ts M = some M') (hp : ∀ e ∈ elems M, inSpace e.shape = false) :
    ∃ num, Numbers M num ∧ ∀ a b, a ≠ b → (∃ e ∈ elems M, (a, b) ∈ sides e) →
      sideCount (elems M') a (num (srt [a, b])) = sideCount (elems M) a b ∧
        sideCount (elems M') b (num (srt [a, b])) = sideCount (elems M) a b := by
  obtain ⟨-, -, num, hnum, L, hL, e⟩ := ts_spec hd h
  have main : ∀ a b, a ≠ b → Used M (.node a) → Used M (srt [a, b]) →
      sideCount (elems M') a (num (srt [a, b])) = sideCount (elems M) a b := by
    intro a b hab ha hm
    rw [← count_kids hL hp a b hab, e]
    unfold sideCount
    have : (L.flatten.map (Elem.num num)).flatMap sides = (L.flatten.flatMap sides).map fun s => (num s.1, num s.2) := by
      rw [List.flatMap_map, List.map_flatMap]
      apply List.flatMap_congr
      intro c _
      exact sides_num num c
    rw [this, List.countP_map]
    apply List.countP_congr
    intro s hs
    obtain ⟨c, hc, hsc⟩ := List.mem_flatMap.1 hs
    obtain ⟨bl, hb, hcb⟩ := List.mem_flatten.1 hc
    obtain ⟨y, hy, hyb⟩ := forall₂_mem_right hL hb
    have u1 : Used M s.1 := ⟨y, hy, bl, hyb, c, hcb, (mem_sides hsc).1⟩
    have u2 : Used M s.2 := ⟨y, hy, bl, hyb, c, hcb, (mem_sides hsc).2⟩
    have hna : ∀ k, Used M k → (num k = a ↔ k = .node a) := fun k hk =>
      ⟨fun hh => hnum.inj k _ hk ha (by rw [hh, hnum.old]), fun hh => by rw [hh, hnum.old]⟩
    have hnm : ∀ k, Used M k → (num k = num (srt [a, b]) ↔ k = srt [a, b]) := fun k hk =>
      ⟨fun hh => hnum.inj k _ hk hm hh, fun hh => by rw [hh]⟩
    simp only [Function.comp_apply, decide_eq_true_eq, Prod.ext_iff, hna _ u1, hna _ u2, hnm _ u1, hnm _ u2]
  refine ⟨num, hnum, ?_⟩
  rintro a b hab ⟨p, hpM, hs⟩
  obtain ⟨bl, -, hpb⟩ := forall₂_mem_left hL hpM
  obtain ⟨c, hc, hcm⟩ := side_used (hp p hpM) hpb hs
  obtain ⟨c1, hc1, hn1⟩ := split_nodes hpb a (mem_sides hs).1
  obtain ⟨c2, hc2, hn2⟩ := split_nodes hpb b (mem_sides hs).2
  have hm : Used M (srt [a, b]) := ⟨p, hpM, bl, hpb, c, hc, hcm⟩
  have hsym : srt [a, b] = srt [b, a] := (srt2_iff a b b a).2 (Or.inr ⟨rfl, rfl⟩)
  refine ⟨main a b hab ⟨p, hpM, bl, hpb, c1, hc1, hn1⟩ hm, ?_⟩
  rw [hsym] at hm ⊢
  rw [main b a hab.symm ⟨p, hpM, bl, hpb, c2, hc2, hn2⟩ hm]
  unfold sideCount
  simp only [or_comm]

local macro "inner_cases" : tactic => `(tactic| (
  repeat' apply And.intro
  all_goals first
    | (refine Or.inl ⟨_, _, ?_, Or.inl rfl⟩; simp; done)
    | (refine Or.inl ⟨_, _, ?_, Or.inr rfl⟩; simp; done)
    | (refine Or.inr ⟨⟨_, _, rfl⟩, ?_⟩; simp; done)))

/-- **Sides inside an element.** All other sides of the new elements of an element are between the middle of a side and its centre, once in
each sense: they are shared by two of them. -/
theorem inner_sides {e : Elem R ℕ} (hp : inSpace e.shape = false) {l : List (Elem R Key)} (h : split e = some l) :
    ∀ c ∈ l, ∀ s ∈ sides c, (∃ a b, (a, b) ∈ sides e ∧ (s = (.node a, srt [a, b]) ∨ s = (srt [a, b], .node b))) ∨
      ((∃ u v, s = (.tup u, .tup v)) ∧ ∃ c' ∈ l, (s.2, s.1) ∈ sides c') := by
  obtain ⟨s, m⟩ := e
  have hc : ∀ x y : ℕ, srt [x, y] = srt [y, x] := fun x y => (srt2_iff x y y x).2 (Or.inr ⟨rfl, rfl⟩)
  unfold split at h
  dsimp only at h
  split at h
  · rename_i A B C a b c
    cases h
    have hca := hc a c
    simp only [splitTri, hca, sides, around, List.rotate_cons_succ, List.rotate_zero, List.cons_append, List.nil_append, List.zip_cons_cons,
      List.zip_nil_left, List.mem_cons, List.not_mem_nil, or_false, forall_eq_or_imp, forall_eq, exists_eq_or_imp, exists_eq_left]
    inner_cases
  · cases h
    simp only [splitQuad, sides, around, List.rotate_cons_succ, List.rotate_zero, List.cons_append, List.nil_append, List.zip_cons_cons,
      List.zip_nil_left, List.mem_cons, List.not_mem_nil, or_false, forall_eq_or_imp, forall_eq, exists_eq_or_imp, exists_eq_left]
    inner_cases
  · cases h
    simp only [splitRect, splitQuad, sides, around, List.rotate_cons_succ, List.rotate_zero, List.cons_append, List.nil_append,
      List.zip_cons_cons, List.zip_nil_left, List.mem_cons, List.not_mem_nil, or_false, forall_eq_or_imp, forall_eq, exists_eq_or_imp,
      exists_eq_left]
    inner_cases
  · cases h
    simp only [splitUcq, sides, around, List.rotate_cons_succ, List.rotate_zero, List.cons_append, List.nil_append, List.zip_cons_cons,
      List.zip_nil_left, List.mem_cons, List.not_mem_nil, or_false, forall_eq_or_imp, forall_eq, exists_eq_or_imp, exists_eq_left]
    inner_cases
  · cases hp
  · cases hp
  · cases h

end

/-! ### A concrete mesh -/

/-- The places of the nodes of `house`. -/
def houseAt : ℕ → Pt ℚ := fun n => [(0, 0), (1, 0), (0, 1), (1, 1), (0, 0), (0, 2), (2, 0), (2, 1)].getD n (0, 0)

example : ∀ e ∈ elems house, Placed houseAt e := by
  unfold elems house Placed
  decide +kernel

example : (∀ e ∈ elems house, Flat e) ∧ ∀ e ∈ elems house, inSpace e.shape = false := by
  unfold elems house Flat
  decide +kernel

example : ∀ e ∈ elems house, Convex e := by
  intro e he
  simp only [elems, house, List.flatten_cons, List.flatten_nil, List.map_cons, List.cons_append, List.nil_append, List.append_nil,
    List.map_nil, List.mem_cons, List.not_mem_nil, or_false] at he
  rcases he with rfl | rfl | rfl <;> simp only [Convex, ring, Left] <;> norm_num

example : sideCount (elems house) 1 2 = 2 ∧ sideCount (elems house) 0 1 = 1 := by decide +kernel

example : ((iter 2 house).map fun M => ((elems M).map areaOf).sum) = some (5 / 2) := by decide +kernel

end Phyem.Split
