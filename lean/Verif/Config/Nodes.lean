import Verif.Config.Tiling
import Mathlib.Tactic.IntervalCases

/-!
# Which corners of elements are the same node
-/

namespace Phyem.Config

open Phyem

/-! ## Specification -/

/-- The point `(x, y)` of the unit square of region `r` is the corner with label `n`. -/
def IsCorner (M : List (ℕ × List ℕ)) (r : ℕ) (x y : ℚ) (n : ℕ) : Prop :=
  ∃ k, square[k]? = some (x, y) ∧ corner M r k = some n

/-- The point lies inside a side of region `r` that goes from the corner with label `a` to the corner with label `b`, at the fraction `t` of
the way. -/
def OnSide (M : List (ℕ × List ℕ)) (r : ℕ) (x y : ℚ) (a b : ℕ) (t : ℚ) : Prop :=
  ∃ (k l : ℕ) (p q : ℚ × ℚ), (l = (k + 1) % 4 ∨ k = (l + 1) % 4) ∧ corner M r k = some a ∧ corner M r l = some b ∧
    square[k]? = some p ∧ square[l]? = some q ∧ 0 < t ∧ t < 1 ∧ x = p.1 + t * (q.1 - p.1) ∧ y = p.2 + t * (q.2 - p.2)

/-- The point lies inside the region. -/
def Inside (x y : ℚ) : Prop := 0 < x ∧ x < 1 ∧ 0 < y ∧ y < 1

/-- Two points of regions are the same place: the same corner; or on sides between the same corners, at the same fraction of the way from the
smaller label (to seven decimals); or in the same region at the same place (to seven decimals). -/
def SamePlace (M : List (ℕ × List ℕ)) (r : ℕ) (x y : ℚ) (r' : ℕ) (x' y' : ℚ) : Prop :=
  (∃ n, IsCorner M r x y n ∧ IsCorner M r' x' y' n) ∨
  (∃ a b t t', a < b ∧ OnSide M r x y a b t ∧ OnSide M r' x' y' a b t' ∧ Dds.fmt t = Dds.fmt t') ∨
  (r = r' ∧ Inside x y ∧ Inside x' y' ∧ Dds.fmt x = Dds.fmt x' ∧ Dds.fmt y = Dds.fmt y')

/-- The map of the regions: every region has four corners with different labels. -/
def MapOK (M : List (ℕ × List ℕ)) (r : ℕ) : Prop := ∃ labels, Dict.get M r = some labels ∧ labels.length = 4 ∧ labels.Nodup

/-! ## Lemmas -/

lemma side_iff {a b n0 n1 : ℕ} {d : ℚ} {T : Txt} (hne : n0 ≠ n1) : sideNode n0 n1 d = some (.side a b T) ↔
    (n0 < n1 ∧ a = n0 ∧ b = n1 ∧ T = Dds.fmt d) ∨ (n1 < n0 ∧ a = n1 ∧ b = n0 ∧ T = Dds.fmt (1 - d)) := by
  unfold sideNode
  by_cases h : n0 < n1
  · rw [if_pos h]
    simp only [Option.some.injEq, Node.side.injEq]
    constructor
    · rintro ⟨rfl, rfl, rfl⟩; exact .inl ⟨h, rfl, rfl, rfl⟩
    · rintro (⟨_, rfl, rfl, rfl⟩ | ⟨h', _⟩)
      · exact ⟨rfl, rfl, rfl⟩
      · omega
  · rw [if_neg h, if_pos (by omega)]
    simp only [Option.some.injEq, Node.side.injEq]
    constructor
    · rintro ⟨rfl, rfl, rfl⟩; exact .inr ⟨by omega, rfl, rfl, rfl⟩
    · rintro (⟨h', _⟩ | ⟨_, rfl, rfl, rfl⟩)
      · omega
      · exact ⟨rfl, rfl, rfl⟩

lemma side_some {n0 n1 : ℕ} (d : ℚ) (hne : n0 ≠ n1) : ∃ a b T, sideNode n0 n1 d = some (.side a b T) := by
  unfold sideNode
  by_cases h : n0 < n1
  · rw [if_pos h]; exact ⟨_, _, _, rfl⟩
  · rw [if_neg h, if_pos (by omega)]; exact ⟨_, _, _, rfl⟩

/-- Where a point is, in terms of the numbers: nine cases. -/
inductive Where (n0 n1 n2 n3 r : ℕ) (x y : ℚ) : Option Node → Prop
  | c0 : x = 0 → y = 0 → Where n0 n1 n2 n3 r x y (some (.corner n0))
  | c1 : x = 1 → y = 0 → Where n0 n1 n2 n3 r x y (some (.corner n1))
  | c2 : x = 1 → y = 1 → Where n0 n1 n2 n3 r x y (some (.corner n2))
  | c3 : x = 0 → y = 1 → Where n0 n1 n2 n3 r x y (some (.corner n3))
  | s3 : x = 0 → 0 < y → y < 1 → Where n0 n1 n2 n3 r x y (sideNode n0 n3 y)
  | s1 : x = 1 → 0 < y → y < 1 → Where n0 n1 n2 n3 r x y (sideNode n1 n2 y)
  | s0 : y = 0 → 0 < x → x < 1 → Where n0 n1 n2 n3 r x y (sideNode n0 n1 x)
  | s2 : y = 1 → 0 < x → x < 1 → Where n0 n1 n2 n3 r x y (sideNode n3 n2 x)
  | inside : 0 < x → x < 1 → 0 < y → y < 1 → Where n0 n1 n2 n3 r x y (some (.inside r (Dds.fmt x) (Dds.fmt y)))

lemma where_node {n0 n1 n2 n3 r : ℕ} {x y : ℚ} (hn : [n0, n1, n2, n3].Nodup) (hx : 0 ≤ x) (hx' : x ≤ 1) (hy : 0 ≤ y) (hy' : y ≤ 1) :
    Where n0 n1 n2 n3 r x y (nodeOf r [n0, n1, n2, n3] x y) := by
  unfold nodeOf
  dsimp only
  rw [if_pos hn]
  rcases hx.eq_or_lt with rfl | hx0
  · rcases hy.eq_or_lt with rfl | hy0
    · simpa using Where.c0 rfl rfl
    · rcases hy'.eq_or_lt with rfl | hy1
      · simpa using Where.c3 rfl rfl
      · simpa [hy0.ne', hy1.ne] using Where.s3 rfl hy0 hy1
  · rcases hx'.eq_or_lt with rfl | hx1
    · rcases hy.eq_or_lt with rfl | hy0
      · simpa using Where.c1 rfl rfl
      · rcases hy'.eq_or_lt with rfl | hy1
        · simpa using Where.c2 rfl rfl
        · simpa [hy0.ne', hy1.ne] using Where.s1 rfl hy0 hy1
    · rcases hy.eq_or_lt with rfl | hy0
      · simpa [hx0.ne', hx1.ne] using Where.s0 rfl hx0 hx1
      · rcases hy'.eq_or_lt with rfl | hy1
        · simpa [hx0.ne', hx1.ne] using Where.s2 rfl hx0 hx1
        · simpa [hx0.ne', hx1.ne, hy0.ne', hy1.ne] using Where.inside hx0 hx1 hy0 hy1

/-- The node of a point, by where it is. -/
lemma node_char {M : List (ℕ × List ℕ)} {r : ℕ} {labels : List ℕ} (hM : Dict.get M r = some labels) (h4 : labels.length = 4)
    (hn : labels.Nodup) {x y : ℚ} (hx : 0 ≤ x) (hx' : x ≤ 1) (hy : 0 ≤ y) (hy' : y ≤ 1) :
    (∃ k, nodeOf r labels x y = some k) ∧
    (∀ n, nodeOf r labels x y = some (.corner n) ↔ IsCorner M r x y n) ∧
    (∀ a b T, nodeOf r labels x y = some (.side a b T) ↔ a < b ∧ ∃ t, OnSide M r x y a b t ∧ T = Dds.fmt t) ∧
    (∀ r' X Y, nodeOf r labels x y = some (.inside r' X Y) ↔ r' = r ∧ Inside x y ∧ X = Dds.fmt x ∧ Y = Dds.fmt y) := by
  obtain ⟨n0, n1, n2, n3, rfl⟩ : ∃ n0 n1 n2 n3, labels = [n0, n1, n2, n3] := by
    match labels, h4 with
    | [a, b, c, d], _ => exact ⟨a, b, c, d, rfl⟩
  have hw := where_node (r := r) hn hx hx' hy hy'
  have hd : n0 ≠ n1 ∧ n0 ≠ n2 ∧ n0 ≠ n3 ∧ n1 ≠ n2 ∧ n1 ≠ n3 ∧ n2 ≠ n3 := by
    simp only [List.nodup_cons, List.mem_cons, List.not_mem_nil, or_false, not_or, List.nodup_nil, and_true, not_false_eq_true] at hn
    tauto
  obtain ⟨d01, d02, d03, d12, d13, d23⟩ := hd
  have hc : ∀ k, corner M r k = [n0, n1, n2, n3][k]? := by intro k; simp [corner, hM]
  generalize nodeOf r [n0, n1, n2, n3] x y = o at hw
  -- corners
  have hC : ∀ n, IsCorner M r x y n ↔ (x = 0 ∧ y = 0 ∧ n = n0) ∨ (x = 1 ∧ y = 0 ∧ n = n1) ∨ (x = 1 ∧ y = 1 ∧ n = n2) ∨
      (x = 0 ∧ y = 1 ∧ n = n3) := by
    intro n
    constructor
    · rintro ⟨k, h1, h2⟩
      rw [hc] at h2
      match k with
      | 0 => simp [square] at h1 h2; exact .inl ⟨h1.1.symm, h1.2.symm, h2.symm⟩
      | 1 => simp [square] at h1 h2; exact .inr (.inl ⟨h1.1.symm, h1.2.symm, h2.symm⟩)
      | 2 => simp [square] at h1 h2; exact .inr (.inr (.inl ⟨h1.1.symm, h1.2.symm, h2.symm⟩))
      | 3 => simp [square] at h1 h2; exact .inr (.inr (.inr ⟨h1.1.symm, h1.2.symm, h2.symm⟩))
      | k + 4 => simp [square] at h1
    · rintro (⟨rfl, rfl, rfl⟩ | ⟨rfl, rfl, rfl⟩ | ⟨rfl, rfl, rfl⟩ | ⟨rfl, rfl, rfl⟩)
      · exact ⟨0, rfl, hc 0⟩
      · exact ⟨1, rfl, hc 1⟩
      · exact ⟨2, rfl, hc 2⟩
      · exact ⟨3, rfl, hc 3⟩
  -- sides
  have hS : ∀ a b t, OnSide M r x y a b t ↔ 0 < t ∧ t < 1 ∧
      ((x = 0 ∧ ((a = n0 ∧ b = n3 ∧ t = y) ∨ (a = n3 ∧ b = n0 ∧ t = 1 - y))) ∨
       (x = 1 ∧ ((a = n1 ∧ b = n2 ∧ t = y) ∨ (a = n2 ∧ b = n1 ∧ t = 1 - y))) ∨
       (y = 0 ∧ ((a = n0 ∧ b = n1 ∧ t = x) ∨ (a = n1 ∧ b = n0 ∧ t = 1 - x))) ∨
       (y = 1 ∧ ((a = n3 ∧ b = n2 ∧ t = x) ∨ (a = n2 ∧ b = n3 ∧ t = 1 - x)))) := by
    intro a b t
    constructor
    · rintro ⟨k, l, p, q, hkl, ha, hb, hp, hq, t0, t1, ex, ey⟩
      refine ⟨t0, t1, ?_⟩
      have hk : k < 4 := by
        by_contra h
        rw [List.getElem?_eq_none (by simp [square]; omega)] at hp
        cases hp
      have hl : l < 4 := by
        by_contra h
        rw [List.getElem?_eq_none (by simp [square]; omega)] at hq
        cases hq
      rw [hc] at ha hb
      interval_cases k <;> interval_cases l <;> first
        | (exfalso; omega)
        | (simp only [square, List.getElem?_cons_zero, List.getElem?_cons_succ, Option.some.injEq] at ha hb hp hq
           subst hp hq ha hb
           simp only at ex ey
           first
             | exact .inr (.inr (.inl ⟨by linarith, .inl ⟨rfl, rfl, by linarith⟩⟩))
             | exact .inr (.inr (.inl ⟨by linarith, .inr ⟨rfl, rfl, by linarith⟩⟩))
             | exact .inr (.inl ⟨by linarith, .inl ⟨rfl, rfl, by linarith⟩⟩)
             | exact .inr (.inl ⟨by linarith, .inr ⟨rfl, rfl, by linarith⟩⟩)
             | exact .inr (.inr (.inr ⟨by linarith, .inl ⟨rfl, rfl, by linarith⟩⟩))
             | exact .inr (.inr (.inr ⟨by linarith, .inr ⟨rfl, rfl, by linarith⟩⟩))
             | exact .inl ⟨by linarith, .inl ⟨rfl, rfl, by linarith⟩⟩
             | exact .inl ⟨by linarith, .inr ⟨rfl, rfl, by linarith⟩⟩)
    · rintro ⟨t0, t1, (⟨e, (⟨rfl, rfl, e'⟩ | ⟨rfl, rfl, e'⟩)⟩ | ⟨e, (⟨rfl, rfl, e'⟩ | ⟨rfl, rfl, e'⟩)⟩ |
        ⟨e, (⟨rfl, rfl, e'⟩ | ⟨rfl, rfl, e'⟩)⟩ | ⟨e, (⟨rfl, rfl, e'⟩ | ⟨rfl, rfl, e'⟩)⟩)⟩
      · exact ⟨0, 3, (0, 0), (0, 1), .inr rfl, hc 0, hc 3, rfl, rfl, t0, t1, by simp [e], by simp [e']⟩
      · exact ⟨3, 0, (0, 1), (0, 0), .inl rfl, hc 3, hc 0, rfl, rfl, t0, t1, by simp [e], by simp [e']⟩
      · exact ⟨1, 2, (1, 0), (1, 1), .inl rfl, hc 1, hc 2, rfl, rfl, t0, t1, by simp [e], by simp [e']⟩
      · exact ⟨2, 1, (1, 1), (1, 0), .inr rfl, hc 2, hc 1, rfl, rfl, t0, t1, by simp [e], by simp [e']⟩
      · exact ⟨0, 1, (0, 0), (1, 0), .inl rfl, hc 0, hc 1, rfl, rfl, t0, t1, by simp [e'], by simp [e]⟩
      · exact ⟨1, 0, (1, 0), (0, 0), .inr rfl, hc 1, hc 0, rfl, rfl, t0, t1, by simp [e'], by simp [e]⟩
      · exact ⟨3, 2, (0, 1), (1, 1), .inr rfl, hc 3, hc 2, rfl, rfl, t0, t1, by simp [e'], by simp [e]⟩
      · exact ⟨2, 3, (1, 1), (0, 1), .inl rfl, hc 2, hc 3, rfl, rfl, t0, t1, by simp [e'], by simp [e]⟩
  -- the value on a side, given the only side the point is on
  have hside : ∀ (m0 m1 : ℕ) (d : ℚ), m0 ≠ m1 → 0 < d → d < 1 →
      (∀ a b t, OnSide M r x y a b t ↔ 0 < t ∧ t < 1 ∧ ((a = m0 ∧ b = m1 ∧ t = d) ∨ (a = m1 ∧ b = m0 ∧ t = 1 - d))) →
      ∀ a b T, sideNode m0 m1 d = some (.side a b T) ↔ a < b ∧ ∃ t, OnSide M r x y a b t ∧ T = Dds.fmt t := by
    intro m0 m1 d hne d0 d1 hon a b T
    rw [side_iff hne]
    constructor
    · rintro (⟨h, rfl, rfl, rfl⟩ | ⟨h, rfl, rfl, rfl⟩)
      · exact ⟨h, d, (hon _ _ _).2 ⟨d0, d1, .inl ⟨rfl, rfl, rfl⟩⟩, rfl⟩
      · exact ⟨h, 1 - d, (hon _ _ _).2 ⟨by linarith, by linarith, .inr ⟨rfl, rfl, rfl⟩⟩, rfl⟩
    · rintro ⟨h, t, ho, rfl⟩
      obtain ⟨_, _, (⟨rfl, rfl, rfl⟩ | ⟨rfl, rfl, rfl⟩)⟩ := (hon _ _ _).1 ho
      · exact .inl ⟨h, rfl, rfl, rfl⟩
      · exact .inr ⟨h, rfl, rfl, rfl⟩
  have nocorner : ∀ (m0 m1 : ℕ) (d : ℚ), m0 ≠ m1 → (∃ k, sideNode m0 m1 d = some k) ∧ (∀ n, sideNode m0 m1 d ≠ some (.corner n)) ∧
      ∀ r' X Y, sideNode m0 m1 d ≠ some (.inside r' X Y) := by
    intro m0 m1 d hne
    obtain ⟨a, b, T, e⟩ := side_some d hne
    rw [e]
    exact ⟨⟨_, rfl⟩, by simp, by simp⟩
  cases hw with
  | c0 hx hy | c1 hx hy | c2 hx hy | c3 hx hy =>
    subst hx hy
    refine ⟨⟨_, rfl⟩, fun n => ?_, fun a b T => ?_, fun r' X Y => ?_⟩
    · rw [hC]; simp [eq_comm]
    · constructor
      · intro h; cases h
      · rintro ⟨_, t, ho, _⟩
        obtain ⟨t0, t1, h⟩ := (hS _ _ _).1 ho
        exfalso
        rcases h with ⟨e, h⟩ | ⟨e, h⟩ | ⟨e, h⟩ | ⟨e, h⟩ <;> first
          | (norm_num at e; done)
          | (rcases h with ⟨_, _, h⟩ | ⟨_, _, h⟩ <;> linarith)
    · simp [Inside]
  | s3 e y0 y1 | s1 e y0 y1 | s0 e y0 y1 | s2 e y0 y1 =>
    subst e
    have d32 := d23.symm
    refine ⟨(nocorner _ _ _ (by assumption)).1, fun n => ?_, ?_, fun r' X Y => ?_⟩
    · refine ⟨fun h => absurd h ((nocorner _ _ _ (by assumption)).2.1 n), fun h => ?_⟩
      exfalso
      rcases (hC n).1 h with ⟨h1, h2, _⟩ | ⟨h1, h2, _⟩ | ⟨h1, h2, _⟩ | ⟨h1, h2, _⟩ <;> linarith
    · refine hside _ _ _ (by assumption) y0 y1 fun a b t => ?_
      rw [hS]
      refine and_congr_right fun t0 => and_congr_right fun t1 => ?_
      constructor
      · rintro (⟨e, h⟩ | ⟨e, h⟩ | ⟨e, h⟩ | ⟨e, h⟩) <;> first
          | exact h
          | (exfalso; linarith)
      · intro h
        first
          | exact .inl ⟨rfl, h⟩
          | exact .inr (.inl ⟨rfl, h⟩)
          | exact .inr (.inr (.inl ⟨rfl, h⟩))
          | exact .inr (.inr (.inr ⟨rfl, h⟩))
    · refine ⟨fun h => absurd h ((nocorner _ _ _ (by assumption)).2.2 r' X Y), fun h => ?_⟩
      exfalso
      obtain ⟨_, ⟨a, b, c, d⟩, _⟩ := h
      linarith
  | inside x0 x1 y0 y1 =>
    refine ⟨⟨_, rfl⟩, fun n => ?_, fun a b T => ?_, fun r' X Y => ?_⟩
    · refine ⟨fun h => (by cases h), fun h => ?_⟩
      exfalso
      rcases (hC n).1 h with ⟨h1, h2, _⟩ | ⟨h1, h2, _⟩ | ⟨h1, h2, _⟩ | ⟨h1, h2, _⟩ <;> linarith
    · refine ⟨fun h => (by cases h), fun h => ?_⟩
      exfalso
      obtain ⟨_, t, ho, _⟩ := h
      obtain ⟨_, _, (⟨e, _⟩ | ⟨e, _⟩ | ⟨e, _⟩ | ⟨e, _⟩)⟩ := (hS _ _ _).1 ho <;> linarith
    · simp only [Option.some.injEq, Node.inside.injEq]
      constructor
      · rintro ⟨rfl, rfl, rfl⟩; exact ⟨rfl, ⟨x0, x1, y0, y1⟩, rfl, rfl⟩
      · rintro ⟨rfl, _, rfl, rfl⟩; exact ⟨rfl, rfl, rfl⟩

/-- The nodes of two points are the same exactly if the points are the same place. -/
lemma node_same {M : List (ℕ × List ℕ)} {r r' : ℕ} {labels labels' : List ℕ} (hM : Dict.get M r = some labels)
    (h4 : labels.length = 4) (hn : labels.Nodup) (hM' : Dict.get M r' = some labels') (h4' : labels'.length = 4) (hn' : labels'.Nodup)
    {x y x' y' : ℚ} (hx : 0 ≤ x) (hx1 : x ≤ 1) (hy : 0 ≤ y) (hy1 : y ≤ 1) (hx' : 0 ≤ x') (hx1' : x' ≤ 1) (hy' : 0 ≤ y')
    (hy1' : y' ≤ 1) : nodeOf r labels x y = nodeOf r' labels' x' y' ↔ SamePlace M r x y r' x' y' := by
  obtain ⟨⟨k, hk⟩, a1, a2, a3⟩ := node_char hM h4 hn hx hx1 hy hy1
  obtain ⟨-, b1, b2, b3⟩ := node_char hM' h4' hn' hx' hx1' hy' hy1'
  constructor
  · intro h
    have hk' := h ▸ hk
    cases k with
    | corner n => exact .inl ⟨n, (a1 n).1 hk, (b1 n).1 hk'⟩
    | side a b T =>
      obtain ⟨hab, t, ht, rfl⟩ := (a2 a b T).1 hk
      obtain ⟨_, t', ht', e⟩ := (b2 a b _).1 hk'
      exact .inr (.inl ⟨a, b, t, t', hab, ht, ht', e⟩)
    | inside q X Y =>
      obtain ⟨rfl, hi, rfl, rfl⟩ := (a3 q X Y).1 hk
      obtain ⟨rfl, hi', e1, e2⟩ := (b3 _ _ _).1 hk'
      exact .inr (.inr ⟨rfl, hi, hi', e1, e2⟩)
  · rintro (⟨n, h, h'⟩ | ⟨a, b, t, t', hab, h, h', e⟩ | ⟨rfl, h, h', e1, e2⟩)
    · rw [(a1 n).2 h, (b1 n).2 h']
    · rw [(a2 a b _).2 ⟨hab, t, h, rfl⟩, (b2 a b _).2 ⟨hab, t', h', e⟩]
    · rw [(a3 r _ _).2 ⟨rfl, h, rfl, rfl⟩, (b3 r _ _).2 ⟨rfl, h', e1, e2⟩]

end Phyem.Config
