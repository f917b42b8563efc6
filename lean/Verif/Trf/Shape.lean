import Verif.Trf.Props
import Mathlib.Algebra.BigOperators.Group.Finset.Basic
import Mathlib.Algebra.BigOperators.Group.List.Lemmas

/-! The triangles in the domain, for base cells that are quadrilaterals with straight sides. -/

namespace Phyem.Trf

/-- The four vertices of a quadrilateral; msehtt_trf.py:79, vtu_9_quad.py:109-112. -/
structure Four where
  v0 : Pt
  v1 : Pt
  v2 : Pt
  v3 : Pt

/-- One coordinate of `Vtu9Quad._find_mapping_`, with `___invA___ @ x` multiplied out; vtu_9_quad.py:114-125. -/
def bilinear (x0 x1 x2 x3 r s : ℚ) : ℚ := x0 + (x1 - x0) * r + (x3 - x0) * s + (x0 - x1 + x2 - x3) * r * s

/-- `Vtu9Quad._find_mapping_`; vtu_9_quad.py:107-126. -/
def quadMap (Q : Four) (p : Pt) : Pt :=
  let r := (p.x + 1) * (1 / 2)
  let s := (p.y + 1) * (1 / 2)
  ⟨bilinear Q.v0.x Q.v1.x Q.v2.x Q.v3.x r s, bilinear Q.v0.y Q.v1.y Q.v2.y Q.v3.y r s⟩

/-- The vertices of a triangle in the domain; `_finalize_m2n2_`, msehtt_trf.py:81-89. -/
def shape (Q : ℕ → Four) (t : Tri) : Three :=
  ⟨quadMap (Q t.cell) (verts t).a, quadMap (Q t.cell) (verts t).b, quadMap (Q t.cell) (verts t).c⟩

/-! Specification. -/

/-- The quadrilateral is strictly convex and run through counterclockwise. -/
structure Convex (Q : Four) : Prop where
  h0 : 0 < area2 Q.v3 Q.v0 Q.v1
  h1 : 0 < area2 Q.v0 Q.v1 Q.v2
  h2 : 0 < area2 Q.v1 Q.v2 Q.v3
  h3 : 0 < area2 Q.v2 Q.v3 Q.v0

/-- Twice the area of a quadrilateral. -/
def Four.area (Q : Four) : ℚ := area2 Q.v0 Q.v1 Q.v2 + area2 Q.v0 Q.v2 Q.v3

/-- Twice the area of a triangle in the domain. -/
def Three.area (V : Three) : ℚ := area2 V.a V.b V.c

/-- Twice the area of the triangles of a cell, added up. -/
def areaIn (Q : ℕ → Four) (c : ℕ) (L : List Elem) : ℚ :=
  (L.map fun e => match e with
    | .tri t => if t.cell = c then (shape Q t).area else 0
    | .quad _ => 0).sum

/-! Orientation. -/

/-- Four times the Jacobian determinant of the mapping. -/
def jac (Q : Four) (p : Pt) : ℚ :=
  ((1 - p.x) * (1 - p.y) * area2 Q.v3 Q.v0 Q.v1 + (1 + p.x) * (1 - p.y) * area2 Q.v0 Q.v1 Q.v2 +
   (1 + p.x) * (1 + p.y) * area2 Q.v1 Q.v2 Q.v3 + (1 - p.x) * (1 + p.y) * area2 Q.v2 Q.v3 Q.v0) / 16

lemma jac_pos {Q : Four} (h : Convex Q) {p : Pt} (hp : InSquare p) : 0 < jac Q p := by
  obtain ⟨x, y⟩ := p
  obtain ⟨h1, h2, h3, h4⟩ := hp
  obtain ⟨k0, k1, k2, k3⟩ := h
  simp only at h1 h2 h3 h4
  unfold jac
  simp only
  have a1 : 0 ≤ 1 - x := by linarith
  have a2 : 0 ≤ 1 + x := by linarith
  have b1 : 0 ≤ 1 - y := by linarith
  have b2 : 0 ≤ 1 + y := by linarith
  generalize area2 Q.v3 Q.v0 Q.v1 = A at *
  generalize area2 Q.v0 Q.v1 Q.v2 = B at *
  generalize area2 Q.v1 Q.v2 Q.v3 = C at *
  generalize area2 Q.v2 Q.v3 Q.v0 = D at *
  have p1 := mul_nonneg (mul_nonneg a1 b1) k0.le
  have p2 := mul_nonneg (mul_nonneg a2 b1) k1.le
  have p3 := mul_nonneg (mul_nonneg a2 b2) k2.le
  have p4 := mul_nonneg (mul_nonneg a1 b2) k3.le
  rcases lt_or_ge x 1 with hx | hx <;> rcases lt_or_ge y 1 with hy | hy
  · have := mul_pos (mul_pos (show 0 < 1 - x by linarith) (show 0 < 1 - y by linarith)) k0; linarith
  · have := mul_pos (mul_pos (show 0 < 1 - x by linarith) (show 0 < 1 + y by linarith)) k3; linarith
  · have := mul_pos (mul_pos (show 0 < 1 + x by linarith) (show 0 < 1 - y by linarith)) k1; linarith
  · have := mul_pos (mul_pos (show 0 < 1 + x by linarith) (show 0 < 1 + y by linarith)) k2; linarith

/-- The legs are parallel to the axes. -/
def Axis (V : Three) : Prop := V.b.x = V.a.x ∨ V.b.y = V.a.y

/-- The legs are parallel to the diagonals. -/
def Diag (V : Three) : Prop := V.b.x - V.a.x = V.b.y - V.a.y ∨ V.b.x - V.a.x = -(V.b.y - V.a.y)

lemma axis_or_diag (t : Tri) : Axis (verts t) ∨ Diag (verts t) := by
  have step : ∀ V k, Right V → Axis V ∨ Diag V → Axis (bisect V k) ∨ Diag (bisect V k) := by
    intro V k hr h
    obtain ⟨h1, h2⟩ := hr
    rcases h with (h | h) | (h | h) <;> cases k <;> simp only [Axis, Diag, bisect, mid] <;>
      first
        | (left; left; linarith)
        | (left; right; linarith)
        | (right; left; linarith)
        | (right; right; linarith)
  have : ∀ (l : List Half) (V : Three), Right V → Axis V ∨ Diag V → Axis (l.foldl bisect V) ∨ Diag (l.foldl bisect V) := by
    intro l
    induction l with
    | nil => exact fun V _ h => h
    | cons k l ih => exact fun V hr h => ih _ (right_bisect hr k) (step V k hr h)
  refine this _ _ ?_ ?_
  · cases t.dir <;> simp only [Right, start] <;> norm_num
  · cases t.dir <;> simp only [Axis, Diag, start] <;> norm_num

/-- Twice the area in the domain is twice the area in the reference square times the Jacobian determinant at one
point of the triangle. -/
lemma shape_area (Q : ℕ → Four) (t : Tri) :
    ∃ p, In (verts t) p ∧ (shape Q t).area = size (verts t) * jac (Q t.cell) p := by
  have hr := right_verts t
  rcases axis_or_diag t with h | h
  · refine ⟨(verts t).a, in_va _, ?_⟩
    simp only [shape, Three.area]
    obtain ⟨h1, h2⟩ := hr
    generalize Q t.cell = q
    generalize verts t = V at *
    obtain ⟨⟨ax, ay⟩, ⟨bx, b_y⟩, ⟨cx, cy⟩⟩ := V
    simp only [Axis] at h h1 h2
    obtain rfl : cx = ax - (b_y - ay) := by linarith
    obtain rfl : cy = ay + (bx - ax) := by linarith
    rcases h with rfl | rfl
    · simp only [size, area2, jac, quadMap, bilinear]; ring
    · simp only [size, area2, jac, quadMap, bilinear]; ring
  · refine ⟨mid (verts t).b (verts t).c, ⟨0, 1 / 2, 1 / 2, by norm_num, by norm_num, by norm_num, by norm_num, ?_⟩, ?_⟩
    · ext <;> simp only [mid] <;> ring
    simp only [shape, Three.area]
    obtain ⟨h1, h2⟩ := hr
    generalize Q t.cell = q
    generalize verts t = V at *
    obtain ⟨⟨ax, ay⟩, ⟨bx, b_y⟩, ⟨cx, cy⟩⟩ := V
    simp only [Diag] at h h1 h2
    obtain rfl : cx = ax - (b_y - ay) := by linarith
    obtain rfl : cy = ay + (bx - ax) := by linarith
    rcases h with h | h
    · obtain rfl : bx = ax + (b_y - ay) := by linarith
      simp only [size, area2, jac, quadMap, bilinear, mid]; ring
    · obtain rfl : bx = ax - (b_y - ay) := by linarith
      simp only [size, area2, jac, quadMap, bilinear, mid]; ring

/-- In convex cells all triangles, after any number of levels, run counterclockwise in the domain: none is
degenerate or turned over. -/
theorem triangles_positive {Q : ℕ → Four} (t : Tri) (h : Convex (Q t.cell)) : 0 < (shape Q t).area := by
  obtain ⟨p, hp, e⟩ := shape_area Q t
  rw [e]
  exact mul_pos (size_pos t) (jac_pos h (in_square hp))

/-- A cell that is not a parallelogram. -/
example : Convex ⟨⟨0, 0⟩, ⟨3, -1⟩, ⟨2, 2⟩, ⟨0, 1⟩⟩ := by constructor <;> norm_num [area2]

/-! Areas. -/

/-- What the area changes by when a triangle is split. -/
def gap (Q : ℕ → Four) (t : Tri) : ℚ :=
  area2 (shape Q t).b (quadMap (Q t.cell) (mid (verts t).b (verts t).c)) (shape Q t).c

lemma split_area (Q : ℕ → Four) (t : Tri) :
    (shape Q (child t .two)).area + (shape Q (child t .zero)).area = (shape Q t).area + gap Q t := by
  have e1 : (verts (child t .two)) = bisect (verts t) .two := by rw [verts_child]
  have e2 : (verts (child t .zero)) = bisect (verts t) .zero := by rw [verts_child]
  simp only [shape, Three.area, gap, e1, e2, bisect]
  simp only [child, area2]
  ring

/-- The bottom edge is part of a side. -/
def OnSide (t : Tri) : Prop := ∃ d tb tc, (verts t).b = sidePt d tb ∧ (verts t).c = sidePt d tc

lemma gap_side (Q : ℕ → Four) {t : Tri} (h : OnSide t) : gap Q t = 0 := by
  obtain ⟨d, tb, tc, e1, e2⟩ := h
  simp only [gap, shape, e1, e2]
  cases d <;> simp only [sidePt, mid, area2, quadMap, bilinear] <;> ring

lemma gap_mate (Q : ℕ → Four) {t t' : Tri} (hc : t.cell = t'.cell) (h1 : (verts t').b = (verts t).c)
    (h2 : (verts t').c = (verts t).b) : gap Q t + gap Q t' = 0 := by
  simp only [gap, shape, h1, h2, ← hc, mid_comm (verts t).c (verts t).b, area2]
  ring

lemma onSide_swap {t t' : Tri} (h1 : (verts t').b = (verts t).c) (h2 : (verts t').c = (verts t).b) :
    OnSide t' → OnSide t := by
  rintro ⟨d, tb, tc, e1, e2⟩
  exact ⟨d, tc, tb, by rw [← h2, e2], by rw [← h1, e1]⟩

variable {B : Base} {L : List Elem} {bs : List (Tri × (ℕ × ℕ))}

/-- The gap of an element, when it is a triangle of the cell that is split. -/
def gapAt (Q : ℕ → Four) (c : ℕ) (sel : List Tri) : Elem → ℚ
  | .tri t => if t.cell = c ∧ t ∈ sel then gap Q t else 0
  | .quad _ => 0

lemma area_split (Q : ℕ → Four) (c : ℕ) (sel : List Tri) (L : List Elem) :
    areaIn Q c (splitTris sel L) = areaIn Q c L + (L.map (gapAt Q c sel)).sum := by
  induction L with
  | nil => simp [areaIn, splitTris]
  | cons e L ih =>
    have hs : splitTris sel (e :: L) = splitTris sel [e] ++ splitTris sel L := by
      simp [splitTris]
    have hadd : ∀ l l', areaIn Q c (l ++ l') = areaIn Q c l + areaIn Q c l' := by
      intro l l'; simp only [areaIn, List.map_append, List.sum_append]
    have hcons : areaIn Q c (e :: L) = areaIn Q c [e] + areaIn Q c L := hadd [e] L
    rw [hs, hadd, ih, hcons, List.map_cons, List.sum_cons]
    have one : areaIn Q c (splitTris sel [e]) = areaIn Q c [e] + gapAt Q c sel e := by
      cases e with
      | quad d => simp [splitTris, areaIn, gapAt]
      | tri t =>
        by_cases hm : t ∈ sel
        · have e1 : splitTris sel [Elem.tri t] = [.tri (child t .two), .tri (child t .zero)] := by
            simp [splitTris, hm]
          rw [e1]
          simp only [areaIn, List.map_cons, List.map_nil, List.sum_cons, List.sum_nil, add_zero]
          have c1 : ∀ k, (child t k).cell = t.cell := fun k => rfl
          simp only [gapAt]
          rw [c1, c1]
          by_cases hc : t.cell = c
          · rw [if_pos hc, if_pos hc, if_pos hc, if_pos ⟨hc, hm⟩]
            exact split_area Q t
          · rw [if_neg hc, if_neg hc, if_neg hc, if_neg (fun h => hc h.1)]
        · have e1 : splitTris sel [Elem.tri t] = [.tri t] := by simp [splitTris, hm]
          rw [e1]
          simp only [gapAt, hm, and_false, if_false, add_zero]
    rw [one]
    ring

open Classical in
/-- The gaps cancel. -/
lemma gaps_zero (hp : Proper B) (hL : L.Nodup) (hb : Bots B L bs) {bm : List (ℕ × Dir)} {sel : List Tri}
    (hs : Sel L bs (facing bm) sel) (Q : ℕ → Four) (c : ℕ) :
    (L.map (gapAt Q c sel)).sum = 0 := by
  rw [← List.sum_toFinset _ hL]
  let inv : Elem → Elem := fun e => match e with
    | .quad d => .quad d
    | .tri t => if t ∈ sel ∧ ¬ OnSide t then (match partner bs t with
        | some t' => .tri t'
        | none => .tri t) else .tri t
  -- a triangle whose bottom edge is not on a side has its partner in the same cell
  have inner : ∀ t, t ∈ sel → ¬ OnSide t → ∃ t' ∈ sel, partner bs t = some t' ∧ partner bs t' = some t ∧ t' ≠ t ∧
      t.cell = t'.cell ∧ (verts t').b = (verts t).c ∧ (verts t').c = (verts t).b := by
    intro t ht hn
    rcases (hs.2 t ht).2 with ⟨t', ht', hpar⟩ | ⟨_, hf⟩
    · obtain ⟨k, hk, hk', hne, hback⟩ := partner_some hb.nodup hpar
      have hm := hb.mate t t' k hk hk' hne
      have hin : _ := (bottom_cases t).resolve_left (fun ⟨tb, tc, e1, e2⟩ => hn ⟨t.dir, tb, tc, e1, e2⟩)
      obtain ⟨h1, h2, h3⟩ := mate_inner hp hm hin
      exact ⟨t', ht', hpar, hback, hne, h1, h2, h3⟩
    · obtain ⟨d, tb, tc, e1, e2, _⟩ := (facing_iff _ _).mp hf
      exact absurd ⟨d, tb, tc, e1, e2⟩ hn
  refine Finset.sum_involution (fun e _ => inv e) ?_ ?_ ?_ ?_
  · intro e he
    cases e with
    | quad d => simp [inv, gapAt]
    | tri t =>
      by_cases hm : t ∈ sel ∧ ¬ OnSide t
      · obtain ⟨t', ht', hpar, hback, hne, hc, h1, h2⟩ := inner t hm.1 hm.2
        simp only [inv, if_pos hm, hpar, gapAt]
        by_cases hcc : t.cell = c
        · rw [if_pos ⟨hcc, hm.1⟩, if_pos ⟨hc ▸ hcc, ht'⟩]
          exact gap_mate Q hc h1 h2
        · rw [if_neg (fun h => hcc h.1), if_neg (fun h => hcc (hc ▸ h.1))]
          ring
      · simp only [inv, if_neg hm, gapAt]
        by_cases h : t.cell = c ∧ t ∈ sel
        · have : OnSide t := by by_contra hn; exact hm ⟨h.2, hn⟩
          rw [if_pos h, gap_side Q this]; ring
        · rw [if_neg h]; ring
  · intro e he hne
    cases e with
    | quad d => exact absurd rfl hne
    | tri t =>
      by_cases h : t.cell = c ∧ t ∈ sel
      · simp only [gapAt, if_pos h] at hne
        have hn : ¬ OnSide t := fun hn => hne (gap_side Q hn)
        obtain ⟨t', ht', hpar, hback, hne', _⟩ := inner t h.2 hn
        simp only [inv, if_pos (show t ∈ sel ∧ ¬ OnSide t from ⟨h.2, hn⟩), hpar]
        intro e
        injection e with e
        exact hne' e
      · simp only [gapAt, if_neg h] at hne
        exact absurd rfl hne
  · intro e he
    rw [List.mem_toFinset] at he ⊢
    cases e with
    | quad d => exact he
    | tri t =>
      by_cases hm : t ∈ sel ∧ ¬ OnSide t
      · obtain ⟨t', ht', hpar, _⟩ := inner t hm.1 hm.2
        simp only [inv, if_pos hm, hpar]
        exact (hs.2 t' ht').1
      · simp only [inv, if_neg hm]
        exact he
  · intro e he
    cases e with
    | quad d => rfl
    | tri t =>
      by_cases hm : t ∈ sel ∧ ¬ OnSide t
      · obtain ⟨t', ht', hpar, hback, hne, hc, h1, h2⟩ := inner t hm.1 hm.2
        have hm' : t' ∈ sel ∧ ¬ OnSide t' := ⟨ht', fun h => hm.2 (onSide_swap h1 h2 h)⟩
        simp only [inv, if_pos hm, hpar, if_pos hm', hback]
      · simp only [inv, if_neg hm]

lemma area_levels (hp : Proper B) {w : World} {m : Method} (Q : ℕ → Four) (c : ℕ) (rs : List ℚ) :
    ∀ {L : List Elem} {s s' : State} {L' : List Elem}, Leaves B L →
    levels B w m rs L s = (some L', s') → areaIn Q c L' = areaIn Q c L := by
  induction rs with
  | nil =>
    intro L s s' L' _ he
    simp only [levels, Prod.mk.injEq, Option.some.injEq] at he
    rw [← he.1]
  | cons r rs ih =>
    intro L s s' L' h he
    rw [levels] at he
    rcases hl : levelHigh B w m r L s with ⟨o, s1⟩
    rw [hl] at he
    cases o with
    | none => simp at he
    | some L1 =>
      unfold levelHigh at hl
      cases hem : elementMap B L with
      | none => rw [hem] at hl; simp at hl
      | some em =>
        rw [hem] at hl
        simp only at hl
        split_ifs at hl
        · injection hl with h1 h2
          rw [Option.bind_eq_some_iff] at h1
          obtain ⟨sel, hsel, h1⟩ := h1
          have hb := bots_of_map hp.keys h.nodup hem
          have hS := select_sel hb (fun e he => he) ⟨List.nodup_nil, by simp⟩ hsel
          rw [if_pos hS.1] at h1
          injection h1 with h1
          subst h1
          rw [ih (leaves_split h sel) he, area_split, gaps_zero hp h.nodup hb hS, add_zero]
        · injection hl with h1
          cases h1

lemma areaIn_other (Q : ℕ → Four) (c : ℕ) (l : List ℕ) (h : c ∉ B.map Prod.fst) : areaIn Q c (splitCells B l) = 0 := by
  unfold areaIn
  apply List.sum_eq_zero
  intro x hx
  rw [List.mem_map] at hx
  obtain ⟨e, he, rfl⟩ := hx
  obtain ⟨c', hc', ⟨_, rfl⟩ | ⟨_, d, rfl⟩⟩ := mem_splitCells.mp he
  · rfl
  · simp only
    rw [if_neg (by rintro rfl; exact h hc')]

lemma area_cells (hk : (B.map Prod.fst).Nodup) (Q : ℕ → Four) (c : ℕ) (l : List ℕ) (hc : c ∈ B.map Prod.fst)
    (hl : c ∈ l) : areaIn Q c (splitCells B l) = (Q c).area := by
  induction B with
  | nil => cases hc
  | cons q B ih =>
    rw [List.map_cons, List.nodup_cons] at hk
    have hadd : ∀ l l', areaIn Q c (l ++ l') = areaIn Q c l + areaIn Q c l' := by
      intro l l'; simp only [areaIn, List.map_append, List.sum_append]
    have hs : splitCells (q :: B) l = (if q.1 ∈ l then
      [.tri ⟨q.1, .N, []⟩, .tri ⟨q.1, .W, []⟩, .tri ⟨q.1, .E, []⟩, .tri ⟨q.1, .S, []⟩]
      else [.quad q.1]) ++ splitCells B l := by simp [splitCells]
    rw [hs, hadd]
    rw [List.map_cons, List.mem_cons] at hc
    rcases hc with rfl | hc
    · rw [areaIn_other Q q.1 l hk.1, if_pos hl, add_zero]
      simp only [areaIn, List.map_cons, List.map_nil, List.sum_cons, List.sum_nil, add_zero, if_true]
      simp only [shape, Three.area, verts, List.foldl_nil, start, Four.area, area2, quadMap, bilinear]
      ring
    · have hne : q.1 ≠ c := by rintro rfl; exact hk.1 hc
      rw [ih hk.2 hc]
      split_ifs
      · simp only [areaIn, List.map_cons, List.map_nil, List.sum_cons, List.sum_nil, if_neg hne]; ring
      · simp only [areaIn, List.map_cons, List.map_nil, List.sum_cons, List.sum_nil]; ring

/-- The areas in the domain of the triangles that replace a cell add up to the area of the cell, whatever happened
before. -/
theorem areas_add_up (hp : Proper B) {w : World} {m : Method} {rft : List ℚ} {s s' : State} (Q : ℕ → Four)
    (he : refining B w m rft s = (some L, s')) (c : ℕ) (hc : c ∈ B.map Prod.fst) (hq : Elem.quad c ∉ L) :
    areaIn Q c L = (Q c).area := by
  unfold refining at he
  cases rft with
  | nil => simp at he
  | cons r rs =>
    simp only at he
    cases h1 : levelOne w m r B with
    | none => rw [h1] at he; simp at he
    | some l =>
      rw [h1] at he
      simp only at he
      rcases hl : levels B w m rs (splitCells B l) s with ⟨o, s1⟩
      rw [hl] at he
      cases o with
      | none => simp at he
      | some L1 =>
        simp only [Prod.mk.injEq, Option.some.injEq] at he
        obtain ⟨rfl, _⟩ := he
        rw [area_levels hp Q c rs (leaves_cells hp.keys l) hl]
        apply area_cells hp.keys Q c l hc
        by_contra hn
        apply hq
        have h0 : Elem.quad c ∈ splitCells B l := mem_splitCells.mpr ⟨c, hc, Or.inl ⟨hn, rfl⟩⟩
        clear h1 hq
        revert hl h0
        generalize splitCells B l = L0
        intro hl h0
        induction rs generalizing L0 s with
        | nil =>
          simp only [levels, Prod.mk.injEq, Option.some.injEq] at hl
          rw [← hl.1]; exact h0
        | cons r rs ih =>
          rw [levels] at hl
          rcases hl' : levelHigh B w m r L0 s with ⟨o, s2⟩
          rw [hl'] at hl
          cases o with
          | none => simp at hl
          | some L2 =>
            refine ih (s := s2) L2 hl ?_
            unfold levelHigh at hl'
            cases hem : elementMap B L0 with
            | none => rw [hem] at hl'; simp at hl'
            | some em =>
              rw [hem] at hl'
              simp only at hl'
              split_ifs at hl'
              · injection hl' with h1 h2
                rw [Option.bind_eq_some_iff] at h1
                obtain ⟨sel, hsel, h1⟩ := h1
                split_ifs at h1
                · injection h1 with h1
                  rw [← h1]
                  exact mem_splitTris.mpr (Or.inl ⟨h0, fun t e => by cases e⟩)
              · injection hl' with h1
                cases h1

end Phyem.Trf
