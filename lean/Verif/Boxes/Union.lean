import Verif.Boxes.Contain
import Verif.Boxes.Tiles

/-!
# What the union tests decide
-/

namespace Phyem.Boxes

variable {n : ℕ}

/-- The bounds are multiples of a step. -/
def OnGrid (h : ℚ) (b : Box n) : Prop := ∀ i, ∃ k m : ℤ, (b i).1 = k * h ∧ (b i).2 = m * h

/-- Inside up to the tolerance, by the bounds. -/
def Near (B b : Box n) : Prop := ∀ i, (B i).1 - (b i).1 ≤ tol ∧ (b i).2 - (B i).2 ≤ tol

instance (B b : Box n) : Decidable (Near B b) := inferInstanceAs (Decidable (∀ _, _))

lemma le_of_grid {h x y : ℚ} (ht : tol < h) {k m : ℤ} (hx : x = k * h) (hy : y = m * h) (hxy : x - y ≤ tol) : x ≤ y := by
  have hp : 0 < h := tol_pos.trans ht
  by_contra hn
  push Not at hn
  have h1 : (m : ℚ) < k := by
    rw [hx, hy] at hn
    exact lt_of_mul_lt_mul_right hn hp.le
  have h2 : (m : ℚ) + 1 ≤ k := by
    have : m + 1 ≤ k := by exact_mod_cast h1
    exact_mod_cast this
  have h3 : (k - m : ℚ) * h ≤ tol := by rw [sub_mul, ← hx, ← hy]; exact hxy
  have h4 : h ≤ (k - m : ℚ) * h := by nlinarith
  linarith

lemma near_grid {h : ℚ} (ht : tol < h) {B b : Box n} (hB : OnGrid h B) (hb : OnGrid h b) (hs : Solid b) : Near B b ↔ pts b ⊆ pts B := by
  rw [inside_iff hs]
  refine forall_congr' fun i => ?_
  obtain ⟨k, m, e1, e2⟩ := hB i
  obtain ⟨k', m', e3, e4⟩ := hb i
  have h0 := tol_pos
  exact ⟨fun h => ⟨le_of_grid ht e1 e3 h.1, le_of_grid ht e4 e2 h.2⟩, fun h => ⟨by linarith [h.1], by linarith [h.2]⟩⟩

lemma vol_grid {h : ℚ} {b : Box n} (hb : OnGrid h b) : ∃ k : ℤ, vol b = k * h ^ n := by
  choose k m e1 e2 using hb
  refine ⟨∏ i, (m i - k i), ?_⟩
  unfold vol
  push_cast
  rw [← Fin.prod_const n h, ← Finset.prod_mul_distrib]
  refine Finset.prod_congr rfl fun i _ => ?_
  rw [e1, e2]
  ring

lemma sum_grid {h : ℚ} : ∀ {l : List (Box n)}, (∀ b ∈ l, OnGrid h b) → ∃ k : ℤ, (l.map vol).sum = k * h ^ n
  | [], _ => ⟨0, by simp⟩
  | b :: l, hl => by
    obtain ⟨k, hk⟩ := vol_grid (hl b List.mem_cons_self)
    obtain ⟨m, hm⟩ := sum_grid (l := l) fun c hc => hl c (List.mem_cons_of_mem _ hc)
    refine ⟨k + m, ?_⟩
    rw [List.map_cons, List.sum_cons, hk, hm]
    push_cast
    ring

/-- On a grid that is not too fine, the measure test says whether some of the separate boxes make up the box. -/
lemma grid_union {h τ : ℚ} (ht : tol < h) (hτ : 0 < τ) (hh : τ ≤ h ^ n) {B : Box n} {l : List (Box n)} (hB : Solid B) (hs : ∀ b ∈ l, Solid b) (hp : Separate l)
    (gB : OnGrid h B) (gl : ∀ b ∈ l, OnGrid h b) :
    |vol B - ((l.filter fun b => Near B b).map vol).sum| < τ ↔ ∃ S : List (Box n), S.Sublist l ∧ union S = pts B := by
  set m := l.filter fun b => Near B b with hm
  have hsub : m.Sublist l := List.filter_sublist
  have hsm : ∀ b ∈ m, Solid b := fun b hb => hs b (hsub.subset hb)
  have hpm : Separate m := hp.sublist hsub
  have him : ∀ b ∈ m, pts b ⊆ pts B := fun b hb => by
    obtain ⟨h1, h2⟩ := List.mem_filter.1 hb
    exact (near_grid ht gB (gl b h1) (hs b h1)).1 (by simpa using h2)
  constructor
  · intro hlt
    refine ⟨m, hsub, (cover_iff hB hsm hpm him).1 ?_⟩
    obtain ⟨k, hk⟩ := vol_grid gB
    obtain ⟨j, hj⟩ := sum_grid fun b hb => gl b (hsub.subset hb)
    rw [hk, hj, ← sub_mul, abs_mul, abs_of_pos (lt_of_lt_of_le hτ hh)] at hlt
    have h1 : |(k : ℚ) - j| < 1 := by
      have hpos : 0 < h ^ n := lt_of_lt_of_le hτ hh
      by_contra hn
      push Not at hn
      nlinarith
    have h2 : |k - j| < 1 := by exact_mod_cast h1
    have h3 : k = j := by
      rw [Int.abs_lt_one_iff] at h2
      omega
    rw [hk, hj, h3]
  · rintro ⟨S, hS, hU⟩
    have hSs : ∀ b ∈ S, Solid b := fun b hb => hs b (hS.subset hb)
    have hSp : Separate S := hp.sublist hS
    have hSi : ∀ b ∈ S, pts b ⊆ pts B := fun b hb p hpb => hU ▸ ⟨b, hb, hpb⟩
    have hSm : S.Sublist m := by
      have := hS.filter fun b => decide (Near B b)
      rwa [List.filter_eq_self.2 fun b hb => ?_] at this
      exact decide_eq_true ((near_grid ht gB (gl b (hS.subset hb)) (hSs b hb)).2 (hSi b hb))
    have e1 := (cover_iff hB hSs hSp hSi).2 hU
    have e2 := pack hB hsm hpm him
    have e3 : (S.map vol).sum ≤ (m.map vol).sum := by
      refine (hSm.map vol).sum_le_sum fun x hx => ?_
      obtain ⟨c, hc, rfl⟩ := List.mem_map.1 hx
      exact (vol_pos (hsm c hc)).le
    rw [show vol B - (m.map vol).sum = 0 by linarith, abs_zero]
    exact hτ

/-- The box, larger by the tolerance on every side. -/
def grow (B : Box n) : Box n := fun i => ((B i).1 - tol, (B i).2 + tol)

/-- What may be missing: a box inside, separate from the parts found, has less measure than the tolerance and the margin. -/
lemma gap {τ : ℚ} {B Q : Box n} {m : List (Box n)} (hB : Solid B) (hs : ∀ b ∈ m, Solid b) (hn : ∀ b ∈ m, Near B b) (hQ : Solid Q) (hQB : pts Q ⊆ pts B)
    (hp : Separate (Q :: m)) (h : |vol B - (m.map vol).sum| < τ) : vol Q < τ + (vol (grow B) - vol B) := by
  have hG : Solid (grow B) := fun i => by
    have := hB i
    have := tol_pos
    simp only [grow]
    linarith
  have hall : ∀ b ∈ Q :: m, Solid b := fun b hb => by
    rcases List.mem_cons.1 hb with rfl | hb
    · exact hQ
    · exact hs b hb
  have := pack hG hall hp fun b hb => by
    rw [inside_iff (hall b hb)]
    intro i
    rcases List.mem_cons.1 hb with rfl | hb
    · have h1 := (inside_iff hQ).1 hQB i
      have := tol_pos
      exact ⟨by simp only [grow]; linarith, by simp only [grow]; linarith⟩
    · have h1 := hn b hb i
      exact ⟨by simp only [grow]; linarith, by simp only [grow]; linarith⟩
  rw [List.map_cons, List.sum_cons] at this
  rw [abs_lt] at h
  linarith

/-! ### Segments -/

/-- A segment as an interval on its line. -/
def OSeg.box (s : OSeg) : Box 1 := fun _ => s.bounds
/-- A rectangle as a box in its plane. -/
def PRect.box (r : PRect) : Box 2 := ![r.bounds0, r.bounds1]
/-- A box in space. -/
def Hexa.box (h : Hexa) : Box 3 := ![h.bounds0, h.bounds1, h.bounds2]

/-- On the line of a segment, up to the tolerance. -/
def OSeg.Beside (g b : OSeg) : Prop := b.axis = g.axis ∧ |g.line.1 - b.line.1| ≤ tol ∧ |g.line.2 - b.line.2| ≤ tol
/-- In the plane of a rectangle, up to the tolerance. -/
def PRect.Beside (g b : PRect) : Prop := b.axis = g.axis ∧ |g.face - b.face| < tol

instance (g b : OSeg) : Decidable (g.Beside b) := inferInstanceAs (Decidable (_ ∧ _))
instance (g b : PRect) : Decidable (g.Beside b) := inferInstanceAs (Decidable (_ ∧ _))

lemma seg_solid {s : OSeg} (h : s.Wide) : Solid s.box := fun _ => by
  have := least_pos
  unfold OSeg.Wide at h
  simp only [OSeg.box]
  linarith

lemma rect_solid {s : PRect} (h : s.Wide) : Solid s.box := fun i => by
  have := least_pos
  obtain ⟨h1, h2⟩ := h
  fin_cases i <;> simp [PRect.box] <;> linarith

lemma hexa_solid {s : Hexa} (h : s.Wide) : Solid s.box := fun i => by
  have := least_pos
  obtain ⟨h1, h2, h3⟩ := h
  fin_cases i <;> simp [Hexa.box] <;> linarith

lemma seg_vol (s : OSeg) : vol s.box = s.bounds.2 - s.bounds.1 := by simp [vol, OSeg.box]
lemma rect_vol (s : PRect) : vol s.box = s.area := by simp [vol, PRect.box, PRect.area, Fin.prod_univ_two]
lemma hexa_vol (s : Hexa) : vol s.box = s.volume := by simp [vol, Hexa.box, Hexa.volume, Fin.prod_univ_three]

lemma parts_seg (g : OSeg) (l : List OSeg) : (partsSeg g l).map OSeg.box = ((l.filter fun b => g.Beside b).map OSeg.box).filter fun b => Near g.box b := by
  rw [List.filter_map]
  congr 1
  unfold partsSeg
  rw [List.filter_filter, List.filter_filter]
  refine List.filter_congr fun b _ => ?_
  rw [Bool.eq_iff_iff]
  simp only [Bool.and_eq_true, decide_eq_true_eq, Function.comp_apply]
  simp only [inSeg_iff, Near, OSeg.box, OSeg.Beside, forall_const]
  constructor
  · rintro ⟨⟨-, h2, h3, h4⟩, h5⟩; exact ⟨h4, h5, h2, h3⟩
  · rintro ⟨h4, h5, h2, h3⟩; exact ⟨⟨h5.symm, h2, h3, h4⟩, h5⟩

lemma parts_rect (g : PRect) (l : List PRect) : (partsRect g l).map PRect.box = ((l.filter fun b => g.Beside b).map PRect.box).filter fun b => Near g.box b := by
  rw [List.filter_map]
  congr 1
  unfold partsRect
  rw [List.filter_filter, List.filter_filter]
  refine List.filter_congr fun b _ => ?_
  rw [Bool.eq_iff_iff]
  simp only [Bool.and_eq_true, decide_eq_true_eq, Function.comp_apply]
  simp only [inRect_iff, Near, PRect.box, PRect.Beside, Fin.forall_fin_two, Matrix.cons_val_zero, Matrix.cons_val_one]
  constructor
  · rintro ⟨⟨-, -, h3, h4⟩, h5⟩; exact ⟨⟨h3, h4⟩, h5⟩
  · rintro ⟨⟨h3, h4⟩, h5⟩; exact ⟨⟨h5.1.symm, h5.2.le, h3, h4⟩, h5⟩

lemma parts_hexa (g : Hexa) (l : List Hexa) : (l.filter (inHexa g)).map Hexa.box = (l.map Hexa.box).filter fun b => Near g.box b := by
  rw [List.filter_map]
  congr 1
  refine List.filter_congr fun b _ => ?_
  rw [Bool.eq_iff_iff]
  simp only [decide_eq_true_eq, Function.comp_apply]
  simp only [inHexa_iff, Near, Hexa.box]
  constructor
  · rintro ⟨h1, h2, h3⟩ i
    fin_cases i
    · exact h1
    · exact h2
    · exact h3
  · intro h
    exact ⟨h 0, h 1, h 2⟩

lemma sublist_map {α β : Type} {f : α → β} {S : List β} {l : List α} (h : S.Sublist (l.map f)) : ∃ T : List α, T.Sublist l ∧ S = T.map f :=
  List.sublist_map_iff.1 h

/-- **C160.** Whether a segment is a union of some of the given ones: if the lengths are as given by the constructor with a positive length, the ones on its line
have no inner points in common, and all ends are multiples of a step longer than `1e-8`, the answer is yes exactly if some of the ones on its line cover it. -/
theorem unionSeg_spec {h : ℚ} (ht : tol < h) {g : OSeg} {l : List OSeg} (wg : g.Wide) (wl : ∀ b ∈ l, b.Wide) (lg : g.length = g.bounds.2 - g.bounds.1)
    (ll : ∀ b ∈ l, b.length = b.bounds.2 - b.bounds.1) (hp : Separate ((l.filter fun b => g.Beside b).map OSeg.box)) (gg : OnGrid h g.box)
    (gl : ∀ b ∈ l, OnGrid h b.box) :
    unionSeg g l = true ↔ ∃ S : List OSeg, S.Sublist l ∧ (∀ b ∈ S, g.Beside b) ∧ union (S.map OSeg.box) = pts g.box := by
  have key := grid_union (τ := tol) ht tol_pos (by simpa using ht.le) (seg_solid wg) (l := (l.filter fun b => g.Beside b).map OSeg.box)
    (fun b hb => by
      obtain ⟨c, hc, rfl⟩ := List.mem_map.1 hb
      exact seg_solid (wl c (List.mem_filter.1 hc).1)) hp gg (fun b hb => by
      obtain ⟨c, hc, rfl⟩ := List.mem_map.1 hb
      exact gl c (List.mem_filter.1 hc).1)
  rw [← parts_seg, List.map_map, seg_vol] at key
  have e : (partsSeg g l).map (vol ∘ OSeg.box) = (partsSeg g l).map OSeg.length := List.map_congr_left fun b hb => by
    have : b ∈ l := (List.mem_filter.1 (List.mem_filter.1 hb).1).1
    rw [Function.comp_apply, seg_vol, ll b this]
  unfold unionSeg
  rw [decide_eq_true_eq, lg, ← e, key]
  constructor
  · rintro ⟨S, hS, hU⟩
    obtain ⟨T, hT, rfl⟩ := sublist_map hS
    exact ⟨T, hT.trans List.filter_sublist, fun b hb => by simpa using (List.mem_filter.1 (hT.subset hb)).2, hU⟩
  · rintro ⟨T, hT, hb, hU⟩
    refine ⟨T.map OSeg.box, List.Sublist.map _ ?_, hU⟩
    have := hT.filter fun b => decide (g.Beside b)
    rwa [List.filter_eq_self.2 fun b hbT => decide_eq_true (hb b hbT)] at this

/-- **C160.** Whether a rectangle is a union of some of the given ones: if the ones in its plane have no inner points in common and all bounds are multiples of a
step whose square is at least `1e-7`, the answer is yes exactly if some of the ones in its plane cover it. -/
theorem unionRect_spec_partial {h : ℚ} (ht : tol < h) (hh : tolA ≤ h ^ 2) {g : PRect} {l : List PRect} (wg : g.Wide) (wl : ∀ b ∈ l, b.Wide)
    (hp : Separate ((l.filter fun b => g.Beside b).map PRect.box)) (gg : OnGrid h g.box) (gl : ∀ b ∈ l, OnGrid h b.box) :
    unionRect g l = true ↔ ∃ S : List PRect, S.Sublist l ∧ (∀ b ∈ S, g.Beside b) ∧ union (S.map PRect.box) = pts g.box := by
  have key := grid_union (τ := tolA) ht (by norm_num [tolA]) hh (rect_solid wg) (l := (l.filter fun b => g.Beside b).map PRect.box)
    (fun b hb => by
      obtain ⟨c, hc, rfl⟩ := List.mem_map.1 hb
      exact rect_solid (wl c (List.mem_filter.1 hc).1)) hp gg (fun b hb => by
      obtain ⟨c, hc, rfl⟩ := List.mem_map.1 hb
      exact gl c (List.mem_filter.1 hc).1)
  rw [← parts_rect, List.map_map, rect_vol] at key
  have e : (partsRect g l).map (vol ∘ PRect.box) = (partsRect g l).map PRect.area := List.map_congr_left fun b _ => rect_vol b
  unfold unionRect
  rw [decide_eq_true_eq, ← e, key]
  constructor
  · rintro ⟨S, hS, hU⟩
    obtain ⟨T, hT, rfl⟩ := sublist_map hS
    exact ⟨T, hT.trans List.filter_sublist, fun b hb => by simpa using (List.mem_filter.1 (hT.subset hb)).2, hU⟩
  · rintro ⟨T, hT, hb, hU⟩
    refine ⟨T.map PRect.box, List.Sublist.map _ ?_, hU⟩
    have := hT.filter fun b => decide (g.Beside b)
    rwa [List.filter_eq_self.2 fun b hbT => decide_eq_true (hb b hbT)] at this

/-- **C160.** Whether a box is a union of some of the given ones, likewise, by the bounds the objects have. -/
theorem unionHexa_spec_partial {h : ℚ} (ht : tol < h) (hh : tolA ≤ h ^ 3) {g : Hexa} {l : List Hexa} (wg : g.Wide) (wl : ∀ b ∈ l, b.Wide)
    (hp : Separate (l.map Hexa.box)) (gg : OnGrid h g.box) (gl : ∀ b ∈ l, OnGrid h b.box) :
    unionHexa g l = true ↔ ∃ S : List Hexa, S.Sublist l ∧ union (S.map Hexa.box) = pts g.box := by
  have key := grid_union (τ := tolA) ht (by norm_num [tolA]) hh (hexa_solid wg) (l := l.map Hexa.box)
    (fun b hb => by
      obtain ⟨c, hc, rfl⟩ := List.mem_map.1 hb
      exact hexa_solid (wl c hc)) hp gg (fun b hb => by
      obtain ⟨c, hc, rfl⟩ := List.mem_map.1 hb
      exact gl c hc)
  rw [← parts_hexa, List.map_map, hexa_vol] at key
  have e : (l.filter (inHexa g)).map (vol ∘ Hexa.box) = (l.filter (inHexa g)).map Hexa.volume := List.map_congr_left fun b _ => hexa_vol b
  unfold unionHexa
  rw [decide_eq_true_eq, ← e, key]
  constructor
  · rintro ⟨S, hS, hU⟩
    obtain ⟨T, hT, rfl⟩ := sublist_map hS
    exact ⟨T, hT, hU⟩
  · rintro ⟨T, hT, hU⟩
    exact ⟨T.map Hexa.box, List.Sublist.map _ hT, hU⟩

/-- **C160.** Without any grid: if the answer is yes for separate parts, a rectangle inside that no part meets has an area below `1e-7` plus the margin by which
parts may stick out. -/
theorem unionRect_gap {g q : PRect} {l : List PRect} (wg : g.Wide) (wl : ∀ b ∈ l, b.Wide) (wq : q.Wide) (hq : pts q.box ⊆ pts g.box)
    (hp : Separate (q.box :: (partsRect g l).map PRect.box)) (hu : unionRect g l = true) :
    q.area < tolA + ((g.bounds0.2 - g.bounds0.1 + 2 * tol) * (g.bounds1.2 - g.bounds1.1 + 2 * tol) - g.area) := by
  unfold unionRect at hu
  rw [decide_eq_true_eq] at hu
  have e : (partsRect g l).map PRect.area = ((partsRect g l).map PRect.box).map vol := by
    rw [List.map_map]; exact List.map_congr_left fun b _ => (rect_vol b).symm
  rw [e, ← rect_vol] at hu
  have := gap (rect_solid wg) (m := (partsRect g l).map PRect.box) (fun b hb => by
      obtain ⟨c, hc, rfl⟩ := List.mem_map.1 hb
      exact rect_solid (wl c (List.mem_filter.1 (List.mem_filter.1 hc).1).1)) (fun b hb => by
      rw [parts_rect] at hb
      simpa using (List.mem_filter.1 hb).2) (rect_solid wq) hq hp hu
  rw [rect_vol, rect_vol] at this
  have hgrow : vol (grow g.box) = (g.bounds0.2 - g.bounds0.1 + 2 * tol) * (g.bounds1.2 - g.bounds1.1 + 2 * tol) := by
    simp only [vol, grow, PRect.box, Fin.prod_univ_two, Matrix.cons_val_zero, Matrix.cons_val_one]
    ring
  rwa [hgrow] at this

lemma distinct_iff : ∀ l : List P3, distinct l = true ↔ l.Pairwise fun a b => eqPoint a b = false
  | [] => by simp [distinct]
  | a :: l => by
    unfold distinct
    rw [Bool.and_eq_true, List.all_eq_true, distinct_iff l, List.pairwise_cons]
    simp

/-- **C160.** A point is a union of given points exactly if one of them is within `1e-8` of it in every coordinate; if two of them are that near to each
other, an error is raised. -/
theorem unionPoint_spec (g : P3) (l : List P3) :
    (unionPoint g l = none ↔ ¬ l.Pairwise fun a b => eqPoint a b = false) ∧
      (unionPoint g l = some true ↔ l.Pairwise (fun a b => eqPoint a b = false) ∧
        ∃ b ∈ l, |b.1 - g.1| < tol ∧ |b.2.1 - g.2.1| < tol ∧ |b.2.2 - g.2.2| < tol) := by
  unfold unionPoint
  rw [← distinct_iff]
  cases distinct l
  · simp
  · simp [eqPoint, and_assoc]

/-- **C160.** Small rectangles and boxes are unions of nothing: those with less measure than the tolerance, although they have sides the constructors accept. -/
theorem small_refuted :
    (mkRect 0 (0, 0, 0) (0, 3 / 10 ^ 4, 3 / 10 ^ 4)).map (unionRect · []) = some true ∧
      (mkHexa (0, 0, 0) (4 / 10 ^ 3, 4 / 10 ^ 3, 4 / 10 ^ 3)).map (unionHexa · []) = some true := by
  decide +kernel

/-- **C160.** A box 2 long along x is a union of its first half alone, since its bounds are those of the half. -/
theorem long_refuted : (do let g ← mkHexa (0, 0, 0) (2, 1, 1); let a ← mkHexa (0, 0, 0) (1, 1, 1); pure (unionHexa g [a])) = some true := by decide +kernel

/-- **C160.** A segment is not a union of itself if it is given from its other end: the lengths keep their sign. -/
theorem sign_refuted : (do let g ← mkSeg 0 (0, 0, 0) 1; let a ← mkSeg 0 (1, 0, 0) (-1); pure (eqSeg g a, unionSeg g [a])) = some (true, false) := by
  decide +kernel

/-- A rectangle in quarters, as the hypotheses want it, with the answer. -/
example : (do let g ← mkRect 1 (0, 5, 0) (2, 0, 2); let a ← mkRect 1 (0, 5, 0) (1, 0, 1); let b ← mkRect 1 (1, 5, 0) (1, 0, 1)
              let c ← mkRect 1 (0, 5, 1) (1, 0, 1); let d ← mkRect 1 (1, 5, 1) (1, 0, 1); let e ← mkRect 1 (2, 5, 1) (1, 0, 1)
              pure (unionRect g [e, a, b, c, d], unionRect g [e, a, b, c])) = some (true, false) := by
  decide +kernel

/-- The hypotheses of `unionRect_spec_partial` hold for a rectangle in halves. -/
example : ∃ (g a b : PRect), g.Wide ∧ (∀ s ∈ [a, b], s.Wide) ∧ Separate (([a, b].filter fun s => g.Beside s).map PRect.box) ∧ OnGrid 1 g.box ∧
    (∀ s ∈ [a, b], OnGrid 1 s.box) ∧ unionRect g [a, b] = true := by
  refine ⟨⟨0, 0, (0, 2), (0, 1)⟩, ⟨0, 0, (0, 1), (0, 1)⟩, ⟨0, 0, (1, 2), (0, 1)⟩, ?_, ?_, ?_, ?_, ?_, by decide +kernel⟩
  · constructor <;> norm_num [least]
  · intro s hs
    simp only [List.mem_cons, List.not_mem_nil, or_false] at hs
    rcases hs with rfl | rfl <;> constructor <;> norm_num [least]
  · have : ([(⟨0, 0, (0, 1), (0, 1)⟩ : PRect), ⟨0, 0, (1, 2), (0, 1)⟩].filter fun s => PRect.Beside ⟨0, 0, (0, 2), (0, 1)⟩ s)
        = [⟨0, 0, (0, 1), (0, 1)⟩, ⟨0, 0, (1, 2), (0, 1)⟩] := by decide +kernel
    rw [this]
    simp only [Separate, List.map_cons, List.map_nil, List.pairwise_cons, List.mem_singleton, forall_eq, List.not_mem_nil, false_imp_iff, implies_true,
      List.Pairwise.nil, and_true]
    rintro p ⟨h1, h2⟩
    have a1 := (h1 0).2
    have a2 := (h2 0).1
    simp [PRect.box] at a1 a2
    linarith
  · intro i
    fin_cases i
    · exact ⟨0, 2, by simp [PRect.box], by simp [PRect.box]⟩
    · exact ⟨0, 1, by simp [PRect.box], by simp [PRect.box]⟩
  · intro s hs i
    simp only [List.mem_cons, List.not_mem_nil, or_false] at hs
    rcases hs with rfl | rfl <;> fin_cases i
    · exact ⟨0, 1, by simp [PRect.box], by simp [PRect.box]⟩
    · exact ⟨0, 1, by simp [PRect.box], by simp [PRect.box]⟩
    · exact ⟨1, 2, by simp [PRect.box], by simp [PRect.box]⟩
    · exact ⟨0, 1, by simp [PRect.box], by simp [PRect.box]⟩

end Phyem.Boxes
