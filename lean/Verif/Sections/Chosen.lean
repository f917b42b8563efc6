import Verif.Sections.Faces
import Verif.Sections.Points

/-!
C124: faces that lie where a request says are chosen, and how far away the others are.
-/

namespace Phyem.Sections

open Phyem.Great Phyem.Dict
open Classical

lemma twoPoints_eq (A B : ℝ × ℝ) (s : (ℝ × ℝ) × (ℝ × ℝ)) (h : twoPoints A B = some s) :
    s = (A, B) ∧ 1e-3 < distance2 A B := by
  unfold twoPoints at h
  split_ifs at h with hd
  exact ⟨(Option.some.inj h).symm, hd⟩

lemma twoPoints_all (ps ls : List ((ℝ × ℝ) × (ℝ × ℝ))) (h : (ps.mapM fun p => twoPoints p.1 p.2) = some ls) :
    ls = ps ∧ ∀ p ∈ ps, 1e-3 < distance2 p.1 p.2 := by
  replace h := (mapM_eq_some _ _ _).1 h
  induction h with
  | nil => simp
  | cons h1 _ ih =>
    obtain ⟨e, hd⟩ := twoPoints_eq _ _ _ h1
    rw [ih.1, e]
    refine ⟨rfl, ?_⟩
    intro p hp
    rcases List.mem_cons.1 hp with rfl | hp
    · exact hd
    · exact ih.2 p hp

/-! ### Polygons -/

lemma polygon_go (p : Polygon) (P : ℝ × ℝ) (es : List ((ℝ × ℝ) × (ℝ × ℝ)))
    (h : p.inside P = true ∨ ∃ e ∈ es, onSegment e P = true) : inPolygon.go p P es ≠ some false := by
  induction es with
  | nil =>
    rw [inPolygon.go]
    rcases h with h | ⟨e, he, -⟩
    · simp [h]
    · simp at he
  | cons e es ih =>
    rw [inPolygon.go]
    cases ht : twoPoints e.1 e.2 with
    | none => simp
    | some s =>
      obtain ⟨rfl, -⟩ := twoPoints_eq _ _ _ ht
      rw [Option.bind_some]
      by_cases ho : onSegment (e.1, e.2) P = true
      · rw [if_pos ho]; simp
      · rw [if_neg ho]
        refine ih ?_
        rcases h with h | ⟨e', he, h⟩
        · exact Or.inl h
        · rcases List.mem_cons.1 he with rfl | he
          · exact absurd h ho
          · exact Or.inr ⟨e', he, h⟩

lemma polygon_go_true (p : Polygon) (P : ℝ × ℝ) (es : List ((ℝ × ℝ) × (ℝ × ℝ)))
    (h : inPolygon.go p P es = some true) : p.inside P = true ∨ ∃ e ∈ es, onSegment e P = true := by
  induction es with
  | nil => left; simpa [inPolygon.go] using h
  | cons e es ih =>
    rw [inPolygon.go] at h
    cases ht : twoPoints e.1 e.2 with
    | none => rw [ht] at h; simp at h
    | some s =>
      obtain ⟨rfl, -⟩ := twoPoints_eq _ _ _ ht
      rw [ht, Option.bind_some] at h
      by_cases ho : onSegment (e.1, e.2) P = true
      · exact Or.inr ⟨e, List.mem_cons_self, ho⟩
      · rw [if_neg ho] at h
        rcases ih h with h | ⟨e', he, h⟩
        · exact Or.inl h
        · exact Or.inr ⟨e', List.mem_cons_of_mem _ he, h⟩

lemma mem_ends (p : Polygon) (i : ℕ) (A B : ℝ × ℝ) (hA : p.vertices[i]? = some A)
    (hB : p.vertices[(i + 1) % p.vertices.length]? = some B) : (A, B) ∈ p.ends := by
  unfold Polygon.ends
  obtain ⟨hi, rfl⟩ := List.getElem?_eq_some_iff.1 hA
  refine List.mem_iff_getElem?.2 ⟨i, ?_⟩
  rw [List.getElem?_zip_eq_some]
  refine ⟨hA, ?_⟩
  rw [List.getElem?_rotate hi]
  exact hB

lemma inPolygon_of (p : Polygon) (P : ℝ × ℝ) (h : P ∈ p.points) : inPolygon p P ≠ some false := by
  refine polygon_go p P p.ends ?_
  rcases h with h | ⟨i, A, B, hA, hB, hP⟩
  · exact Or.inl h
  · exact Or.inr ⟨(A, B), mem_ends p i A B hA hB, onSegment_of A B P hP⟩

/-! ### Curves -/

lemma linspace_ends (i : Interval) : i.lb ∈ i.linspace 33 ∧ i.ub ∈ i.linspace 33 := by
  unfold Interval.linspace
  refine ⟨List.mem_map.2 ⟨0, by simp, by simp⟩, List.mem_map.2 ⟨32, by simp, ?_⟩⟩
  push_cast
  ring

lemma curve_made (c : Curve) (inv : (ℝ → ℝ) → ℝ → ℝ) (h : curve inv c.xt c.yt c.t = some c) :
    c.x.closed = c.t.closed ∧ (∀ s ∈ c.t.linspace 33, c.x.lb ≤ c.xt s ∧ c.xt s ≤ c.x.ub) := by
  unfold curve at h
  dsimp only at h
  split_ifs at h with hm
  obtain ⟨xi, hxi, hc⟩ := Option.map_eq_some_iff.1 h
  have hx : c.x = xi := by rw [← hc]
  unfold interval at hxi
  split_ifs at hxi with hlt
  have hxi := Option.some.inj hxi
  rw [hx, ← hxi]
  refine ⟨rfl, fun s hs => ?_⟩
  have hmem : c.xt s ∈ (c.t.linspace 33).map c.xt := List.mem_map.2 ⟨s, hs, rfl⟩
  have hne : (c.t.linspace 33).map c.xt ≠ [] := List.ne_nil_of_mem hmem
  obtain ⟨lo, hlo⟩ : ∃ lo, ((c.t.linspace 33).map c.xt).min? = some lo :=
    Option.isSome_iff_exists.1 (by rw [List.isSome_min?_iff]; exact hne)
  obtain ⟨hi, hhi⟩ : ∃ hi, ((c.t.linspace 33).map c.xt).max? = some hi :=
    Option.isSome_iff_exists.1 (by rw [List.isSome_max?_iff]; exact hne)
  rw [hlo, hhi]
  rw [List.min?_eq_some_iff] at hlo
  rw [List.max?_eq_some_iff] at hhi
  exact ⟨hlo.2 _ hmem, hhi.2 _ hmem⟩

lemma points_sub (i : Interval) {t : ℝ} (h : t ∈ i.points) : t ∈ Set.Icc i.lb i.ub := by
  unfold Interval.points at h
  split_ifs at h with hc
  · exact h
  · exact ⟨h.1.le, h.2.le⟩

lemma has_iff (i : Interval) (t : ℝ) : i.has t = true ↔ t ∈ i.points := by
  unfold Interval.points Interval.has
  split_ifs with hc <;> simp

lemma onCurve_of (c : Curve) (hc : c.Good) (P : ℝ × ℝ) (h : P ∈ c.points) : onCurve c P = some true := by
  obtain ⟨t, ht, rfl⟩ := h
  obtain ⟨inv, hm⟩ := hc.made
  obtain ⟨hcl, hb⟩ := curve_made c inv hm
  have hI := points_sub c.t ht
  have hle : c.t.lb ≤ c.t.ub := hI.1.trans hI.2
  have l := hb _ (linspace_ends c.t).1
  have u := hb _ (linspace_ends c.t).2
  have hx : c.x.has (c.xt t) = true := by
    rw [has_iff]
    unfold Interval.points at ht ⊢
    rw [hcl]
    cases hcc : c.t.closed with
    | true =>
      rw [hcc] at ht
      simp only [if_true] at ht ⊢
      rcases hc.mono with hm | hm
      · exact ⟨l.1.trans (hm.monotoneOn ⟨le_refl _, hle⟩ hI hI.1), (hm.monotoneOn hI ⟨hle, le_refl _⟩ hI.2).trans u.2⟩
      · exact ⟨u.1.trans (hm.antitoneOn hI ⟨hle, le_refl _⟩ hI.2), (hm.antitoneOn ⟨le_refl _, hle⟩ hI hI.1).trans l.2⟩
    | false =>
      rw [hcc] at ht
      simp only [Bool.false_eq_true, if_false] at ht ⊢
      rcases hc.mono with hm | hm
      · exact ⟨l.1.trans_lt (hm ⟨le_refl _, hle⟩ hI ht.1), (hm hI ⟨hle, le_refl _⟩ ht.2).trans_le u.2⟩
      · exact ⟨u.1.trans_lt (hm hI ⟨hle, le_refl _⟩ ht.2), (hm ⟨le_refl _, hle⟩ hI ht.1).trans_le l.2⟩
  unfold onCurve
  dsimp only
  rw [if_pos hx, hc.inverse t hI, if_pos ((has_iff _ _).2 ht), sub_self, abs_zero, if_pos (by positivity)]

/-! ### The faces asked for are chosen -/

/-- What is asked of the curves of a request. -/
def Including.curvesGood : Including → Prop
  | .curves _ cs => ∀ c ∈ cs, c.Good
  | _ => True

lemma asks_test (rnd : ℝ → ℝ) (inc : Including) (hp : inc.plain) (hc : inc.curvesGood) (t : Face → Option Bool)
    (ht : test rnd inc = some t) (f : Face) (b : Bool) (hb : t f = some b) (ha : inc.asks f) : b = true := by
  cases inc with
  | boundary =>
    simp only [test, Option.some.injEq] at ht
    subst ht
    simpa [eq_comm] using hb
  | ounv ex vs =>
    simp only [Including.plain] at hp
    subst hp
    simp only [test, Option.some.injEq] at ht
    subst ht
    obtain ⟨h1, h2⟩ := ha
    have : cOunv rnd f ∈ vs.map fun v => v.map rnd := List.mem_map.2 ⟨f.normal, h2, rfl⟩
    simp only [hasOunv, h1, Option.map_some, if_true, this, decide_true, Bool.false_eq_true, if_false,
      Option.some.injEq] at hb
    exact hb.symm
  | lines ex ps =>
    simp only [Including.plain] at hp
    subst hp
    simp only [test] at ht
    obtain ⟨ls, hls, rfl⟩ := Option.map_eq_some_iff.1 ht
    obtain ⟨rfl, -⟩ := twoPoints_all _ _ hls
    obtain ⟨c, hc', he⟩ := Option.map_eq_some_iff.1 hb
    simp only [Bool.false_eq_true, if_false] at he
    subst he
    obtain ⟨l, hl, hw⟩ := ha
    refine faceOnAny_of _ f c hc' _ (List.mem_map.2 ⟨l, hl, rfl⟩) fun s hs => ?_
    rw [onLine_of l.1 l.2 _ (hw s (mem_samples hs).1 (mem_samples hs).2)]
    simp
  | polygons ex ps =>
    simp only [Including.plain] at hp
    subst hp
    simp only [test, Option.some.injEq] at ht
    subst ht
    obtain ⟨c, hc', he⟩ := Option.map_eq_some_iff.1 hb
    simp only [Bool.false_eq_true, if_false] at he
    subst he
    obtain ⟨l, hl, hw⟩ := ha
    exact faceOnAny_of _ f c hc' _ (List.mem_map.2 ⟨l, hl, rfl⟩) fun s hs =>
      inPolygon_of l _ (hw s (mem_samples hs).1 (mem_samples hs).2)
  | curves ex cs =>
    simp only [Including.plain] at hp
    subst hp
    simp only [test, Option.some.injEq] at ht
    subst ht
    obtain ⟨c, hc', he⟩ := Option.map_eq_some_iff.1 hb
    simp only [Bool.false_eq_true, if_false] at he
    subst he
    obtain ⟨l, hl, hw⟩ := ha
    refine faceOnAny_of _ f c hc' _ (List.mem_map.2 ⟨l, hl, rfl⟩) fun s hs => ?_
    rw [onCurve_of l (hc l hl) _ (hw s (mem_samples hs).1 (mem_samples hs).2)]
    simp
  | segments ex ps =>
    simp only [Including.plain] at hp
    subst hp
    simp only [test] at ht
    obtain ⟨ls, hls, rfl⟩ := Option.map_eq_some_iff.1 ht
    obtain ⟨rfl, -⟩ := twoPoints_all _ _ hls
    obtain ⟨c, hc', he⟩ := Option.map_eq_some_iff.1 hb
    simp only [Bool.false_eq_true, if_false] at he
    subst he
    obtain ⟨l, hl, hw⟩ := ha
    refine faceOnAny_of _ f c hc' _ (List.mem_map.2 ⟨l, hl, rfl⟩) fun s hs => ?_
    rw [onSegment_of l.1 l.2 _ (hw s (mem_samples hs).1 (mem_samples hs).2)]
    simp

/-- Every boundary face of the rank that lies where the request says is in the section, and not in the section of the
opposite request. -/
theorem section_complete (rnd : ℝ → ℝ) (mesh : Mesh) (face : Position → Face) (all mine : List ℕ)
    (hn : all.Nodup) (hin : ∀ i ∈ all, i ∈ keys mesh) (inc : Including) (hp : inc.plain) (hc : inc.curvesGood)
    (l : List Position) (h : section_ rnd mesh face all mine inc = some l)
    (p : Position) (hb : BoundaryFace mesh all p) (hm : p.1 ∈ mine) (ha : inc.asks (face p)) :
    p ∈ l ∧ ∀ opp, inc.opposite = some opp → ∀ l', section_ rnd mesh face all mine opp = some l' → p ∉ l' := by
  obtain ⟨t, ht, hs, -, hmem⟩ := section_iff rnd mesh face all mine inc hn hin l h
  have hpl : p ∈ l := by
    rw [hmem]
    refine ⟨⟨hb, hm⟩, ?_⟩
    obtain ⟨b, hb'⟩ := Option.isSome_iff_exists.1 (hs p hb hm)
    rw [hb', asks_test rnd inc hp hc t ht (face p) b hb' ha]
  refine ⟨hpl, fun opp ho l' h' hp' => ?_⟩
  rcases section_divides rnd mesh face all mine hn hin inc opp ho with ⟨h1, -⟩ | ⟨l1, l2, h1, h2, hnd, -⟩
  · rw [h1] at h; simp at h
  · rw [h1] at h; rw [h2] at h'
    obtain rfl := Option.some.inj h
    obtain rfl := Option.some.inj h'
    exact (List.nodup_append.1 hnd).2.2 p hpl p hp' rfl

/-! ### The faces chosen are near -/

/-- A straight face in a section made of segments: all its points are near one of the segments. -/
theorem segments_near (rnd : ℝ → ℝ) (mesh : Mesh) (face : Position → Face) (all mine : List ℕ)
    (hn : all.Nodup) (hin : ∀ i ∈ all, i ∈ keys mesh) (ps : List ((ℝ × ℝ) × (ℝ × ℝ))) (l : List Position)
    (h : section_ rnd mesh face all mine (.segments false ps) = some l) (p : Position) (hp : p ∈ l)
    (hst : (face p).straight) :
    ∃ s ∈ ps, ∀ t : ℝ, -1 ≤ t → t ≤ 1 → ∃ Q ∈ Segment s.1 s.2,
      4 * distance2 ((face p).map t) Q ^ 2 ≤
        slack (distance2 s.1 s.2) * (2 * distance2 s.1 s.2 + slack (distance2 s.1 s.2)) := by
  obtain ⟨t, ht, -, -, hmem⟩ := section_iff rnd mesh face all mine _ hn hin l h
  obtain ⟨-, hyes⟩ := (hmem p).1 hp
  simp only [test] at ht
  obtain ⟨ls, hls, rfl⟩ := Option.map_eq_some_iff.1 ht
  obtain ⟨rfl, hd⟩ := twoPoints_all _ _ hls
  obtain ⟨c, hc, he⟩ := Option.map_eq_some_iff.1 hyes
  simp only [Bool.false_eq_true, if_false] at he
  subst he
  obtain ⟨on, hon, hall⟩ := faceOnAny_true _ _ hc
  obtain ⟨s, hs, rfl⟩ := List.mem_map.1 hon
  refine ⟨s, hs, fun t h0 h1 => ?_⟩
  have e0 := onSegment_sum s.1 s.2 _ (Option.some.inj (hall _ samples_ends.1))
  have e1 := onSegment_sum s.1 s.2 _ (Option.some.inj (hall _ samples_ends.2))
  have hL : 0 < distance2 s.1 s.2 := lt_trans (by norm_num) (hd s hs)
  refine near_segment s.1 s.2 _ _ (by unfold slack; positivity) hL ?_
  rw [hst t]
  have c1 := distance2_between s.1 ((face p).map (-1)) ((face p).map 1) ((t + 1) / 2) (by linarith) (by linarith)
  have c2 := distance2_between s.2 ((face p).map (-1)) ((face p).map 1) ((t + 1) / 2) (by linarith) (by linarith)
  have m0 := mul_le_mul_of_nonneg_left e0 (by linarith : 0 ≤ 1 - (t + 1) / 2)
  have m1 := mul_le_mul_of_nonneg_left e1 (by linarith : 0 ≤ (t + 1) / 2)
  nlinarith

/-- A face in a section made of lines: the 13 points are near one of the lines, compared with how far from the two given
points they are. -/
theorem lines_near (rnd : ℝ → ℝ) (mesh : Mesh) (face : Position → Face) (all mine : List ℕ)
    (hn : all.Nodup) (hin : ∀ i ∈ all, i ∈ keys mesh) (ps : List ((ℝ × ℝ) × (ℝ × ℝ))) (l : List Position)
    (h : section_ rnd mesh face all mine (.lines false ps) = some l) (p : Position) (hp : p ∈ l) :
    ∃ s ∈ ps, ∀ k : ℕ, k ≤ 12 → ∃ Q ∈ Line s.1 s.2,
      4 * distance2 ((face p).map (-1 + k / 6)) Q ^ 2 ≤
        slack (distance2 s.1 s.2) * (2 * distance2 s.1 s.2 + slack (distance2 s.1 s.2)) ∨
      distance2 ((face p).map (-1 + k / 6)) Q ^ 2 * distance2 s.1 s.2 ≤ slack (distance2 s.1 s.2) *
        (distance2 s.1 ((face p).map (-1 + k / 6)) * distance2 s.2 ((face p).map (-1 + k / 6))) := by
  obtain ⟨t, ht, -, -, hmem⟩ := section_iff rnd mesh face all mine _ hn hin l h
  obtain ⟨-, hyes⟩ := (hmem p).1 hp
  simp only [test] at ht
  obtain ⟨ls, hls, rfl⟩ := Option.map_eq_some_iff.1 ht
  obtain ⟨rfl, hd⟩ := twoPoints_all _ _ hls
  obtain ⟨c, hc, he⟩ := Option.map_eq_some_iff.1 hyes
  simp only [Bool.false_eq_true, if_false] at he
  subst he
  obtain ⟨on, hon, hall⟩ := faceOnAny_true _ _ hc
  obtain ⟨s, hs, rfl⟩ := List.mem_map.1 hon
  refine ⟨s, hs, fun k hk => ?_⟩
  have hmem : (-1 + (k : ℝ) / 6) ∈ samples := List.mem_map.2 ⟨k, List.mem_range.2 (by omega), rfl⟩
  exact near_line s.1 s.2 _ (lt_trans (by norm_num) (hd s hs)) (Option.some.inj (hall _ hmem))

/-- A face in a section made of vectors: it is plane, and one of the vectors differs from its outward unit normal vector by
at most `1e-6` in each component. -/
theorem ounv_near (rnd : ℝ → ℝ) (hr : ∀ x, |rnd x - x| ≤ 5e-7) (mesh : Mesh) (face : Position → Face)
    (all mine : List ℕ) (hn : all.Nodup) (hin : ∀ i ∈ all, i ∈ keys mesh) (vs : List (List ℝ)) (l : List Position)
    (h : section_ rnd mesh face all mine (.ounv false vs) = some l) (p : Position) (hp : p ∈ l) :
    (face p).plane = some true ∧ ∃ v ∈ vs, List.Forall₂ (fun a b => |a - b| ≤ 1e-6) v (face p).normal := by
  obtain ⟨t, ht, -, -, hmem⟩ := section_iff rnd mesh face all mine _ hn hin l h
  obtain ⟨-, hyes⟩ := (hmem p).1 hp
  simp only [test, Option.some.injEq] at ht
  subst ht
  simp only [hasOunv, Bool.false_eq_true, if_false, Option.map_map] at hyes
  cases hpl : (face p).plane with
  | none => rw [hpl] at hyes; simp at hyes
  | some b =>
    rw [hpl] at hyes
    cases b
    · simp at hyes
    · refine ⟨rfl, ?_⟩
      simp only [Option.map_some, Function.comp, if_true, Option.some.injEq, decide_eq_true_eq] at hyes
      obtain ⟨v, hv, he⟩ := List.mem_map.1 hyes
      refine ⟨v, hv, ?_⟩
      unfold cOunv at he
      generalize (face p).normal = n at he
      clear hv hyes
      induction v generalizing n with
      | nil =>
        cases n with
        | nil => exact List.Forall₂.nil
        | cons => simp at he
      | cons a v ih =>
        cases n with
        | nil => simp at he
        | cons b n =>
          simp only [List.map_cons, List.cons.injEq] at he
          refine List.Forall₂.cons ?_ (ih n he.2)
          have h1 := abs_le.1 (hr a)
          have h2 := abs_le.1 (hr b)
          rw [he.1] at h1
          rw [abs_le]
          constructor <;> linarith [h1.1, h1.2, h2.1, h2.2]

/-- A face in a section made of polygons: each of the 13 points is inside of one and the same polygon, or the sum of its
distances to the ends of an edge is hardly more than the length of the edge. -/
theorem polygons_near (rnd : ℝ → ℝ) (mesh : Mesh) (face : Position → Face) (all mine : List ℕ)
    (hn : all.Nodup) (hin : ∀ i ∈ all, i ∈ keys mesh) (ps : List Polygon) (l : List Position)
    (h : section_ rnd mesh face all mine (.polygons false ps) = some l) (p : Position) (hp : p ∈ l) :
    ∃ g ∈ ps, ∀ k : ℕ, k ≤ 12 → g.inside ((face p).map (-1 + k / 6)) = true ∨
      ∃ e ∈ g.ends, distance2 e.1 ((face p).map (-1 + k / 6)) + distance2 e.2 ((face p).map (-1 + k / 6)) ≤
        distance2 e.1 e.2 + slack (distance2 e.1 e.2) := by
  obtain ⟨t, ht, -, -, hmem⟩ := section_iff rnd mesh face all mine _ hn hin l h
  obtain ⟨-, hyes⟩ := (hmem p).1 hp
  simp only [test, Option.some.injEq] at ht
  subst ht
  obtain ⟨c, hc, he⟩ := Option.map_eq_some_iff.1 hyes
  simp only [Bool.false_eq_true, if_false] at he
  subst he
  obtain ⟨on, hon, hall⟩ := faceOnAny_true _ _ hc
  obtain ⟨g, hg, rfl⟩ := List.mem_map.1 hon
  refine ⟨g, hg, fun k hk => ?_⟩
  have hmem : (-1 + (k : ℝ) / 6) ∈ samples := List.mem_map.2 ⟨k, List.mem_range.2 (by omega), rfl⟩
  rcases polygon_go_true g _ g.ends (hall _ hmem) with h | ⟨e, he, h⟩
  · exact Or.inl h
  · exact Or.inr ⟨e, he, onSegment_sum e.1 e.2 _ h⟩

/-- A face in a section made of curves: each of the 13 points is above or below a point of one and the same curve, not
further than numpy's tolerance, where the inverse function is one. -/
theorem curves_near (rnd : ℝ → ℝ) (mesh : Mesh) (face : Position → Face) (all mine : List ℕ)
    (hn : all.Nodup) (hin : ∀ i ∈ all, i ∈ keys mesh) (cs : List Curve)
    (hinv : ∀ c ∈ cs, ∀ x ∈ c.x.points, c.xt (c.tx x) = x) (l : List Position)
    (h : section_ rnd mesh face all mine (.curves false cs) = some l) (p : Position) (hp : p ∈ l) :
    ∃ c ∈ cs, ∀ k : ℕ, k ≤ 12 → ∃ t ∈ c.t.points, ((face p).map (-1 + k / 6)).1 = c.xt t ∧
      |((face p).map (-1 + k / 6)).2 - c.yt t| ≤ 1e-8 + 1e-5 * |c.yt t| := by
  obtain ⟨t, ht, -, -, hmem⟩ := section_iff rnd mesh face all mine _ hn hin l h
  obtain ⟨-, hyes⟩ := (hmem p).1 hp
  simp only [test, Option.some.injEq] at ht
  subst ht
  obtain ⟨c, hc, he⟩ := Option.map_eq_some_iff.1 hyes
  simp only [Bool.false_eq_true, if_false] at he
  subst he
  obtain ⟨on, hon, hall⟩ := faceOnAny_true _ _ hc
  obtain ⟨g, hg, rfl⟩ := List.mem_map.1 hon
  refine ⟨g, hg, fun k hk => ?_⟩
  have hmem : (-1 + (k : ℝ) / 6) ∈ samples := List.mem_map.2 ⟨k, List.mem_range.2 (by omega), rfl⟩
  have hk' := hall _ hmem
  unfold onCurve at hk'
  dsimp only at hk'
  by_cases hx : g.x.has ((face p).map (-1 + (k : ℝ) / 6)).1 = true
  · rw [if_pos hx] at hk'
    by_cases htt : g.t.has (g.tx ((face p).map (-1 + (k : ℝ) / 6)).1) = true
    · rw [if_pos htt] at hk'
      refine ⟨_, (has_iff _ _).1 htt, (hinv g hg _ ((has_iff _ _).1 hx)).symm, ?_⟩
      by_contra hno
      rw [if_neg hno] at hk'
      simp at hk'
    · rw [if_neg htt] at hk'; simp at hk'
  · rw [if_neg hx] at hk'; simp at hk'

end Phyem.Sections
