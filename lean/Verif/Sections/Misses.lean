import Verif.Sections.Chosen
import Mathlib.Analysis.Complex.Trigonometric
import Mathlib.Analysis.SpecialFunctions.Trigonometric.Basic

/-!
C124: faces that are chosen although they are far away, and requests that fail.
-/

namespace Phyem.Sections

open Phyem.Great Phyem.Dict
open Classical

/-- A polygon whose last vertex is its first one, as `union` and `intersection` give (`m2n2.py:664-711`): no point can be
tested but those on its edges. -/
theorem closed_polygon_fails (p : Polygon) (v : ℝ × ℝ) (vs : List (ℝ × ℝ)) (hv : p.vertices = v :: (vs ++ [v]))
    (P : ℝ × ℝ) (hP : ∀ e ∈ p.ends, onSegment e P = false) : inPolygon p P = none := by
  have hmem : (v, v) ∈ p.ends := by
    refine mem_ends p (vs.length + 1) v v ?_ ?_
    · rw [hv]; simp
    · rw [hv]; simp
  have : ∀ es : List ((ℝ × ℝ) × (ℝ × ℝ)), (∀ e ∈ es, onSegment e P = false) → (v, v) ∈ es →
      inPolygon.go p P es = none := by
    intro es
    induction es with
    | nil => intro _ h; simp at h
    | cons e es ih =>
      intro h1 h2
      rw [inPolygon.go]
      cases ht : twoPoints e.1 e.2 with
      | none => rfl
      | some s =>
        obtain ⟨rfl, hd⟩ := twoPoints_eq _ _ _ ht
        have ho := h1 e List.mem_cons_self
        rw [Option.bind_some, if_neg (by rw [show (e.1, e.2) = e from rfl, ho]; simp)]
        refine ih (fun q hq => h1 q (List.mem_cons_of_mem _ hq)) ?_
        rcases List.mem_cons.1 h2 with rfl | h2
        · exfalso
          simp only [distance2, sub_self] at hd
          norm_num at hd
        · exact h2
  exact this p.ends hP hmem

/-- One square element. -/
def square : Mesh := [(0, .quad 0 1 2 3)]

lemma square_boundary (f : ℕ) (hf : f < 4) : BoundaryFace square [0] (0, f) := by
  have hfa : ∀ p n, FaceAt square p n → p.1 = 0 ∧ p.2 < 4 := by
    rintro ⟨a, b⟩ n ⟨s, hs, side, hside, -⟩
    simp only [square, Dict.get] at hs
    split_ifs at hs with h0
    obtain rfl := Option.some.inj hs
    refine ⟨h0.symm, ?_⟩
    simpa [sides] using (List.getElem?_eq_some_iff.1 hside).1
  refine ⟨by simp, ?_, ?_⟩
  · interval_cases f
    · exact ⟨_, .quad 0 1 2 3, rfl, _, rfl, rfl⟩
    · exact ⟨_, .quad 0 1 2 3, rfl, _, rfl, rfl⟩
    · exact ⟨_, .quad 0 1 2 3, rfl, _, rfl, rfl⟩
    · exact ⟨_, .quad 0 1 2 3, rfl, _, rfl, rfl⟩
  · rintro ⟨a, g⟩ - ⟨hne, n, n', h1, h2, hp⟩
    obtain ⟨ha, hg⟩ := hfa _ _ h2
    simp only at ha hg
    subst ha
    obtain ⟨s, hs, side, hside, rfl⟩ := h1
    obtain ⟨s', hs', side', hside', rfl⟩ := h2
    simp only [square, Dict.get, if_true, Option.some.injEq] at hs hs'
    subst hs; subst hs'
    interval_cases f <;> interval_cases g <;>
      first
        | exact hne rfl
        | (simp only [sides, List.getElem?_cons_zero, List.getElem?_cons_succ, Option.some.injEq] at hside hside'
           subst hside; subst hside'
           revert hp
           decide)

/-- On a rank that has the square: a face all of whose 13 points are found on a line is in the section. -/
lemma square_section (rnd : ℝ → ℝ) (face : Position → Face) (A B : ℝ × ℝ) (hd : 1e-3 < distance2 A B)
    (f : ℕ) (hf : f < 4) (h : ∀ t ∈ samples, onLine (A, B) ((face (0, f)).map t) = true) :
    ∃ l, section_ rnd square face [0] [0] (.lines false [(A, B)]) = some l ∧ (0, f) ∈ l := by
  obtain ⟨ps, hps, -, hm⟩ := localFaces_spec square [0] [0] (by simp) (by simp [square, keys])
  have ht : test rnd (.lines false [(A, B)]) = some fun f =>
      (faceOnAny [fun P => some (onLine (A, B) P)] f).map fun b => if false then !b else b := by
    have : twoPoints A B = some (A, B) := if_pos hd
    simp [test, List.mapM_cons, this]
  have hs : ∀ p : Position, ((faceOnAny [fun P => some (onLine (A, B) P)] (face p)).map
      fun b => if false then !b else b).isSome := by
    intro p
    rw [Option.isSome_map]
    exact faceOnAny_isSome _ _ fun on hon t _ => by
      rw [List.mem_singleton] at hon; subst hon; rfl
  refine ⟨_, by unfold section_; rw [ht, Option.bind_some, hps, Option.bind_some]; exact keep_of _ _ fun p _ => hs p, ?_⟩
  rw [List.mem_filter]
  refine ⟨(hm _).2 ⟨square_boundary f hf, by simp⟩, ?_⟩
  obtain ⟨b, hb⟩ := Option.isSome_iff_exists.1 (faceOnAny_isSome [fun P => some (onLine (A, B) P)] (face (0, f))
    fun on hon t _ => by rw [List.mem_singleton] at hon; subst hon; rfl)
  have hbt := faceOnAny_of _ _ b hb _ (List.mem_singleton.2 rfl) fun t ht => by rw [h t ht]; simp
  dsimp only
  rw [hb, hbt]
  simp

/-- A wave that meets the line `y = 0` at the 13 points. -/
noncomputable def wave (a : ℝ) : Face := ⟨fun t => (t, a * Real.sin (6 * Real.pi * t)), some false, [0, 1]⟩

lemma wave_samples (a t : ℝ) (h : t ∈ samples) : (wave a).map t = (t, 0) := by
  unfold samples at h
  obtain ⟨k, -, rfl⟩ := List.mem_map.1 h
  simp only [wave, Prod.mk.injEq, true_and]
  have : 6 * Real.pi * (-1 + (k : ℝ) / 6) = ((k : ℤ) - 6 : ℤ) * Real.pi := by push_cast; ring
  rw [this, Real.sin_int_mul_pi, mul_zero]

/-- A face that is in the section of a line need not be near that line: only 13 points are looked at. -/
theorem lines_curved_refuted : ¬ ∀ (rnd : ℝ → ℝ) (mesh : Mesh) (face : Position → Face) (all mine : List ℕ)
    (ps : List ((ℝ × ℝ) × (ℝ × ℝ))) (l : List Position), all.Nodup → (∀ i ∈ all, i ∈ keys mesh) →
    section_ rnd mesh face all mine (.lines false ps) = some l → ∀ p ∈ l, ∃ s ∈ ps,
      (face p).within {P | ∃ Q ∈ Line s.1 s.2, distance2 P Q ≤ 1000} := by
  intro H
  obtain ⟨l, hl, hp⟩ := square_section id (fun _ => wave 2000) (0, 0) (1, 0)
    (by unfold distance2; norm_num) 2 (by norm_num) fun t ht => by
      rw [wave_samples _ t ht]
      exact onLine_of _ _ _ ⟨t, by simp [between]⟩
  obtain ⟨s, hs, hw⟩ := H id square _ [0] [0] _ l (by simp) (by simp [square, keys]) hl _ hp
  rw [List.mem_singleton] at hs
  subst hs
  obtain ⟨Q, ⟨μ, rfl⟩, hd⟩ := hw (1 / 12) (by norm_num) (by norm_num)
  have hsin : Real.sin (6 * Real.pi * (1 / 12)) = 1 := by
    rw [show 6 * Real.pi * (1 / 12) = Real.pi / 2 by ring, Real.sin_pi_div_two]
  have hsq := distance2_sq ((wave 2000).map (1 / 12)) (between (0, 0) (1, 0) μ)
  simp only [wave, hsin, between] at hsq hd
  have h0 := distance2_nonneg (1 / 12, 2000 * 1) (0 + μ * (1 - 0), 0 + μ * ((0 : ℝ) - 0))
  norm_num at hsq hd h0
  nlinarith [sq_nonneg (μ - 1 / 12)]

/-- A straight face, 50 away from the line `y = 0`. -/
noncomputable def aside : Face := ⟨fun t => (10 ^ 6 + (t + 1) / 2, 50), some true, [0, 1]⟩

lemma aside_found (t : ℝ) (h0 : -1 ≤ t) (h1 : t ≤ 1) : onLine ((0, 0), (1, 0)) (aside.map t) = true := by
  rw [onLine_eq]
  right; right; right
  set x : ℝ := 10 ^ 6 + (t + 1) / 2 with hx
  have hx1 : (10 : ℝ) ^ 6 ≤ x := by rw [hx]; linarith
  have e1 : distance2 (0, 0) (aside.map t) = √(x ^ 2 + 2500) := by
    unfold distance2 aside; simp only; rw [← hx]; congr 1; ring
  have e2 : distance2 (1, 0) (aside.map t) = √((x - 1) ^ 2 + 2500) := by
    unfold distance2 aside; simp only; rw [← hx]; congr 1; ring
  have e3 : distance2 ((0 : ℝ), (0 : ℝ)) (1, 0) = 1 := by unfold distance2; norm_num
  rw [e1, e2, e3]
  set a := √(x ^ 2 + 2500) with ha
  set b := √((x - 1) ^ 2 + 2500) with hb
  have ha2 : a ^ 2 = x ^ 2 + 2500 := Real.sq_sqrt (by positivity)
  have hb2 : b ^ 2 = (x - 1) ^ 2 + 2500 := Real.sq_sqrt (by positivity)
  have ha0 : x ≤ a := Real.le_sqrt_of_sq_le (by linarith)
  have hb0 : x - 1 ≤ b := Real.le_sqrt_of_sq_le (by linarith)
  have hau : a ≤ x + 2e-3 := by
    rw [ha]; refine Real.sqrt_le_iff.2 ⟨by linarith, ?_⟩; nlinarith
  have hbu : b ≤ x - 1 + 2e-3 := by
    rw [hb]; refine Real.sqrt_le_iff.2 ⟨by linarith, ?_⟩; nlinarith
  have hprod : (a - b) * (a + b) = 2 * x - 1 := by
    have : (a - b) * (a + b) = a ^ 2 - b ^ 2 := by ring
    rw [this, ha2, hb2]; ring
  have hpos : 0 < a + b := by linarith
  have hab : 0 ≤ a - b := by
    by_contra hneg
    push Not at hneg
    nlinarith [mul_neg_of_neg_of_pos hneg hpos]
  have hle : a - b ≤ 1 := by
    by_contra hgt
    push Not at hgt
    nlinarith [mul_lt_mul_of_pos_right hgt hpos]
  have hge : 1 - 1e-8 ≤ a - b := by
    by_contra hlt
    push Not at hlt
    have := mul_lt_mul_of_pos_right hlt hpos
    rw [hprod] at this
    nlinarith
  unfold isclose
  refine le_max_of_le_right ?_
  rw [abs_of_nonneg hab, abs_of_nonpos (by linarith)]
  linarith

/-- Nor is it enough that the face is straight: a face 50 away from the line is taken to be on it, when it is far away
from the two points the line is given by. -/
theorem lines_far_refuted : ¬ ∀ (rnd : ℝ → ℝ) (mesh : Mesh) (face : Position → Face) (all mine : List ℕ)
    (ps : List ((ℝ × ℝ) × (ℝ × ℝ))) (l : List Position), all.Nodup → (∀ i ∈ all, i ∈ keys mesh) →
    section_ rnd mesh face all mine (.lines false ps) = some l → ∀ p ∈ l, (face p).straight → ∃ s ∈ ps,
      ∃ t : ℝ, ∃ Q ∈ Line s.1 s.2, distance2 ((face p).map t) Q < 50 := by
  intro H
  obtain ⟨l, hl, hp⟩ := square_section id (fun _ => aside) (0, 0) (1, 0)
    (by unfold distance2; norm_num) 2 (by norm_num) fun t ht => aside_found t (mem_samples ht).1 (mem_samples ht).2
  obtain ⟨s, hs, t, Q, ⟨μ, rfl⟩, hd⟩ := H id square _ [0] [0] _ l (by simp) (by simp [square, keys]) hl _ hp
    (fun t => by simp only [aside, between, Prod.mk.injEq]; constructor <;> ring)
  rw [List.mem_singleton] at hs
  subst hs
  have hsq := distance2_sq (aside.map t) (between (0, 0) (1, 0) μ)
  have h0 := distance2_nonneg (aside.map t) (between (0, 0) (1, 0) μ)
  set d := distance2 (aside.map t) (between (0, 0) (1, 0) μ) with hdd
  simp only [aside, between] at hsq
  have : 2500 ≤ d ^ 2 := by
    rw [hsq]
    nlinarith [sq_nonneg (0 + μ * (1 - 0) - (10 ^ 6 + (t + 1) / 2))]
  nlinarith

/-- **C124.** A curve whose `x` does not change cannot be made, so there is no section by it. -/
theorem vertical_curve_fails (inv : (ℝ → ℝ) → ℝ → ℝ) (xt yt : ℝ → ℝ) (t : Interval) (a : ℝ) (h : ∀ s, xt s = a) :
    curve inv xt yt t = none := by
  unfold curve
  dsimp only
  have hm : (t.linspace 33).map xt = List.replicate 33 a := by
    rw [List.map_congr_left (g := fun _ => a) fun s _ => h s, List.map_const']
    simp [Interval.linspace]
  have h1 : ((t.linspace 33).map xt).min?.getD 0 = a := by rw [hm]; simp [List.min?_replicate]
  have h2 : ((t.linspace 33).map xt).max?.getD 0 = a := by rw [hm]; simp [List.max?_replicate]
  rw [h1, h2]
  simp [interval]

/-- A vertical line as a curve. -/
example : curve (fun _ x => x) (fun _ => 1) (fun s => s) ⟨true, 0, 1⟩ = none := vertical_curve_fails _ _ _ _ 1 fun _ => rfl

/-- Two points that are too close to each other: the request fails, whatever the mesh. -/
theorem lines_fail (rnd : ℝ → ℝ) (mesh : Mesh) (face : Position → Face) (all mine : List ℕ) (ex : Bool)
    (ps : List ((ℝ × ℝ) × (ℝ × ℝ))) (p : (ℝ × ℝ) × (ℝ × ℝ)) (hp : p ∈ ps) (hd : distance2 p.1 p.2 ≤ 1e-3) :
    section_ rnd mesh face all mine (.lines ex ps) = none ∧
      section_ rnd mesh face all mine (.segments ex ps) = none := by
  have : (ps.mapM fun p => twoPoints p.1 p.2) = none := by
    cases h : ps.mapM fun p => twoPoints p.1 p.2 with
    | none => rfl
    | some ls => exact absurd ((twoPoints_all _ _ h).2 p hp) (not_lt.2 hd)
  unfold section_
  constructor <;> simp [test, this]

lemma section_of_test (rnd : ℝ → ℝ) (mesh : Mesh) (face : Position → Face) (all mine : List ℕ) (hn : all.Nodup)
    (hin : ∀ i ∈ all, i ∈ keys mesh) (inc : Including) (t : Face → Option Bool) (ht : test rnd inc = some t)
    (hs : ∀ f, (t f).isSome) : (section_ rnd mesh face all mine inc).isSome := by
  obtain ⟨ps, hps, -, -⟩ := localFaces_spec mesh all mine hn hin
  unfold section_
  rw [ht, Option.bind_some, hps, Option.bind_some, keep_of _ _ fun p _ => hs (face p)]
  rfl

/-- Points that are not too close to each other: the request succeeds. -/
theorem lines_succeed (rnd : ℝ → ℝ) (mesh : Mesh) (face : Position → Face) (all mine : List ℕ) (hn : all.Nodup)
    (hin : ∀ i ∈ all, i ∈ keys mesh) (ex : Bool) (ps : List ((ℝ × ℝ) × (ℝ × ℝ)))
    (hd : ∀ p ∈ ps, 1e-3 < distance2 p.1 p.2) :
    (section_ rnd mesh face all mine (.lines ex ps)).isSome ∧
      (section_ rnd mesh face all mine (.segments ex ps)).isSome := by
  obtain ⟨ls, hls⟩ : ∃ ls, (ps.mapM fun p => twoPoints p.1 p.2) = some ls := by
    rw [← Option.isSome_iff_exists, mapM_isSome]
    intro p hp
    unfold twoPoints
    rw [if_pos (hd p hp)]
    rfl
  constructor
  · refine section_of_test rnd mesh face all mine hn hin _ _ (by simp only [test, hls]; rfl) fun f => ?_
    rw [Option.isSome_map]
    refine faceOnAny_isSome _ _ fun on hon x _ => ?_
    obtain ⟨l, -, rfl⟩ := List.mem_map.1 hon
    rfl
  · refine section_of_test rnd mesh face all mine hn hin _ _ (by simp only [test, hls]; rfl) fun f => ?_
    rw [Option.isSome_map]
    refine faceOnAny_isSome _ _ fun on hon x _ => ?_
    obtain ⟨l, -, rfl⟩ := List.mem_map.1 hon
    rfl

/-- Polygons without edges that are too short: the request succeeds. -/
theorem polygons_succeed (rnd : ℝ → ℝ) (mesh : Mesh) (face : Position → Face) (all mine : List ℕ) (hn : all.Nodup)
    (hin : ∀ i ∈ all, i ∈ keys mesh) (ex : Bool) (ps : List Polygon)
    (hd : ∀ p ∈ ps, ∀ e ∈ p.ends, 1e-3 < distance2 e.1 e.2) :
    (section_ rnd mesh face all mine (.polygons ex ps)).isSome := by
  refine section_of_test rnd mesh face all mine hn hin _ _ rfl fun f => ?_
  rw [Option.isSome_map]
  refine faceOnAny_isSome _ _ fun on hon x _ => ?_
  obtain ⟨p, hp, rfl⟩ := List.mem_map.1 hon
  generalize f.map x = P
  have : ∀ es : List ((ℝ × ℝ) × (ℝ × ℝ)), (∀ e ∈ es, 1e-3 < distance2 e.1 e.2) → (inPolygon.go p P es).isSome := by
    intro es
    induction es with
    | nil => intro _; rfl
    | cons e es ih =>
      intro h
      rw [inPolygon.go]
      unfold twoPoints
      rw [if_pos (h e List.mem_cons_self), Option.bind_some]
      split_ifs
      · rfl
      · exact ih fun e he => h e (List.mem_cons_of_mem _ he)
  exact this _ (hd p hp)

/-- Curves whose inverse function gives parameters of the curve: the request succeeds. -/
theorem curves_succeed (rnd : ℝ → ℝ) (mesh : Mesh) (face : Position → Face) (all mine : List ℕ) (hn : all.Nodup)
    (hin : ∀ i ∈ all, i ∈ keys mesh) (ex : Bool) (cs : List Curve)
    (hc : ∀ c ∈ cs, ∀ x ∈ c.x.points, c.tx x ∈ c.t.points) :
    (section_ rnd mesh face all mine (.curves ex cs)).isSome := by
  refine section_of_test rnd mesh face all mine hn hin _ _ rfl fun f => ?_
  rw [Option.isSome_map]
  refine faceOnAny_isSome _ _ fun on hon x _ => ?_
  obtain ⟨c, hc', rfl⟩ := List.mem_map.1 hon
  dsimp only
  generalize f.map x = P
  unfold onCurve
  dsimp only
  split_ifs with h1 h2 h3
  · rfl
  · rfl
  · exact absurd ((has_iff _ _).2 (hc c hc' _ ((has_iff _ _).1 h1))) h2
  · rfl

/-- Elements that do not say which of their faces are plane: a request with vectors fails, unless none of them is at the
boundary. -/
theorem ounv_fail (rnd : ℝ → ℝ) (mesh : Mesh) (face : Position → Face) (all mine : List ℕ) (hn : all.Nodup)
    (hin : ∀ i ∈ all, i ∈ keys mesh) (ex : Bool) (vs : List (List ℝ)) :
    section_ rnd mesh face all mine (.ounv ex vs) = none ↔
      ∃ p, BoundaryFace mesh all p ∧ p.1 ∈ mine ∧ (face p).plane = none := by
  obtain ⟨ps, hps, -, hm⟩ := localFaces_spec mesh all mine hn hin
  unfold section_
  simp only [test, Option.bind_some, hps, keep_none, Option.map_eq_none_iff, hasOunv, hm, and_assoc]

/-! ### Cases -/

/-- The hypotheses of `section_complete` hold for the lower side of a square and the line it is on. -/
example : ∃ l, section_ id square (fun _ => ⟨fun t => (t, -1), some true, [0, -1]⟩) [0] [0]
    (.lines false [((5, -1), (7, -1))]) = some l ∧ (0, 2) ∈ l := by
  refine square_section id _ (5, -1) (7, -1)
    (by unfold distance2; rw [Real.lt_sqrt] <;> norm_num) 2 (by norm_num) fun t _ => ?_
  exact onLine_of _ _ _ ⟨(t - 5) / 2, by simp only [between, Prod.mk.injEq]; constructor <;> ring⟩

/-- A parabola between two places is a good curve. -/
noncomputable def parabola : Curve := ⟨⟨true, 0, 32⟩, ⟨true, 0, 32⟩, fun t => t, fun t => t ^ 2, fun x => x⟩

example : parabola.Good := by
  refine ⟨⟨fun _ x => x, ?_⟩, Or.inl fun a _ b _ h => h, fun t _ => rfl⟩
  have hl : (⟨true, 0, 32⟩ : Interval).linspace 33 = (List.range 33).map fun k : ℕ => (k : ℝ) := by
    unfold Interval.linspace
    refine List.map_congr_left fun k _ => ?_
    norm_num
  have hmin : ((List.range 33).map fun k : ℕ => (k : ℝ)).min? = some 0 := by
    rw [List.min?_eq_some_iff]
    refine ⟨List.mem_map.2 ⟨0, by simp, by simp⟩, fun b hb => ?_⟩
    obtain ⟨k, -, rfl⟩ := List.mem_map.1 hb
    exact Nat.cast_nonneg k
  have hmax : ((List.range 33).map fun k : ℕ => (k : ℝ)).max? = some 32 := by
    rw [List.max?_eq_some_iff]
    refine ⟨List.mem_map.2 ⟨32, by simp, by simp⟩, fun b hb => ?_⟩
    obtain ⟨k, hk, rfl⟩ := List.mem_map.1 hb
    exact_mod_cast Nat.le_of_lt_succ (List.mem_range.1 hk)
  have hx : (parabola.t.linspace 33).map parabola.xt = (List.range 33).map fun k : ℕ => (k : ℝ) := by
    rw [show parabola.t = ⟨true, 0, 32⟩ from rfl, hl]
    exact List.map_id' _
  unfold curve
  simp only [hx, hmin, hmax]
  rw [if_pos]
  · simp [interval, parabola]
  · left
    intro d hd
    obtain ⟨i, hi⟩ := List.mem_iff_getElem?.1 hd
    rw [List.getElem?_zipWith_eq_some] at hi
    obtain ⟨a, b, ha, hb, rfl⟩ := hi
    rw [List.getElem?_map] at ha
    rw [List.getElem?_tail, List.getElem?_map] at hb
    obtain ⟨k, hk, rfl⟩ := Option.map_eq_some_iff.1 ha
    obtain ⟨m, hm, rfl⟩ := Option.map_eq_some_iff.1 hb
    obtain ⟨h1, h2⟩ := List.getElem?_eq_some_iff.1 hk
    obtain ⟨h3, h4⟩ := List.getElem?_eq_some_iff.1 hm
    simp only [List.getElem_range] at h2 h4
    subst h2; subst h4
    push_cast
    linarith

end Phyem.Sections
