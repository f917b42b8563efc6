import Verif.Trf.Spec
import Mathlib.Tactic.Linarith
import Mathlib.Tactic.FieldSimp
import Mathlib.Tactic.LinearCombination
import Mathlib.Tactic.Positivity
import Mathlib.Tactic.NormNum
import Mathlib.Algebra.Order.Field.Rat

/-! Geometry of the triangles in the reference square. -/

namespace Phyem.Trf

attribute [ext] Pt

/-- The weights of a point, times twice the area. -/
def wa (V : Three) (p : Pt) : ℚ := area2 V.b V.c p
def wb (V : Three) (p : Pt) : ℚ := area2 V.c V.a p
def wc (V : Three) (p : Pt) : ℚ := area2 V.a V.b p
def size (V : Three) : ℚ := area2 V.a V.b V.c

lemma w_sum (V : Three) (p : Pt) : wa V p + wb V p + wc V p = size V := by
  simp only [wa, wb, wc, size, area2]; ring

lemma in_iff (V : Three) (p : Pt) (h : 0 < size V) : In V p ↔ 0 ≤ wa V p ∧ 0 ≤ wb V p ∧ 0 ≤ wc V p := by
  constructor
  · rintro ⟨a, b, c, ha, hb, hc, hs, rfl⟩
    have e : a = 1 - b - c := by linarith
    refine ⟨?_, ?_, ?_⟩
    · have : wa V ⟨a * V.a.x + b * V.b.x + c * V.c.x, a * V.a.y + b * V.b.y + c * V.c.y⟩ = a * size V := by
        subst e; simp only [wa, size, area2]; ring
      rw [this]; positivity
    · have : wb V ⟨a * V.a.x + b * V.b.x + c * V.c.x, a * V.a.y + b * V.b.y + c * V.c.y⟩ = b * size V := by
        subst e; simp only [wb, size, area2]; ring
      rw [this]; positivity
    · have : wc V ⟨a * V.a.x + b * V.b.x + c * V.c.x, a * V.a.y + b * V.b.y + c * V.c.y⟩ = c * size V := by
        subst e; simp only [wc, size, area2]; ring
      rw [this]; positivity
  · rintro ⟨ha, hb, hc⟩
    refine ⟨wa V p / size V, wb V p / size V, wc V p / size V, by positivity, by positivity, by positivity, ?_, ?_⟩
    · rw [← add_div, ← add_div, w_sum, div_self h.ne']
    · have h' := h.ne'
      ext
      · simp only; field_simp; simp only [wa, wb, wc, size, area2]; ring
      · simp only; field_simp; simp only [wa, wb, wc, size, area2]; ring

lemma within_iff (V : Three) (p : Pt) (h : 0 < size V) :
    Within V p ↔ 0 < wa V p ∧ 0 < wb V p ∧ 0 < wc V p := by
  constructor
  · rintro ⟨a, b, c, ha, hb, hc, hs, rfl⟩
    have e : a = 1 - b - c := by linarith
    refine ⟨?_, ?_, ?_⟩
    · have : wa V ⟨a * V.a.x + b * V.b.x + c * V.c.x, a * V.a.y + b * V.b.y + c * V.c.y⟩ = a * size V := by
        subst e; simp only [wa, size, area2]; ring
      rw [this]; positivity
    · have : wb V ⟨a * V.a.x + b * V.b.x + c * V.c.x, a * V.a.y + b * V.b.y + c * V.c.y⟩ = b * size V := by
        subst e; simp only [wb, size, area2]; ring
      rw [this]; positivity
    · have : wc V ⟨a * V.a.x + b * V.b.x + c * V.c.x, a * V.a.y + b * V.b.y + c * V.c.y⟩ = c * size V := by
        subst e; simp only [wc, size, area2]; ring
      rw [this]; positivity
  · rintro ⟨ha, hb, hc⟩
    refine ⟨wa V p / size V, wb V p / size V, wc V p / size V, by positivity, by positivity, by positivity, ?_, ?_⟩
    · rw [← add_div, ← add_div, w_sum, div_self h.ne']
    · have h' := h.ne'
      ext
      · simp only; field_simp; simp only [wa, wb, wc, size, area2]; ring
      · simp only; field_simp; simp only [wa, wb, wc, size, area2]; ring

/-! The weights in the two halves. -/

lemma zero_a (V : Three) (p : Pt) : wa (bisect V .zero) p = wc V p := by
  simp only [bisect, wa, wc]
lemma zero_b (V : Three) (p : Pt) : wb (bisect V .zero) p = wa V p / 2 := by
  simp only [bisect, wb, wa, area2, mid]; ring
lemma zero_c (V : Three) (p : Pt) : wc (bisect V .zero) p = (wb V p - wc V p) / 2 := by
  simp only [bisect, wc, wb, area2, mid]; ring
lemma two_a (V : Three) (p : Pt) : wa (bisect V .two) p = wb V p := by
  simp only [bisect, wa, wb]
lemma two_b (V : Three) (p : Pt) : wb (bisect V .two) p = (wc V p - wb V p) / 2 := by
  simp only [bisect, wb, wc, area2, mid]; ring
lemma two_c (V : Three) (p : Pt) : wc (bisect V .two) p = wa V p / 2 := by
  simp only [bisect, wc, wa, area2, mid]; ring

lemma size_bisect (V : Three) (h : Half) : size (bisect V h) = size V / 2 := by
  cases h <;> simp only [bisect, size, area2, mid] <;> ring

lemma in_child {V : Three} {h : Half} {p : Pt} (hV : 0 < size V) (hp : In (bisect V h) p) : In V p := by
  have hc : 0 < size (bisect V h) := by rw [size_bisect]; linarith
  rw [in_iff _ _ hc] at hp
  rw [in_iff _ _ hV]
  cases h
  · rw [zero_a, zero_b, zero_c] at hp
    obtain ⟨h1, h2, h3⟩ := hp
    exact ⟨by linarith, by linarith, by linarith⟩
  · rw [two_a, two_b, two_c] at hp
    obtain ⟨h1, h2, h3⟩ := hp
    exact ⟨by linarith, by linarith, by linarith⟩

lemma within_child {V : Three} {h : Half} {p : Pt} (hV : 0 < size V) (hp : Within (bisect V h) p) :
    Within V p := by
  have hc : 0 < size (bisect V h) := by rw [size_bisect]; linarith
  rw [within_iff _ _ hc] at hp
  rw [within_iff _ _ hV]
  cases h
  · rw [zero_a, zero_b, zero_c] at hp
    obtain ⟨h1, h2, h3⟩ := hp
    exact ⟨by linarith, by linarith, by linarith⟩
  · rw [two_a, two_b, two_c] at hp
    obtain ⟨h1, h2, h3⟩ := hp
    exact ⟨by linarith, by linarith, by linarith⟩

lemma in_cover {V : Three} {p : Pt} (hV : 0 < size V) (hp : In V p) :
    In (bisect V .zero) p ∨ In (bisect V .two) p := by
  have h0 : 0 < size (bisect V .zero) := by rw [size_bisect]; linarith
  have h2 : 0 < size (bisect V .two) := by rw [size_bisect]; linarith
  rw [in_iff _ _ hV] at hp
  rw [in_iff _ _ h0, in_iff _ _ h2, zero_a, zero_b, zero_c, two_a, two_b, two_c]
  obtain ⟨h1, h2, h3⟩ := hp
  rcases le_total (wb V p) (wc V p) with h | h
  · right; exact ⟨by linarith, by linarith, by linarith⟩
  · left; exact ⟨by linarith, by linarith, by linarith⟩

lemma halves_apart {V : Three} {h h' : Half} {p : Pt} (hV : 0 < size V) (hn : h ≠ h')
    (hp : Within (bisect V h) p) : ¬ In (bisect V h') p := by
  intro hq
  have h0 : 0 < size (bisect V h) := by rw [size_bisect]; linarith
  have h2 : 0 < size (bisect V h') := by rw [size_bisect]; linarith
  rw [within_iff _ _ h0] at hp
  rw [in_iff _ _ h2] at hq
  cases h <;> cases h' <;> first | exact hn rfl | skip
  · rw [zero_a, zero_b, zero_c] at hp
    rw [two_a, two_b, two_c] at hq
    linarith [hp.2.2, hq.2.1]
  · rw [two_a, two_b, two_c] at hp
    rw [zero_a, zero_b, zero_c] at hq
    linarith [hp.2.1, hq.2.2]

/-! Triangles below a triangle. -/

lemma size_fold (l : List Half) (V : Three) (hV : 0 < size V) : 0 < size (l.foldl bisect V) := by
  induction l generalizing V with
  | nil => exact hV
  | cons h l ih => exact ih _ (by rw [size_bisect]; linarith)

lemma size_fold_eq (l : List Half) (V : Three) : size (l.foldl bisect V) = size V / 2 ^ l.length := by
  induction l generalizing V with
  | nil => simp
  | cons h l ih => rw [List.foldl_cons, ih, size_bisect, List.length_cons, pow_succ]; field_simp

lemma size_start (d : Dir) : size (start d) = 2 := by
  cases d <;> simp only [start, size, area2] <;> norm_num

lemma size_verts (t : Tri) : size (verts t) = 2 / 2 ^ t.path.length := by
  rw [verts, size_fold_eq, size_start]

lemma size_pos (t : Tri) : 0 < size (verts t) := by rw [size_verts]; positivity

lemma in_fold (l : List Half) (V : Three) (hV : 0 < size V) {p : Pt} (hp : In (l.foldl bisect V) p) : In V p := by
  induction l generalizing V with
  | nil => exact hp
  | cons h l ih =>
    have := ih _ (by rw [size_bisect]; linarith) hp
    exact in_child hV this

lemma within_fold (l : List Half) (V : Three) (hV : 0 < size V) {p : Pt}
    (hp : Within (l.foldl bisect V) p) : Within V p := by
  induction l generalizing V with
  | nil => exact hp
  | cons h l ih =>
    have := ih _ (by rw [size_bisect]; linarith) hp
    exact within_child hV this

lemma Within.in {V : Three} {p : Pt} (h : Within V p) : In V p := by
  obtain ⟨a, b, c, ha, hb, hc, hs, e⟩ := h
  exact ⟨a, b, c, ha.le, hb.le, hc.le, hs, e⟩

/-- Triangles from the same triangle that overlap are one inside the other. -/
lemma fold_comparable (l l' : List Half) (V : Three) (hV : 0 < size V) {p : Pt}
    (hp : Within (l.foldl bisect V) p) (hq : In (l'.foldl bisect V) p) : l <+: l' ∨ l' <+: l := by
  induction l generalizing V l' with
  | nil => exact Or.inl (List.nil_prefix)
  | cons h l ih =>
    cases l' with
    | nil => exact Or.inr (List.nil_prefix)
    | cons h' l' =>
      have hs : ∀ h, 0 < size (bisect V h) := fun h => by rw [size_bisect]; linarith
      by_cases e : h = h'
      · subst e
        rcases ih l' _ (hs h) hp hq with k | k
        · exact Or.inl (List.cons_prefix_cons.mpr ⟨rfl, k⟩)
        · exact Or.inr (List.cons_prefix_cons.mpr ⟨rfl, k⟩)
      · exact absurd (in_fold l' _ (hs h') hq) (halves_apart hV e (within_fold l _ (hs h) hp))

lemma start_apart {d d' : Dir} (hn : d ≠ d') {p : Pt} (hp : Within (start d) p) : ¬ In (start d') p := by
  intro hq
  rw [within_iff _ _ (by rw [size_start]; norm_num)] at hp
  rw [in_iff _ _ (by rw [size_start]; norm_num)] at hq
  obtain ⟨h1, h2, h3⟩ := hp
  obtain ⟨k1, k2, k3⟩ := hq
  cases d <;> cases d' <;> first | exact hn rfl | skip
  all_goals
    simp only [start, wa, wb, wc, area2] at h1 h2 h3 k1 k2 k3
    linarith

lemma start_cover {p : Pt} (hp : InSquare p) : ∃ d, In (start d) p := by
  obtain ⟨h1, h2, h3, h4⟩ := hp
  by_cases a : p.x ≤ p.y <;> by_cases b : p.x ≤ -p.y
  · refine ⟨.N, (in_iff _ _ (by rw [size_start]; norm_num)).mpr ?_⟩
    simp only [start, wa, wb, wc, area2]; refine ⟨?_, ?_, ?_⟩ <;> linarith
  · refine ⟨.E, (in_iff _ _ (by rw [size_start]; norm_num)).mpr ?_⟩
    simp only [start, wa, wb, wc, area2]; refine ⟨?_, ?_, ?_⟩ <;> linarith
  · refine ⟨.W, (in_iff _ _ (by rw [size_start]; norm_num)).mpr ?_⟩
    simp only [start, wa, wb, wc, area2]; refine ⟨?_, ?_, ?_⟩ <;> linarith
  · refine ⟨.S, (in_iff _ _ (by rw [size_start]; norm_num)).mpr ?_⟩
    simp only [start, wa, wb, wc, area2]; refine ⟨?_, ?_, ?_⟩ <;> linarith

/-- `t` is `s` or was made by splitting it. -/
def Tri.Under (s t : Tri) : Prop := s.cell = t.cell ∧ s.dir = t.dir ∧ s.path <+: t.path

lemma comparable {t t' : Tri} (hc : t.cell = t'.cell) {p : Pt} (hp : Within (verts t) p) (hq : In (verts t') p) :
    t.Under t' ∨ t'.Under t := by
  by_cases e : t.dir = t'.dir
  · have hs : 0 < size (start t.dir) := by rw [size_start]; norm_num
    unfold verts at hp hq
    rw [← e] at hq
    rcases fold_comparable _ _ _ hs hp hq with k | k
    · exact Or.inl ⟨hc, e, k⟩
    · exact Or.inr ⟨hc.symm, e.symm, k⟩
  · have h1 := within_fold t.path _ (by rw [size_start]; norm_num) hp
    have h2 := in_fold t'.path _ (by rw [size_start]; norm_num) hq
    exact absurd h2 (start_apart e h1)

lemma in_start {t : Tri} {p : Pt} (h : In (verts t) p) : In (start t.dir) p :=
  in_fold _ _ (by rw [size_start]; norm_num) h

lemma start_square {d : Dir} {p : Pt} (h : In (start d) p) : InSquare p := by
  obtain ⟨a, b, c, ha, hb, hc, hs, rfl⟩ := h
  cases d <;> simp only [start] <;> refine ⟨?_, ?_, ?_, ?_⟩ <;> simp only <;> linarith

lemma in_square {t : Tri} {p : Pt} (h : In (verts t) p) : InSquare p := start_square (in_start h)

lemma in_va (V : Three) : In V V.a := ⟨1, 0, 0, by norm_num, by norm_num, by norm_num, by norm_num, by ext <;> simp⟩
lemma in_vb (V : Three) : In V V.b := ⟨0, 1, 0, by norm_num, by norm_num, by norm_num, by norm_num, by ext <;> simp⟩
lemma in_vc (V : Three) : In V V.c := ⟨0, 0, 1, by norm_num, by norm_num, by norm_num, by norm_num, by ext <;> simp⟩

lemma Under.trans {s t u : Tri} (h : s.Under t) (k : t.Under u) : s.Under u :=
  ⟨h.1.trans k.1, h.2.1.trans k.2.1, h.2.2.trans k.2.2⟩

lemma in_under {s t : Tri} (h : s.Under t) {p : Pt} (hp : In (verts t) p) : In (verts s) p := by
  obtain ⟨-, hd, l, hl⟩ := h
  unfold verts at hp ⊢
  rw [← hl, List.foldl_append, ← hd] at hp
  exact in_fold l _ (size_fold _ _ (by rw [size_start]; norm_num)) hp

lemma verts_child (t : Tri) (h : Half) : verts (child t h) = bisect (verts t) h := by
  simp [verts, child, List.foldl_append]

/-- Below a triangle, or below one of its halves. -/
lemma under_cases {s t : Tri} (h : s.Under t) : s = t ∨ ∃ k, (child s k).Under t := by
  obtain ⟨hc, hd, l, hl⟩ := h
  cases l with
  | nil =>
    left
    cases s; cases t
    simp only [List.append_nil] at hl
    simp_all
  | cons k l => exact Or.inr ⟨k, hc, hd, l, by simp [child, ← hl]⟩

/-- The vertex #0 of a triangle is extreme. -/
lemma apex_extreme {V : Three} (hV : 0 < size V) {p q : Pt} (hp : In V p) (hq : In V q)
    (hb : Between p V.a q) : p = q := by
  rw [in_iff _ _ hV] at hp hq
  obtain ⟨-, p2, p3⟩ := hp
  obtain ⟨-, q2, q3⟩ := hq
  obtain ⟨s, s0, s1, e⟩ := hb
  have lin : ∀ w : Three → Pt → ℚ, (w = wb ∨ w = wc) →
      w V V.a = (1 - s) * w V p + s * w V q := by
    intro w hw
    have ex : V.a.x = (1 - s) * p.x + s * q.x := congrArg Pt.x e
    have ey : V.a.y = (1 - s) * p.y + s * q.y := congrArg Pt.y e
    rcases hw with rfl | rfl
    · simp only [wb, area2]
      linear_combination (V.a.x - V.c.x) * ey - (V.a.y - V.c.y) * ex
    · simp only [wc, area2]
      linear_combination (V.b.y - V.a.y) * (-ex) + (V.b.x - V.a.x) * ey
  have zb : wb V V.a = 0 := by simp only [wb, area2]; ring
  have zc : wc V V.a = 0 := by simp only [wc, area2]; ring
  have hb := lin wb (Or.inl rfl)
  have hc := lin wc (Or.inr rfl)
  rw [zb] at hb
  rw [zc] at hc
  have s1' : 0 < 1 - s := by linarith
  have pb : wb V p = 0 := by nlinarith [mul_nonneg s1'.le p2, mul_nonneg s0.le q2]
  have qb : wb V q = 0 := by nlinarith [mul_nonneg s1'.le p2, mul_nonneg s0.le q2]
  have pc : wc V p = 0 := by nlinarith [mul_nonneg s1'.le p3, mul_nonneg s0.le q3]
  have qc : wc V q = 0 := by nlinarith [mul_nonneg s1'.le p3, mul_nonneg s0.le q3]
  have dx : (p.x - q.x) * size V = 0 := by
    have : (p.x - q.x) * size V = (wb V p - wb V q) * (V.b.x - V.a.x) + (wc V p - wc V q) * (V.c.x - V.a.x) := by
      simp only [wb, wc, size, area2]; ring
    rw [this, pb, qb, pc, qc]; ring
  have dy : (p.y - q.y) * size V = 0 := by
    have : (p.y - q.y) * size V = (wb V p - wb V q) * (V.b.y - V.a.y) + (wc V p - wc V q) * (V.c.y - V.a.y) := by
      simp only [wb, wc, size, area2]; ring
    rw [this, pb, qb, pc, qc]; ring
  ext
  · linarith [(mul_eq_zero.mp dx).resolve_right hV.ne']
  · linarith [(mul_eq_zero.mp dy).resolve_right hV.ne']

/-- A point of a triangle off a line. -/
lemma off_line {V : Three} (hV : 0 < size V) {p q : Pt} (hpq : p ≠ q) :
    ∃ z, Within V z ∧ area2 p q z ≠ 0 := by
  by_contra hno
  push Not at hno
  have h1 := hno ⟨1/2 * V.a.x + 1/4 * V.b.x + 1/4 * V.c.x, 1/2 * V.a.y + 1/4 * V.b.y + 1/4 * V.c.y⟩
    ⟨1/2, 1/4, 1/4, by norm_num, by norm_num, by norm_num, by norm_num, rfl⟩
  have h2 := hno ⟨1/4 * V.a.x + 1/2 * V.b.x + 1/4 * V.c.x, 1/4 * V.a.y + 1/2 * V.b.y + 1/4 * V.c.y⟩
    ⟨1/4, 1/2, 1/4, by norm_num, by norm_num, by norm_num, by norm_num, rfl⟩
  have h3 := hno ⟨1/4 * V.a.x + 1/4 * V.b.x + 1/2 * V.c.x, 1/4 * V.a.y + 1/4 * V.b.y + 1/2 * V.c.y⟩
    ⟨1/4, 1/4, 1/2, by norm_num, by norm_num, by norm_num, by norm_num, rfl⟩
  simp only [area2] at h1 h2 h3
  have e1 : (q.x - p.x) * (V.b.y - V.a.y) = (q.y - p.y) * (V.b.x - V.a.x) := by linarith
  have e2 : (q.x - p.x) * (V.c.y - V.a.y) = (q.y - p.y) * (V.c.x - V.a.x) := by linarith
  have k1 : (q.x - p.x) * size V = 0 := by
    simp only [size, area2]
    linear_combination (V.b.x - V.a.x) * e2 - (V.c.x - V.a.x) * e1
  have k2 : (q.y - p.y) * size V = 0 := by
    simp only [size, area2]
    linear_combination (V.b.y - V.a.y) * e2 - (V.c.y - V.a.y) * e1
  apply hpq
  ext
  · linarith [(mul_eq_zero.mp k1).resolve_right hV.ne']
  · linarith [(mul_eq_zero.mp k2).resolve_right hV.ne']

/-- Close to the midpoint of the bottom edge, the points on the side of the triangle are points of the triangle. -/
lemma near_mid {V W : Three} (hV : 0 < size V) (hW : 0 < size W) {z : Pt} (hz : Within W z)
    (hm : In W (mid V.b V.c)) (ho : 0 < area2 V.b V.c z) : ∃ q, Within W q ∧ Within V q := by
  have hz' := (within_iff _ _ hW).mp hz
  have hm' := (in_iff _ _ hW).mp hm
  set m := mid V.b V.c with hmm
  have sb : wb V m = size V / 2 := by simp only [hmm, wb, size, area2, mid]; ring
  have sc : wc V m = size V / 2 := by simp only [hmm, wc, size, area2, mid]; ring
  have sa : wa V m = 0 := by simp only [hmm, wa, area2, mid]; ring
  set M := size V + |wb V z| + |wc V z| with hM
  have hM0 : 0 < M := by positivity
  set ε := size V / (4 * M) with hε
  have e0 : 0 < ε := by positivity
  have hle : size V ≤ M := by rw [hM]; linarith [abs_nonneg (wb V z), abs_nonneg (wc V z)]
  have e1 : ε ≤ 1 / 4 := by
    rw [hε, div_le_div_iff₀ (by positivity) (by norm_num)]; linarith
  have eM : ε * M = size V / 4 := by rw [hε]; field_simp
  refine ⟨⟨(1 - ε) * m.x + ε * z.x, (1 - ε) * m.y + ε * z.y⟩, ?_, ?_⟩
  · rw [within_iff _ _ hW]
    have la : ∀ w : Three → Pt → ℚ, (w = wa ∨ w = wb ∨ w = wc) →
        w W ⟨(1 - ε) * m.x + ε * z.x, (1 - ε) * m.y + ε * z.y⟩ = (1 - ε) * w W m + ε * w W z := by
      rintro w (rfl | rfl | rfl)
      · simp only [wa, area2]; ring
      · simp only [wb, area2]; ring
      · simp only [wc, area2]; ring
    rw [la wa (by simp), la wb (by simp), la wc (by simp)]
    have e2 : 0 ≤ 1 - ε := by linarith
    refine ⟨?_, ?_, ?_⟩
    · linarith [mul_nonneg e2 hm'.1, mul_pos e0 hz'.1]
    · linarith [mul_nonneg e2 hm'.2.1, mul_pos e0 hz'.2.1]
    · linarith [mul_nonneg e2 hm'.2.2, mul_pos e0 hz'.2.2]
  · rw [within_iff _ _ hV]
    have la : ∀ w : Three → Pt → ℚ, (w = wa ∨ w = wb ∨ w = wc) →
        w V ⟨(1 - ε) * m.x + ε * z.x, (1 - ε) * m.y + ε * z.y⟩ = (1 - ε) * w V m + ε * w V z := by
      rintro w (rfl | rfl | rfl)
      · simp only [wa, area2]; ring
      · simp only [wb, area2]; ring
      · simp only [wc, area2]; ring
    rw [la wa (by simp), la wb (by simp), la wc (by simp), sa, sb, sc]
    have hb : -(size V / 4) ≤ ε * wb V z := by
      have : -M ≤ wb V z := by
        have := neg_abs_le (wb V z)
        rw [hM]; linarith [abs_nonneg (wc V z)]
      nlinarith [mul_le_mul_of_nonneg_left this e0.le]
    have hc : -(size V / 4) ≤ ε * wc V z := by
      have : -M ≤ wc V z := by
        have := neg_abs_le (wc V z)
        rw [hM]; linarith [abs_nonneg (wb V z)]
      nlinarith [mul_le_mul_of_nonneg_left this e0.le]
    have hs : (3 / 4) * (size V / 2) ≤ (1 - ε) * (size V / 2) := by nlinarith
    refine ⟨?_, ?_, ?_⟩
    · have : 0 < ε * wa V z := mul_pos e0 ho
      linarith
    · linarith
    · linarith

end Phyem.Trf
