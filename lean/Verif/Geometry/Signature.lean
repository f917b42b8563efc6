import Verif.Geometry.Shape
import Mathlib.Algebra.Order.Round

/-!
C77: metric data shared between elements. `base.py:613-840` keeps the Jacobian matrix (and everything computed from it) of an
element under its *metric signature*, and hands it to every other element with the same signature; the mass matrices are
shared in the same way (`MM_m2n2k0.py:42`, …).
-/

namespace Phyem.Geometry

open Real

/-! ### Model -/

/-- `angles_of_triangle` (`tools/functions/space/_2d/angles_of_triangle.py:9-31`), in degrees. -/
noncomputable def anglesOfTriangle (A B C : ℝ × ℝ) : ℝ × ℝ × ℝ :=
  let a := distance B C
  let b := distance A C
  let c := distance A B
  let a2 := a ^ 2
  let b2 := b ^ 2
  let c2 := c ^ 2
  (arccos ((b2 + c2 - a2) / (2 * b * c)) * 180 / π,
    arccos ((a2 + c2 - b2) / (2 * a * c)) * 180 / π,
    arccos ((a2 + b2 - c2) / (2 * a * b)) * 180 / π)

/-- A triangle: its three nodes. -/
structure Tri where
  a : ℝ × ℝ
  b : ℝ × ℝ
  c : ℝ × ℝ

/-- A quadrilateral: its four nodes. -/
structure Quad where
  p0 : ℝ × ℝ
  p1 : ℝ × ℝ
  p2 : ℝ × ℝ
  p3 : ℝ × ℝ

/-- The numbers in the signature of a triangle (`vtu_5_triangle.py:38-46`). `rnd k` rounds to `k` decimals; the text of the
signature separates the numbers by letters. -/
noncomputable def triSig (rnd : ℕ → ℝ → ℝ) (e : Tri) : List ℝ :=
  let ab := anglesOfTriangle e.a e.b e.c
  [rnd 3 ab.1, rnd 3 ab.2.1, rnd 3 (angle e.a e.b), rnd 6 (distance e.a e.b)]

/-- The numbers in the signature of a quadrilateral (`vtu_9_quad.py:64-77`). -/
noncomputable def quadSig (rnd : ℕ → ℝ → ℝ) (e : Quad) : List ℝ :=
  let t0 := anglesOfTriangle e.p0 e.p1 e.p2
  let t1 := anglesOfTriangle e.p0 e.p2 e.p3
  [rnd 2 (t0.1 + t1.1), rnd 2 t0.2.1, rnd 2 (t0.2.2 + t1.2.1), rnd 3 (angle e.p0 e.p2), rnd 5 (distance e.p0 e.p2)]

/-- The numbers in the signature of an orthogonal rectangle with extents `d` (`orthogonal_rectangle.py:46-50`). -/
def rectSig (rnd : ℕ → ℝ → ℝ) (d : ℝ × ℝ) : List ℝ := [rnd 5 d.1, rnd 5 d.2]

/-- The Jacobian matrices of the elements. -/
noncomputable def Tri.J (e : Tri) : ℝ → ℝ → List (List ℝ) := triJ [e.a.1, e.b.1, e.c.1] [e.a.2, e.b.2, e.c.2]
noncomputable def Quad.J (e : Quad) : ℝ → ℝ → List (List ℝ) :=
  quadJ [e.p0.1, e.p1.1, e.p2.1, e.p3.1] [e.p0.2, e.p1.2, e.p2.2, e.p3.2]

open Classical in
/-- What an element is given after the elements in `hist` have been asked, in this order (`base.py:615-627`): the data of the
first of them with its signature. Simplified: one set of points; nothing is evicted from the cache. -/
noncomputable def shared {E S D : Type} (sig : E → S) (data : E → D) (hist : List E) (e : E) : D :=
  match hist.find? (fun e' => decide (sig e' = sig e)) with
  | some e' => data e'
  | none => data e

/-- Rounding to `k` decimals; Python's `round` differs only at ties. -/
noncomputable def roundTo (k : ℕ) (x : ℝ) : ℝ := (round (x * 10 ^ k) : ℝ) / 10 ^ k

/-! ### Specification -/

/-- The nodes are in anticlockwise order, and not on one line. -/
def Tri.Anticlockwise (e : Tri) : Prop :=
  0 < (e.b.1 - e.a.1) * (e.c.2 - e.a.2) - (e.c.1 - e.a.1) * (e.b.2 - e.a.2)

/-- Every three consecutive nodes turn left. -/
def Quad.Anticlockwise (e : Quad) : Prop :=
  Tri.Anticlockwise ⟨e.p0, e.p1, e.p2⟩ ∧ Tri.Anticlockwise ⟨e.p1, e.p2, e.p3⟩ ∧
    Tri.Anticlockwise ⟨e.p2, e.p3, e.p0⟩ ∧ Tri.Anticlockwise ⟨e.p3, e.p0, e.p1⟩

/-! ### Triangles -/

theorem same_direction {p q p' q' n n' : ℝ} (hq : 0 < q) (hq' : 0 < q') (hn : 0 < n) (hn' : 0 < n')
    (h2 : n ^ 2 = p ^ 2 + q ^ 2) (h2' : n' ^ 2 = p' ^ 2 + q' ^ 2) (h : p / n = p' / n') : p * q' = p' * q := by
  have e : p * n' = p' * n := by
    rw [div_eq_div_iff hn.ne' hn'.ne'] at h; exact h
  have e2 : p ^ 2 * (p' ^ 2 + q' ^ 2) = p' ^ 2 * (p ^ 2 + q ^ 2) := by
    rw [← h2, ← h2']; linear_combination (p * n' + p' * n) * e
  have e3 : (p * q' - p' * q) * (p * q' + p' * q) = 0 := by linear_combination e2
  rcases mul_eq_zero.1 e3 with h0 | h0
  · linarith
  · have hpp : 0 ≤ p * p' := by
      have : p * p' * n' = p' ^ 2 * n := by linear_combination p' * e
      by_contra hc
      push Not at hc
      nlinarith [mul_neg_of_neg_of_pos hc hn', mul_nonneg (sq_nonneg p') hn.le]
    have h1 : p * p' * q' = -(p' ^ 2 * q) := by linear_combination p' * h0
    have hp' : p' = 0 := by
      by_contra hne
      have : 0 < p' ^ 2 := by positivity
      nlinarith [mul_nonneg hpp hq'.le, mul_pos this hq]
    have : p = 0 := by
      rw [hp'] at e
      have : p * n' = 0 := by linarith
      exact (mul_eq_zero.1 this).resolve_right hn'.ne'
    rw [this, hp']; ring

/-- The angle between two sides, from the law of cosines: `arccos (p / n)` with `p` the scalar product and `n` the product of
the lengths. -/
theorem cosine_law (o x y : ℝ × ℝ) (q : ℝ)
    (hq : q = (x.1 - o.1) * (y.2 - o.2) - (y.1 - o.1) * (x.2 - o.2)) (hpos : 0 < q) :
    let p := (x.1 - o.1) * (y.1 - o.1) + (x.2 - o.2) * (y.2 - o.2)
    let n := distance o y * distance o x
    0 < n ∧ n ^ 2 = p ^ 2 + q ^ 2 ∧
      (distance o y ^ 2 + distance o x ^ 2 - distance x y ^ 2) / (2 * distance o y * distance o x) = p / n ∧
      -1 ≤ p / n ∧ p / n ≤ 1 := by
  intro p n
  have hx : o ≠ x := by
    rintro rfl; simp at hq; linarith
  have hy : o ≠ y := by
    rintro rfl; simp at hq; linarith
  have dx := distance_pos hx
  have dy := distance_pos hy
  have sx := distance_sq o x
  have sy := distance_sq o y
  have sxy := distance_sq x y
  have hn : 0 < n := mul_pos dy dx
  have hn2 : n ^ 2 = p ^ 2 + q ^ 2 := by
    simp only [n, mul_pow, sx, sy, p, hq]; ring
  refine ⟨hn, hn2, ?_, ?_, ?_⟩
  · rw [sx, sy, sxy]
    have : (o.1 - y.1) ^ 2 + (o.2 - y.2) ^ 2 + ((o.1 - x.1) ^ 2 + (o.2 - x.2) ^ 2) - ((x.1 - y.1) ^ 2 + (x.2 - y.2) ^ 2)
        = 2 * p := by simp only [p]; ring
    rw [this, mul_assoc, mul_div_mul_left _ _ (by norm_num : (2 : ℝ) ≠ 0)]
  · rw [le_div_iff₀ hn]; nlinarith [sq_nonneg q]
  · rw [div_le_iff₀ hn]; nlinarith [sq_nonneg q]

theorem arccos_inj' {x y : ℝ} (h : arccos x * 180 / π = arccos y * 180 / π) (hx : -1 ≤ x ∧ x ≤ 1) (hy : -1 ≤ y ∧ y ≤ 1) :
    x = y := by
  have hp := Real.pi_pos
  have : arccos x = arccos y := by field_simp at h; linarith
  rw [← Real.cos_arccos hx.1 hx.2, ← Real.cos_arccos hy.1 hy.2, this]

/-- Two anticlockwise triangles whose angles at the first two nodes, direction and length of the first side agree exactly
are translates of each other. -/
theorem triangle_from_signature {e e' : Tri} (he : e.Anticlockwise) (he' : e'.Anticlockwise)
    (h : triSig (fun _ x => x) e = triSig (fun _ x => x) e') :
    e'.b - e'.a = e.b - e.a ∧ e'.c - e'.a = e.c - e.a := by
  obtain ⟨⟨ax, ay⟩, ⟨bx, bY⟩, ⟨cx, cy⟩⟩ := e
  obtain ⟨⟨ax', ay'⟩, ⟨bx', bY'⟩, ⟨cx', cy'⟩⟩ := e'
  simp only [triSig, List.cons.injEq, and_true] at h
  obtain ⟨h1, h2, h3, h4⟩ := h
  simp only [Tri.Anticlockwise] at he he'
  have hba : ((bx, bY) : ℝ × ℝ) ≠ (ax, ay) := by
    intro hc; simp only [Prod.mk.injEq] at hc
    rw [hc.1, hc.2] at he; simp at he
  have hba' : ((bx', bY') : ℝ × ℝ) ≠ (ax', ay') := by
    intro hc; simp only [Prod.mk.injEq] at hc
    rw [hc.1, hc.2] at he'; simp at he'
  have sym : ∀ p q : ℝ × ℝ, distance p q = distance q p := by
    intro p q; unfold distance; congr 1; ring
  obtain ⟨s1, s2, -, -⟩ := angle_spec (ax, ay) (bx, bY) hba
  obtain ⟨s1', s2', -, -⟩ := angle_spec (ax', ay') (bx', bY') hba'
  rw [sym (bx, bY), h3, h4, sym (ax', ay')] at s1 s2
  simp only at s1 s2 s1' s2'
  have u1 : bx' - ax' = bx - ax := by rw [← s1, ← s1']
  have u2 : bY' - ay' = bY - ay := by rw [← s2, ← s2']
  have d1 := cosine_law (ax, ay) (bx, bY) (cx, cy) _ rfl he
  have d1' := cosine_law (ax', ay') (bx', bY') (cx', cy') _ rfl he'
  have he2 : 0 < (cx - bx) * (ay - bY) - (ax - bx) * (cy - bY) := by linarith
  have he2' : 0 < (cx' - bx') * (ay' - bY') - (ax' - bx') * (cy' - bY') := by linarith
  have d2 := cosine_law (bx, bY) (cx, cy) (ax, ay) _ rfl he2
  have d2' := cosine_law (bx', bY') (cx', cy') (ax', ay') _ rfl he2'
  simp only [anglesOfTriangle] at h1 h2
  obtain ⟨n1, m1, c1, l1⟩ := d1
  obtain ⟨n1', m1', c1', l1'⟩ := d1'
  obtain ⟨n2, m2, c2, l2⟩ := d2
  obtain ⟨n2', m2', c2', l2'⟩ := d2'
  rw [c1, c1'] at h1
  have k1 := same_direction he he' n1 n1' m1 m1' (arccos_inj' h1 l1 l1')
  have r2 : (distance (bx, bY) (cx, cy) ^ 2 + distance (ax, ay) (bx, bY) ^ 2 - distance (ax, ay) (cx, cy) ^ 2) /
      (2 * distance (bx, bY) (cx, cy) * distance (ax, ay) (bx, bY)) =
      (distance (bx, bY) (ax, ay) ^ 2 + distance (bx, bY) (cx, cy) ^ 2 - distance (cx, cy) (ax, ay) ^ 2) /
      (2 * distance (bx, bY) (ax, ay) * distance (bx, bY) (cx, cy)) := by
    rw [sym (ax, ay) (bx, bY), sym (ax, ay) (cx, cy)]; congr 1 <;> ring
  have r2' : (distance (bx', bY') (cx', cy') ^ 2 + distance (ax', ay') (bx', bY') ^ 2 -
        distance (ax', ay') (cx', cy') ^ 2) / (2 * distance (bx', bY') (cx', cy') * distance (ax', ay') (bx', bY')) =
      (distance (bx', bY') (ax', ay') ^ 2 + distance (bx', bY') (cx', cy') ^ 2 - distance (cx', cy') (ax', ay') ^ 2) /
      (2 * distance (bx', bY') (ax', ay') * distance (bx', bY') (cx', cy')) := by
    rw [sym (ax', ay') (bx', bY'), sym (ax', ay') (cx', cy')]; congr 1 <;> ring
  rw [r2, r2', c2, c2'] at h2
  have k2 := same_direction he2 he2' n2 n2' m2 m2' (arccos_inj' h2 l2 l2')
  simp only at k1 k2
  clear m1 m1' m2 m2' c1 c1' c2 c2' l1 l1' l2 l2' n1 n1' n2 n2' h1 h2 h3 h4 r2 r2' s1 s2 s1' s2'
  obtain rfl : bx' = ax' + (bx - ax) := by linarith
  obtain rfl : bY' = ay' + (bY - ay) := by linarith
  have hu : 0 < (bx - ax) ^ 2 + (bY - ay) ^ 2 := by
    by_contra hc
    have z1 : bx - ax = 0 := by nlinarith [sq_nonneg (bx - ax), sq_nonneg (bY - ay)]
    have z2 : bY - ay = 0 := by nlinarith [sq_nonneg (bx - ax), sq_nonneg (bY - ay)]
    rw [z1, z2] at he; simp at he
  generalize hU : bx - ax = U at *
  generalize hV : bY - ay = V at *
  have eb : bx = ax + U := by linarith
  have eb' : bY = ay + V := by linarith
  subst eb eb'
  generalize hW : cx - ax = W at *
  generalize hZ : cy - ay = Z at *
  generalize hW' : cx' - ax' = W' at *
  generalize hZ' : cy' - ay' = Z' at *
  have ec : cx = ax + W := by linarith
  have ec' : cy = ay + Z := by linarith
  have ec2 : cx' = ax' + W' := by linarith
  have ec2' : cy' = ay' + Z' := by linarith
  subst ec ec' ec2 ec2'
  -- the heights over the common side are equal
  have q : (U ^ 2 + V ^ 2) * ((U * Z - W * V) - (U * Z' - W' * V)) = 0 := by
    linear_combination -k1 - k2
  have q1 : (U * Z - W * V) = (U * Z' - W' * V) := by
    have := (mul_eq_zero.1 q).resolve_left hu.ne'
    linarith
  have p1 : U * W + V * Z = U * W' + V * Z' := by
    have : (U * W + V * Z) * (U * Z' - W' * V) = (U * W' + V * Z') * (U * Z - W * V)  := by linear_combination k1
    rw [q1] at this
    have hq' : 0 < U * Z' - W' * V := by linarith
    exact mul_right_cancel₀ hq'.ne' this
  have w : W' = W := by
    have : (U ^ 2 + V ^ 2) * (W' - W) = 0 := by linear_combination -U * p1 + V * q1
    have := (mul_eq_zero.1 this).resolve_left hu.ne'
    linarith
  have z : Z' = Z := by
    have : (U ^ 2 + V ^ 2) * (Z' - Z) = 0 := by linear_combination -V * p1 - U * q1
    have := (mul_eq_zero.1 this).resolve_left hu.ne'
    linarith
  subst w z
  simp

/-- Translates have the same Jacobian matrix. -/
theorem triangle_translate {e e' : Tri} (h1 : e'.b - e'.a = e.b - e.a) (h2 : e'.c - e'.a = e.c - e.a) : e'.J = e.J := by
  have b1 := congrArg Prod.fst h1
  have b2 := congrArg Prod.snd h1
  have c1 := congrArg Prod.fst h2
  have c2 := congrArg Prod.snd h2
  simp only [Prod.fst_sub, Prod.snd_sub] at b1 b2 c1 c2
  have f1 : e'.b.1 = e.b.1 - e.a.1 + e'.a.1 := by linarith
  have f2 : e'.b.2 = e.b.2 - e.a.2 + e'.a.2 := by linarith
  have f3 : e'.c.1 = e.c.1 - e.a.1 + e'.a.1 := by linarith
  have f4 : e'.c.2 = e.c.2 - e.a.2 + e'.a.2 := by linarith
  funext r s
  simp only [Tri.J, triJ, triCoef, triInvA, dot, List.map_cons, List.map_nil, List.zipWith_cons_cons,
    List.zipWith_nil_left, List.sum_cons, List.sum_nil, List.getD_cons_zero, List.getD_cons_succ, List.range,
    List.range.loop, List.cons.injEq, and_true, f1, f2, f3, f4]
  refine ⟨⟨?_, ?_⟩, ?_, ?_⟩ <;> ring

/-- The general fact about the shared data: an element is given its own data if no element asked before has the same
signature but other data. -/
theorem shared_own {E S D : Type} (sig : E → S) (data : E → D) (hist : List E) (e : E)
    (h : ∀ e' ∈ hist, sig e' = sig e → data e' = data e) : shared sig data hist e = data e := by
  classical
  unfold shared
  cases hf : hist.find? (fun e' => decide (sig e' = sig e)) with
  | none => rfl
  | some e' =>
    have h1 := List.mem_of_find?_eq_some hf
    have h2 := List.find?_some hf
    exact h e' h1 (by simpa using h2)

/-- Anticlockwise triangles whose signatures are not rounded: whatever triangles have been asked before, each is given its
own Jacobian matrix. What is missing: the code rounds the numbers and does not look at the orientation. -/
theorem triangle_shared_partial (hist : List Tri) (e : Tri) (hh : ∀ e' ∈ hist, e'.Anticlockwise) (he : e.Anticlockwise) :
    shared (triSig fun _ x => x) Tri.J hist e = e.J :=
  shared_own _ _ _ _ fun e' h' hs => by
    obtain ⟨h1, h2⟩ := triangle_from_signature he (hh e' h') hs.symm
    exact triangle_translate h1 h2

theorem arccos_mirror {x y x' y' : ℝ} (hx : x = x') (hy : y = y') : arccos (x / y) = arccos (x' / y') := by rw [hx, hy]

/-- A triangle and its mirror image have the same signature, whatever the rounding; asked after its mirror image, a triangle
is given a Jacobian matrix with the wrong signs. -/
theorem triangle_shared_refuted (rnd : ℕ → ℝ → ℝ) :
    ∃ e e' : Tri, e.Anticlockwise ∧ triSig rnd e' = triSig rnd e ∧ shared (triSig rnd) Tri.J [e'] e ≠ e.J := by
  have hs : triSig rnd ⟨(0, 0), (1, 0), (0, -1)⟩ = triSig rnd ⟨(0, 0), (1, 0), (0, 1)⟩ := by
    have d1 : distance ((1 : ℝ), (0 : ℝ)) (0, -1) = distance ((1 : ℝ), (0 : ℝ)) (0, 1) := by
      unfold distance; norm_num
    have d2 : distance ((0 : ℝ), (0 : ℝ)) (0, -1) = distance ((0 : ℝ), (0 : ℝ)) (0, 1) := by
      unfold distance; norm_num
    simp only [triSig, anglesOfTriangle, d1, d2]
  refine ⟨⟨(0, 0), (1, 0), (0, 1)⟩, ⟨(0, 0), (1, 0), (0, -1)⟩, by norm_num [Tri.Anticlockwise], hs, ?_⟩
  intro h
  have h1 := congrArg (fun J : ℝ → ℝ → List (List ℝ) => at2 (J 0 0) 1 1) h
  have hf : shared (triSig rnd) Tri.J [⟨(0, 0), (1, 0), (0, -1)⟩] ⟨(0, 0), (1, 0), (0, 1)⟩
      = Tri.J ⟨(0, 0), (1, 0), (0, -1)⟩ := by
    unfold shared
    rw [List.find?_cons_of_pos (by simpa using hs)]
  rw [hf] at h1
  norm_num [Tri.J, triJ, triCoef, triInvA, dot, at2, List.range, List.range.loop] at h1

/-! ### Quadrilaterals -/

theorem arccos_compl {x y : ℝ} (hx : 0 ≤ x) (hy : 0 ≤ y) (h : x ^ 2 + y ^ 2 = 1) : arccos x + arccos y = π / 2 := by
  rw [Real.arccos_eq_arcsin hx, show 1 - x ^ 2 = y ^ 2 by linarith, Real.sqrt_sq hy, Real.arccos]
  ring

/-- The square on its corner, and a rectangle with the same diagonal. -/
noncomputable def quadA1 : Quad := ⟨(0, 0), (1 / 2, -1 / 2), (1, 0), (1 / 2, 1 / 2)⟩
noncomputable def quadA2 : Quad := ⟨(0, 0), (16 / 25, -12 / 25), (1, 0), (9 / 25, 12 / 25)⟩

theorem quadA_anticlockwise : quadA1.Anticlockwise ∧ quadA2.Anticlockwise := by
  norm_num [Quad.Anticlockwise, Tri.Anticlockwise, quadA1, quadA2]

/-- Convex anticlockwise quadrilaterals of different shape have the same signature, whatever the rounding: three angles, a
direction and a length do not determine a quadrilateral. The second to be asked is given the Jacobian matrix of the first. -/
theorem quad_shared_refuted (rnd : ℕ → ℝ → ℝ) :
    quadSig rnd quadA1 = quadSig rnd quadA2 ∧ shared (quadSig rnd) Quad.J [quadA1] quadA2 ≠ quadA2.J := by
  have hs : quadSig rnd quadA1 = quadSig rnd quadA2 := by
    have sq : ∀ x y : ℝ, 0 ≤ y → x = y ^ 2 → √x = y := by
      rintro x y hy rfl; exact Real.sqrt_sq hy
    have h0 : 0 < √((1 : ℝ) / 2) := Real.sqrt_pos.2 (by norm_num)
    have h2 : √((1 : ℝ) / 2) ^ 2 = 1 / 2 := Real.sq_sqrt (by norm_num)
    have a1 : distance ((1 : ℝ) / 2, (-1 : ℝ) / 2) (1, 0) = √(1 / 2) := by unfold distance; norm_num
    have a2 : distance ((0 : ℝ), (0 : ℝ)) (1, 0) = 1 := by unfold distance; norm_num
    have a3 : distance ((0 : ℝ), (0 : ℝ)) (1 / 2, -1 / 2) = √(1 / 2) := by unfold distance; norm_num
    have a4 : distance ((1 : ℝ), (0 : ℝ)) (1 / 2, 1 / 2) = √(1 / 2) := by unfold distance; norm_num
    have a5 : distance ((0 : ℝ), (0 : ℝ)) (1 / 2, 1 / 2) = √(1 / 2) := by unfold distance; norm_num
    have b1 : distance ((16 : ℝ) / 25, (-12 : ℝ) / 25) (1, 0) = 3 / 5 := sq _ _ (by norm_num) (by norm_num)
    have b3 : distance ((0 : ℝ), (0 : ℝ)) (16 / 25, -12 / 25) = 4 / 5 := sq _ _ (by norm_num) (by norm_num)
    have b4 : distance ((1 : ℝ), (0 : ℝ)) (9 / 25, 12 / 25) = 4 / 5 := sq _ _ (by norm_num) (by norm_num)
    have b5 : distance ((0 : ℝ), (0 : ℝ)) (9 / 25, 12 / 25) = 3 / 5 := sq _ _ (by norm_num) (by norm_num)
    have c1 : (1 : ℝ) / (2 * √(1 / 2)) = √(1 / 2) := by
      rw [div_eq_iff (by positivity)]; linarith
    have s2 : √(2 : ℝ) ^ 2 = 2 := Real.sq_sqrt (by norm_num)
    have k : arccos (√2 * (1 / 2)) + arccos (√2 * (1 / 2)) = π / 2 :=
      arccos_compl (by positivity) (by positivity) (by linarith)
    have k1 : arccos (4 / 5) + arccos (3 / 5) = π / 2 := arccos_compl (by norm_num) (by norm_num) (by norm_num)
    have k2 : arccos (3 / 5) + arccos (4 / 5) = π / 2 := by linarith
    simp only [quadSig, anglesOfTriangle, quadA1, quadA2, a1, a2, a3, a4, a5, b1, b3, b4, b5, h2]
    norm_num [c1]
    have j : ∀ x y : ℝ, x * 180 / π + y * 180 / π = (x + y) * 180 / π := by intro x y; ring
    simp only [j, k, k1, k2, and_self]
  refine ⟨hs, ?_⟩
  intro h
  have h1 := congrArg (fun J : ℝ → ℝ → List (List ℝ) => at2 (J 0 0) 0 0) h
  have hf : shared (quadSig rnd) Quad.J [quadA1] quadA2 = quadA1.J := by
    unfold shared
    rw [List.find?_cons_of_pos (by simpa using hs)]
  rw [hf] at h1
  norm_num [Quad.J, quadJ, quadCoef, quadInvA, dot, at2, quadA1, quadA2] at h1

/-- What holds for quadrilaterals: if the elements asked before that have its signature are translates of it, an element is
given its own Jacobian matrix. -/
theorem quad_shared_partial (rnd : ℕ → ℝ → ℝ) (hist : List Quad) (e : Quad)
    (h : ∀ e' ∈ hist, quadSig rnd e' = quadSig rnd e →
      e'.p1 - e'.p0 = e.p1 - e.p0 ∧ e'.p2 - e'.p0 = e.p2 - e.p0 ∧ e'.p3 - e'.p0 = e.p3 - e.p0) :
    shared (quadSig rnd) Quad.J hist e = e.J :=
  shared_own _ _ _ _ fun e' h' hs => by
    obtain ⟨h1, h2, h3⟩ := h e' h' hs
    have b1 := congrArg Prod.fst h1
    have b2 := congrArg Prod.snd h1
    have c1 := congrArg Prod.fst h2
    have c2 := congrArg Prod.snd h2
    have d1 := congrArg Prod.fst h3
    have d2 := congrArg Prod.snd h3
    simp only [Prod.fst_sub, Prod.snd_sub] at b1 b2 c1 c2 d1 d2
    have f1 : e'.p1.1 = e.p1.1 - e.p0.1 + e'.p0.1 := by linarith
    have f2 : e'.p1.2 = e.p1.2 - e.p0.2 + e'.p0.2 := by linarith
    have f3 : e'.p2.1 = e.p2.1 - e.p0.1 + e'.p0.1 := by linarith
    have f4 : e'.p2.2 = e.p2.2 - e.p0.2 + e'.p0.2 := by linarith
    have f5 : e'.p3.1 = e.p3.1 - e.p0.1 + e'.p0.1 := by linarith
    have f6 : e'.p3.2 = e.p3.2 - e.p0.2 + e'.p0.2 := by linarith
    funext r s
    simp only [Quad.J, quadJ, quadCoef, quadInvA, dot, List.map_cons, List.map_nil, List.zipWith_cons_cons,
      List.zipWith_nil_left, List.sum_cons, List.sum_nil, List.getD_cons_zero, List.getD_cons_succ,
      List.cons.injEq, and_true, f1, f2, f3, f4, f5, f6]
    refine ⟨⟨?_, ?_⟩, ?_, ?_⟩ <;> ring

/-! ### Rectangles -/

/-- Rectangles whose extents are multiples of `10⁻⁵`: each is given its own Jacobian matrix. -/
theorem rectangle_shared_partial (round8 : ℝ → ℝ) (hist : List (ℝ × ℝ)) (d : ℝ × ℝ)
    (h : ∀ d' ∈ d :: hist, ∃ m n : ℤ, d' = ((m : ℝ) / 10 ^ 5, (n : ℝ) / 10 ^ 5)) :
    shared (rectSig roundTo) (fun d => rectJ round8 d.1 d.2) hist d = rectJ round8 d.1 d.2 :=
  shared_own _ _ _ _ fun d' h' hs => by
    have hr : ∀ m : ℤ, roundTo 5 ((m : ℝ) / 10 ^ 5) = (m : ℝ) / 10 ^ 5 := by
      intro m
      unfold roundTo
      rw [div_mul_cancel₀ _ (by positivity), round_intCast]
    obtain ⟨m, n, rfl⟩ := h d List.mem_cons_self
    obtain ⟨m', n', rfl⟩ := h d' (List.mem_cons_of_mem _ h')
    simp only [rectSig, hr, List.cons.injEq, and_true] at hs
    simp only [hs.1, hs.2]

/-- Two rectangles with widths that differ by a millionth share their Jacobian matrix. -/
theorem rectangle_shared_refuted :
    shared (rectSig roundTo) (fun d => rectJ id d.1 d.2) [((1 : ℝ), (1 : ℝ))] (1 + 1 / 10 ^ 6, 1)
      ≠ rectJ id (1 + 1 / 10 ^ 6) 1 := by
  have hs : rectSig roundTo ((1 : ℝ), (1 : ℝ)) = rectSig roundTo ((1 + 1 / 10 ^ 6 : ℝ), (1 : ℝ)) := by
    simp only [rectSig, roundTo, List.cons.injEq, and_true]
    have e1 : round ((1 : ℝ) * 10 ^ 5) = 100000 := by
      rw [show ((1 : ℝ) * 10 ^ 5) = ((100000 : ℤ) : ℝ) by norm_num, round_intCast]
    have e2 : round ((1 + 1 / 10 ^ 6 : ℝ) * 10 ^ 5) = 100000 := by
      rw [round_eq, Int.floor_eq_iff]; norm_num
    rw [e1, e2]
  unfold shared
  rw [List.find?_cons_of_pos (by simpa using hs)]
  intro h
  have h1 := congrArg (fun J : List (List ℝ) => at2 J 0 0) h
  norm_num [rectJ, at2] at h1

/-! ### The hypotheses are met -/

example : (⟨(0, 0), (2, 0), (1, 3)⟩ : Tri).Anticlockwise := by norm_num [Tri.Anticlockwise]

example : (1.25, 0.5) = (((125000 : ℤ) : ℝ) / 10 ^ 5, ((50000 : ℤ) : ℝ) / 10 ^ 5) := by norm_num

end Phyem.Geometry
