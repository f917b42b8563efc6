import Verif.Funcs.Calculus
import Verif.Funcs.ModelReal
import Mathlib.LinearAlgebra.CrossProduct
import Mathlib.Tactic.FinCases

/-!
# C94 in two dimensions: operators on functions of time and space
-/

namespace Phyem.Funcs

open Set

/-! ### Helpers -/

/-- The partial derivative the code uses is as right as what it knows. -/
theorem part_near {ε : ℝ} {a : Ax2} {f : F2 ℝ} {d : Option (F2 ℝ)} {t x y p : ℝ}
    (h : Known2 ε a f d t x y p) :
    |given2 a f d t x y - p| ≤ ε := by
  obtain ⟨hd, h⟩ := h
  cases d with
  | some g => exact h
  | none =>
    obtain ⟨M, hM, he⟩ := h
    have e4 : (h2 : ℝ) = 1e-4 := by norm_num [h2]
    have := central_error (by norm_num) hd hM
    refine le_trans ?_ (this.trans he)
    cases a <;> simp [given2, npd2, e4, line2, coord2]

theorem near_add {a b p q e f : ℝ} (h : |a - p| ≤ e) (k : |b - q| ≤ f) :
    |a + b - (p + q)| ≤ e + f := by
  rw [abs_le] at *
  constructor <;> linarith [h.1, h.2, k.1, k.2]

theorem near_sub {a b p q e f : ℝ} (h : |a - p| ≤ e) (k : |b - q| ≤ f) :
    |a - b - (p - q)| ≤ e + f := by
  rw [abs_le] at *
  constructor <;> linarith [h.1, h.2, k.1, k.2]

theorem near_neg {a p e : ℝ} (h : |a - p| ≤ e) : |-a - -p| ≤ e := by
  rw [abs_le] at *
  constructor <;> linarith [h.1, h.2]

theorem near_mul {a p e : ℝ} (c : ℝ) (h : |a - p| ≤ e) : |c * a - c * p| ≤ |c| * e := by
  rw [← mul_sub, abs_mul]
  exact mul_le_mul_of_nonneg_left h (abs_nonneg c)

/-! ### Derivatives of scalars -/

/-- **C94.** The gradient of a scalar is the vector of its partial derivatives, each as accurate as
what is known of it. -/
theorem gradient2 (a : S2 ℝ) {ε t x y fx fy : ℝ} (hx : Known2 ε .x a.s a.dx t x y fx)
    (hy : Known2 ε .y a.s a.dy t x y fy) :
    |(a.gradient.call t x y).1 - fx| ≤ ε ∧ |(a.gradient.call t x y).2 - fy| ≤ ε :=
  ⟨part_near hx, part_near hy⟩

/-- **C94.** The curl of a scalar is (∂/∂y, -∂/∂x). -/
theorem curl2 (a : S2 ℝ) {ε t x y fx fy : ℝ} (hx : Known2 ε .x a.s a.dx t x y fx)
    (hy : Known2 ε .y a.s a.dy t x y fy) :
    |(a.curl.call t x y).1 - fy| ≤ ε ∧ |(a.curl.call t x y).2 - -fx| ≤ ε :=
  ⟨part_near hy, near_neg (part_near hx)⟩

/-- **C94.** The time derivative of a scalar. -/
theorem timeDerivative2 (a : S2 ℝ) {ε t x y ft : ℝ} (h : Known2 ε .t a.s a.dt t x y ft) :
    ∃ d, a.timeDerivative.call t x y = [d] ∧ |d - ft| ≤ ε :=
  ⟨_, rfl, part_near h⟩

/-- **C94.** The Laplacian of a scalar whose pure second derivatives are both given is their sum. -/
theorem laplacian2_given (a : S2 ℝ) {xx yy : F2 ℝ} (hx : a.ddxx = some xx) (hy : a.ddyy = some yy)
    {ε t x y fxx fyy : ℝ} (ex : |xx t x y - fxx| ≤ ε) (ey : |yy t x y - fyy| ≤ ε) :
    ∃ d, a.laplacian.call t x y = [d] ∧ |d - (fxx + fyy)| ≤ ε + ε := by
  refine ⟨_, ?_, near_add ex ey⟩
  simp [S2.laplacian, hx, hy, S2.call, S2.plain, add2]

/-- **C94.** The Laplacian of a scalar of which the first but not both pure second derivatives are
given is the divergence of the given gradient. -/
theorem laplacian2_first (a : S2 ℝ) (h2 : a.ddxx = none ∨ a.ddyy = none) {gx gy : F2 ℝ}
    (hx : a.dx = some gx) (hy : a.dy = some gy) {ε t x y fxx fyy : ℝ}
    (ex : Known2 ε .x gx none t x y fxx) (ey : Known2 ε .y gy none t x y fyy) :
    ∃ d, a.laplacian.call t x y = [d] ∧ |d - (fxx + fyy)| ≤ ε + ε := by
  refine ⟨_, ?_, near_add (part_near ex) (part_near ey)⟩
  have : a.laplacian = a.gradient.divergence := by
    unfold S2.laplacian
    rcases h2 with h | h <;> rw [h]
    cases a.ddxx <;> rfl
  rw [this]
  simp [S2.gradient, V2.divergence, S2.call, S2.plain, V2.plain, add2, V2.ux, V2.vy, S2.px, S2.py,
    given2, hx, hy]

/-- **C94.** The Laplacian of a scalar of which nothing is given is the sum of its second
derivatives, up to `M h² / 3` with `M` a bound of the fourth derivatives. -/
theorem laplacian2_numerical (a : S2 ℝ) (h2 : a.ddxx = none ∨ a.ddyy = none) (hx : a.dx = none)
    (hy : a.dy = none) {M t x y : ℝ} {p q : ℕ → ℝ → ℝ} (p0 : p 0 = fun u => a.s t u y)
    (q0 : q 0 = fun u => a.s t x u)
    (hp : ∀ u ∈ Icc (x - 2 * 1e-4) (x + 2 * 1e-4), ∀ k < 4, HasDerivAt (p k) (p (k + 1) u) u)
    (hq : ∀ u ∈ Icc (y - 2 * 1e-4) (y + 2 * 1e-4), ∀ k < 4, HasDerivAt (q k) (q (k + 1) u) u)
    (bp : ∀ u ∈ Icc (x - 2 * 1e-4) (x + 2 * 1e-4), |p 4 u| ≤ M)
    (bq : ∀ u ∈ Icc (y - 2 * 1e-4) (y + 2 * 1e-4), |q 4 u| ≤ M) :
    ∃ d, a.laplacian.call t x y = [d] ∧
      |d - (p 2 x + q 2 y)| ≤ M * 1e-4 ^ 2 / 3 + M * 1e-4 ^ 2 / 3 := by
  have ex := second_central_error (f := p 0) (f1 := p 1) (f2 := p 2) (f3 := p 3) (f4 := p 4)
    (x := x) (h := 1e-4) (M := M) (by norm_num)
    fun u hu => ⟨hp u hu 0 (by norm_num), hp u hu 1 (by norm_num), hp u hu 2 (by norm_num),
      hp u hu 3 (by norm_num), bp u hu⟩
  have ey := second_central_error (f := q 0) (f1 := q 1) (f2 := q 2) (f3 := q 3) (f4 := q 4)
    (x := y) (h := 1e-4) (M := M) (by norm_num)
    fun u hu => ⟨hq u hu 0 (by norm_num), hq u hu 1 (by norm_num), hq u hu 2 (by norm_num),
      hq u hu 3 (by norm_num), bq u hu⟩
  refine ⟨_, ?_, near_add ex ey⟩
  have : a.laplacian = a.gradient.divergence := by
    unfold S2.laplacian
    rcases h2 with h | h <;> rw [h]
    cases a.ddxx <;> rfl
  have e4 : (Funcs.h2 : ℝ) = 1e-4 := by norm_num [Funcs.h2]
  rw [this, p0, q0]
  simp [S2.gradient, V2.divergence, S2.call, S2.plain, V2.plain, add2, V2.ux, V2.vy, S2.px, S2.py,
    given2, hx, hy, npd2, e4]

/-! ### Derivatives of vectors and tensors -/

/-- What is known of the Jacobian matrix of a vector at a point. -/
structure V2.Known (v : V2 ℝ) (ε t x y ux uy vx vy : ℝ) : Prop where
  ux : Known2 ε .x v.v0 v.dudx t x y ux
  uy : Known2 ε .y v.v0 v.dudy t x y uy
  vx : Known2 ε .x v.v1 v.dvdx t x y vx
  vy : Known2 ε .y v.v1 v.dvdy t x y vy

/-- **C94.** The time derivative of a vector. -/
theorem vTimeDerivative2 (v : V2 ℝ) {ε t x y ut vt : ℝ} (hu : Known2 ε .t v.v0 v.dudt t x y ut)
    (hv : Known2 ε .t v.v1 v.dvdt t x y vt) :
    |(v.timeDerivative.call t x y).1 - ut| ≤ ε ∧ |(v.timeDerivative.call t x y).2 - vt| ≤ ε :=
  ⟨part_near hu, part_near hv⟩

/-- **C94.** The divergence of a vector. -/
theorem divergence2 (v : V2 ℝ) {ε t x y ux uy vx vy : ℝ} (h : v.Known ε t x y ux uy vx vy) :
    ∃ d, v.divergence.call t x y = [d] ∧ |d - (ux + vy)| ≤ ε + ε :=
  ⟨_, rfl, near_add (part_near h.ux) (part_near h.vy)⟩

/-- **C94.** The rot of a vector. -/
theorem rot2 (v : V2 ℝ) {ε t x y ux uy vx vy : ℝ} (h : v.Known ε t x y ux uy vx vy) :
    ∃ d, v.rot.call t x y = [d] ∧ |d - (vx - uy)| ≤ ε + ε :=
  ⟨_, rfl, near_sub (part_near h.vx) (part_near h.uy)⟩

/-- **C94.** The gradient of a vector is its Jacobian matrix. -/
theorem vGradient2 (v : V2 ℝ) {ε t x y ux uy vx vy : ℝ} (h : v.Known ε t x y ux uy vx vy) :
    |(v.gradient.call t x y).1.1 - ux| ≤ ε ∧ |(v.gradient.call t x y).1.2 - uy| ≤ ε ∧
      |(v.gradient.call t x y).2.1 - vx| ≤ ε ∧ |(v.gradient.call t x y).2.2 - vy| ≤ ε :=
  ⟨part_near h.ux, part_near h.uy, part_near h.vx, part_near h.vy⟩

/-- **C94.** The curl of a vector is the tensor of the curls of its components. -/
theorem vCurl2 (v : V2 ℝ) {ε t x y ux uy vx vy : ℝ} (h : v.Known ε t x y ux uy vx vy) :
    |(v.curl.call t x y).1.1 - uy| ≤ ε ∧ |(v.curl.call t x y).1.2 - -ux| ≤ ε ∧
      |(v.curl.call t x y).2.1 - vy| ≤ ε ∧ |(v.curl.call t x y).2.2 - -vx| ≤ ε :=
  ⟨part_near h.uy, near_neg (part_near h.ux), part_near h.vy, near_neg (part_near h.vx)⟩

/-- **C94.** The convection of a vector by a vector is (w · ∇) v. -/
theorem convection2 (v w : V2 ℝ) {ε t x y ux uy vx vy : ℝ} (h : v.Known ε t x y ux uy vx vy) :
    ∃ r, v.convectionBy (.vector w) = some r ∧
      |(r.call t x y).1 - (w.v0 t x y * ux + w.v1 t x y * uy)| ≤
        |w.v0 t x y| * ε + |w.v1 t x y| * ε ∧
      |(r.call t x y).2 - (w.v0 t x y * vx + w.v1 t x y * vy)| ≤
        |w.v0 t x y| * ε + |w.v1 t x y| * ε :=
  ⟨_, rfl, near_add (near_mul _ (part_near h.ux)) (near_mul _ (part_near h.uy)),
    near_add (near_mul _ (part_near h.vx)) (near_mul _ (part_near h.vy))⟩

/-- **C94.** The divergence and the rot of a tensor are those of its rows. -/
theorem tensor2 (a : T2 ℝ) {ε t x y a0 a1 b0 b1 c0 c1 d0 d1 : ℝ}
    (ha0 : Known2 ε .x a.t00 none t x y a0) (ha1 : Known2 ε .y a.t00 none t x y a1)
    (hb0 : Known2 ε .x a.t01 none t x y b0) (hb1 : Known2 ε .y a.t01 none t x y b1)
    (hc0 : Known2 ε .x a.t10 none t x y c0) (hc1 : Known2 ε .y a.t10 none t x y c1)
    (hd0 : Known2 ε .x a.t11 none t x y d0) (hd1 : Known2 ε .y a.t11 none t x y d1) :
    |(a.divergence.call t x y).1 - (a0 + b1)| ≤ ε + ε ∧
      |(a.divergence.call t x y).2 - (c0 + d1)| ≤ ε + ε ∧
      |(a.rot.call t x y).1 - (b0 - a1)| ≤ ε + ε ∧ |(a.rot.call t x y).2 - (d0 - c1)| ≤ ε + ε :=
  ⟨near_add (part_near ha0) (part_near hb1), near_add (part_near hc0) (part_near hd1),
    near_sub (part_near hb0) (part_near ha1), near_sub (part_near hd0) (part_near hc1)⟩

/-- **C94.** The time derivative of a tensor. -/
theorem tTimeDerivative2 (a : T2 ℝ) {ε t x y a0 b0 c0 d0 : ℝ}
    (ha : Known2 ε .t a.t00 none t x y a0) (hb : Known2 ε .t a.t01 none t x y b0)
    (hc : Known2 ε .t a.t10 none t x y c0) (hd : Known2 ε .t a.t11 none t x y d0) :
    |(a.timeDerivative.call t x y).1.1 - a0| ≤ ε ∧ |(a.timeDerivative.call t x y).1.2 - b0| ≤ ε ∧
      |(a.timeDerivative.call t x y).2.1 - c0| ≤ ε ∧ |(a.timeDerivative.call t x y).2.2 - d0| ≤ ε :=
  ⟨part_near ha, part_near hb, part_near hc, part_near hd⟩

/-- **C94, refuted.** The convection of a scalar by a vector is refused, whatever they are: the
class name the code asks for is not the name of the vector class. -/
theorem convection2_scalar_refuted (a : S2 ℝ) (u : Obj2 ℝ) : a.convectionBy u = none := by
  cases u <;> simp [S2.convectionBy, Obj2.className]

/-! ### Algebra -/

section Algebra

variable {K : Type} [Field K]

/-- **C94.** Sums, differences, negatives and products of scalars are those of their values, and so
is the product with a number on either side. -/
theorem algebra2_scalar (a b : S2 K) (c t x y : K) :
    (∃ r, a.add (.scalar b) = some r ∧ r.call t x y = [a.s t x y + b.s t x y]) ∧
    (∃ r, a.sub (.scalar b) = some r ∧ r.call t x y = [a.s t x y - b.s t x y]) ∧
    a.neg.call t x y = [-a.s t x y] ∧
    (∃ r, pyMul (.scalar a) (.scalar b) = some (.scalar r) ∧ r.call t x y = [a.s t x y * b.s t x y]) ∧
    (∃ r, pyMul (.scalar a) (.num c) = some (.scalar r) ∧ r.call t x y = [a.s t x y * c]) ∧
    (∃ r, pyMul (.num c) (.scalar a) = some (.scalar r) ∧ r.call t x y = [c * a.s t x y]) :=
  ⟨⟨_, rfl, rfl⟩, ⟨_, rfl, rfl⟩, rfl, ⟨_, rfl, rfl⟩,
    ⟨_, rfl, by simp [S2.call, S2.plain, smul2, mul_comm]⟩, ⟨_, rfl, rfl⟩⟩

/-- **C94.** Sums, differences, negatives and multiples of vectors are taken by components; the
product of a scalar and a vector multiplies both components. -/
theorem algebra2_vector (v w : V2 K) (a : S2 K) (c t x y : K) :
    (∃ r, v.add (.vector w) = some r ∧ r.call t x y = (v.v0 t x y + w.v0 t x y, v.v1 t x y + w.v1 t x y)) ∧
    (∃ r, v.sub (.vector w) = some r ∧ r.call t x y = (v.v0 t x y - w.v0 t x y, v.v1 t x y - w.v1 t x y)) ∧
    v.neg.call t x y = (-v.v0 t x y, -v.v1 t x y) ∧
    (∃ r, pyMul (.vector v) (.num c) = some (.vector r) ∧ r.call t x y = (v.v0 t x y * c, v.v1 t x y * c)) ∧
    (∃ r, pyMul (.num c) (.vector v) = some (.vector r) ∧ r.call t x y = (c * v.v0 t x y, c * v.v1 t x y)) ∧
    (∃ r, pyMul (.scalar a) (.vector v) = some (.vector r) ∧
      r.call t x y = (a.s t x y * v.v0 t x y, a.s t x y * v.v1 t x y)) :=
  ⟨⟨_, rfl, rfl⟩, ⟨_, rfl, rfl⟩, rfl,
    ⟨_, rfl, by simp [V2.call, V2.plain, smul2, mul_comm]⟩, ⟨_, rfl, rfl⟩, ⟨_, rfl, rfl⟩⟩

/-- **C94.** Dot and tensor products of vectors. -/
theorem products2 (v w : V2 K) (t x y : K) :
    (∃ r, v.dot (.vector w) = some r ∧
      r.call t x y = [v.v0 t x y * w.v0 t x y + v.v1 t x y * w.v1 t x y]) ∧
    (∃ r, v.tensorProduct (.vector w) = some r ∧ r.call t x y =
      ((v.v0 t x y * w.v0 t x y, v.v0 t x y * w.v1 t x y),
        (v.v1 t x y * w.v0 t x y, v.v1 t x y * w.v1 t x y))) :=
  ⟨⟨_, rfl, rfl⟩, ⟨_, rfl, rfl⟩⟩

/-- A vector in the plane and a scalar on its normal, as vectors in space. -/
def inPlane (v : V2 K) (t x y : K) : Fin 3 → K := ![v.v0 t x y, v.v1 t x y, 0]

/-- A scalar as the vector in space that is normal to the plane. -/
def onNormal (a : K) : Fin 3 → K := ![0, 0, a]

open Matrix in
/-- **C94.** The cross products of scalars and vectors are those of the corresponding vectors in
space, in both orders. -/
theorem cross2 (v w : V2 K) (a : S2 K) (t x y : K) :
    (∃ r, v.cross (.vector w) = some (.scalar r) ∧
      (r.call t x y).map onNormal = [crossProduct (inPlane v t x y) (inPlane w t x y)]) ∧
    (∃ r, a.cross (.vector w) = some r ∧ r.linked = none ∧
      inPlane r t x y = crossProduct (onNormal (a.s t x y)) (inPlane w t x y)) ∧
    (∃ r, w.cross (.scalar a) = some (.vector r) ∧ r.linked = none ∧
      inPlane r t x y = crossProduct (inPlane w t x y) (onNormal (a.s t x y))) := by
  refine ⟨⟨_, rfl, ?_⟩, ⟨_, rfl, rfl, ?_⟩, ⟨_, rfl, rfl, ?_⟩⟩
  · simp [S2.call, S2.plain, sub2, mul2, onNormal, inPlane, cross_apply]
  · simp [V2.plain, neg2, mul2, onNormal, inPlane, cross_apply]
  · simp [V2.plain, V2.neg, neg2, mul2, onNormal, inPlane, cross_apply, mul_comm]

/-- **C94.** Sums, differences and convections are on the mesh of their operands if that is the same
one, on no mesh otherwise. -/
theorem mesh2 (v w : V2 K) (m m' : Mesh2 K) (hv : v.mesh = some m) (hw : w.mesh = some m')
    (r : V2 K) (hr : v.add (.vector w) = some r ∨ v.sub (.vector w) = some r ∨
      v.convectionBy (.vector w) = some r) :
    (m.id = m'.id → r.mesh = some m) ∧ (m.id ≠ m'.id → r.mesh = none) := by
  have key : r.mesh = if sameMesh v.mesh w.mesh then v.mesh else none := by
    rcases hr with hr | hr | hr
    · cases hr; rfl
    · cases hr; rfl
    · simp only [V2.convectionBy] at hr
      split_ifs at hr with c1 c2
      · cases hr; simp [c2, V2.plain]
      · cases hr; simp [c2, V2.plain]
  rw [key]
  constructor
  · intro h
    simp [sameMesh, hv, hw, h]
  · intro h
    simp [sameMesh, hv, hw, h]

/-- **C94.** Evaluating a vector: its components, or the linked object. -/
theorem call2 (v : V2 K) (t x y : K) :
    (v.linked = none → v.call t x y = (v.v0 t x y, v.v1 t x y)) ∧
    ∀ l, v.linked = some l → v.call t x y = l t x y :=
  ⟨fun h => by simp [V2.call, h], fun l h => by simp [V2.call, h]⟩

/-- **C94.** Operands of the wrong kind are refused. -/
theorem refused2 (a : S2 K) (v : V2 K) (b : T2 K) (c : K) :
    a.add (.num c) = none ∧ a.add (.vector v) = none ∧ a.add (.tensor b) = none ∧
    a.sub (.num c) = none ∧ a.sub (.vector v) = none ∧ a.sub (.tensor b) = none ∧
    pyMul (.scalar a) (.tensor b) = none ∧
    a.cross (.num c) = none ∧ a.cross (.scalar a) = none ∧ a.cross (.tensor b) = none ∧
    v.add (.num c) = none ∧ v.add (.scalar a) = none ∧ v.add (.tensor b) = none ∧
    v.sub (.num c) = none ∧ v.sub (.scalar a) = none ∧ v.sub (.tensor b) = none ∧
    pyMul (.vector v) (.vector v) = none ∧ pyMul (.vector v) (.tensor b) = none ∧
    v.dot (.num c) = none ∧ v.dot (.scalar a) = none ∧ v.dot (.tensor b) = none ∧
    v.cross (.num c) = none ∧ v.cross (.tensor b) = none ∧
    v.tensorProduct (.num c) = none ∧ v.tensorProduct (.scalar a) = none ∧
    v.tensorProduct (.tensor b) = none ∧
    v.convectionBy (.num c) = none ∧ v.convectionBy (.scalar a) = none ∧
    v.convectionBy (.tensor b) = none := by
  refine ⟨rfl, rfl, rfl, rfl, rfl, rfl, rfl, rfl, rfl, rfl, rfl, rfl, rfl, rfl, rfl, rfl, rfl, rfl,
    rfl, rfl, rfl, rfl, rfl, rfl, rfl, rfl, rfl, rfl, rfl⟩

/-- **C94, refuted.** The product of a vector and a scalar in this order is refused, although the
scalar class has a method for it. -/
theorem vector_times_scalar_refuted (v : V2 K) (a : S2 K) :
    pyMul (.vector v) (.scalar a) = none ∧ (a.rmul (.vector v)).isSome = true :=
  ⟨rfl, rfl⟩

end Algebra

/-- **C94.** The norm of a vector is not negative and its square is the dot product of the vector
with itself; exponential and logarithm are inverse to each other; the absolute value. -/
theorem real2 (v : V2 ℝ) (a : S2 ℝ) (t x y : ℝ) :
    (∃ n d r, v.norm.call t x y = [n] ∧ v.dot (.vector v) = some r ∧ r.call t x y = [d] ∧
      0 ≤ n ∧ n * n = d) ∧
    a.exp.log.call t x y = a.call t x y ∧
    (0 < a.s t x y → a.log.exp.call t x y = a.call t x y) ∧
    a.abs.call t x y = [max (a.s t x y) (-a.s t x y)] := by
  refine ⟨⟨_, _, _, rfl, rfl, rfl, Real.sqrt_nonneg _, ?_⟩, ?_, ?_, ?_⟩
  · have h : 0 ≤ v.v0 t x y ^ 2 + v.v1 t x y ^ 2 := by positivity
    refine (Real.mul_self_sqrt h).trans ?_
    simp [S2.plain, add2, mul2, sq]
  · simp [S2.call, S2.log, S2.exp, S2.plain]
  · intro h
    simp [S2.call, S2.log, S2.exp, S2.plain, Real.exp_log h]
  · simp [S2.call, S2.abs, S2.plain, abs_eq_max_neg]

/-! ### The hypotheses are met -/

/-- A scalar of which one derivative is given exactly and the other one is cubic: what is known is
right up to 1e-8. -/
example (t x y : ℝ) :
    Known2 1e-8 .x (fun _ x y => x * y ^ 3) (some fun _ _ y => y ^ 3) t x y (y ^ 3) ∧
      Known2 1e-8 .y (fun _ _ y => y ^ 3) none t x y (3 * y ^ 2) := by
  refine ⟨⟨?_, by norm_num⟩, ?_, 6, ⟨fun u => 3 * u ^ 2, fun u => 6 * u, fun _ => 6, ?_⟩, by norm_num⟩
  · simpa [line2, coord2] using (hasDerivAt_id x).mul_const (y ^ 3)
  · simpa [line2, coord2] using hasDerivAt_pow 3 y
  · intro u _
    refine ⟨by simpa [line2] using hasDerivAt_pow 3 u, ?_, ?_, by norm_num⟩
    · exact ((hasDerivAt_pow 2 u).const_mul 3).congr_deriv (by push_cast; ring)
    · simpa using (hasDerivAt_id u).const_mul 6

/-- The derivatives of `u ^ 2 + c`, of all orders. -/
def squares (c : ℝ) : ℕ → ℝ → ℝ
  | 0 => fun u => u ^ 2 + c
  | 1 => fun u => 2 * u
  | 2 => fun _ => 2
  | _ => fun _ => 0

theorem squares_deriv (c u : ℝ) (k : ℕ) : HasDerivAt (squares c k) (squares c (k + 1) u) u := by
  match k with
  | 0 => simpa [squares] using (hasDerivAt_pow 2 u).add_const c
  | 1 => simpa [squares] using (hasDerivAt_id u).const_mul 2
  | 2 => simpa [squares] using hasDerivAt_const u (2 : ℝ)
  | _ + 3 => simpa [squares] using hasDerivAt_const u (0 : ℝ)

/-- The numerical Laplacian of `x ^ 2 + y ^ 2` is 4. -/
example (t x y : ℝ) : (S2.plain (fun _ x y : ℝ => x ^ 2 + y ^ 2) none).laplacian.call t x y = [4] := by
  obtain ⟨d, hd, h⟩ := laplacian2_numerical (S2.plain (fun _ x y : ℝ => x ^ 2 + y ^ 2) none)
    (.inl rfl) rfl rfl (M := 0) (t := t) (x := x) (y := y) (p := squares (y ^ 2))
    (q := squares (x ^ 2)) rfl (by funext u; simp [squares, S2.plain, add_comm])
    (fun u _ k _ => squares_deriv _ u k) (fun u _ k _ => squares_deriv _ u k)
    (fun u _ => by simp [squares]) (fun u _ => by simp [squares])
  rw [hd]
  have : |d - (2 + 2)| ≤ 0 := by simpa [squares] using h
  have := abs_nonpos_iff.mp this
  congr 1
  linarith

end Phyem.Funcs
