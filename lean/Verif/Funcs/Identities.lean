import Verif.Funcs.Ops3

/-!
# C95: the identities of vector calculus for numerically differentiated functions
-/

namespace Phyem.Funcs

section Field

variable {K : Type} [Field K]

/-! ### Helpers -/

theorem central_comm (f : K → K → K) (x y h k : K) :
    central (fun u => central (fun w => f u w) y k) x h =
      central (fun w => central (fun u => f u w) x h) y k := by
  simp only [central, div_eq_mul_inv]
  ring

theorem npd2_comm (a b : Ax2) (f : F2 K) : npd2 a (npd2 b f) = npd2 b (npd2 a f) := by
  funext t x y
  cases a <;> cases b <;> simp only [npd2, central, div_eq_mul_inv] <;> ring

theorem npd3_comm (a b : Ax3) (f : F3 K) : npd3 a (npd3 b f) = npd3 b (npd3 a f) := by
  funext t x y z
  cases a <;> cases b <;> simp only [npd3, central, div_eq_mul_inv] <;> ring

theorem npd2_add (a : Ax2) (f g : F2 K) : npd2 a (add2 f g) = add2 (npd2 a f) (npd2 a g) := by
  funext t x y
  cases a <;> simp only [npd2, add2, central, div_eq_mul_inv] <;> ring

theorem npd2_sub (a : Ax2) (f g : F2 K) : npd2 a (sub2 f g) = sub2 (npd2 a f) (npd2 a g) := by
  funext t x y
  cases a <;> simp only [npd2, sub2, central, div_eq_mul_inv] <;> ring

theorem npd2_neg (a : Ax2) (f : F2 K) : npd2 a (neg2 f) = neg2 (npd2 a f) := by
  funext t x y
  cases a <;> simp only [npd2, neg2, central, div_eq_mul_inv] <;> ring

theorem npd3_sub (a : Ax3) (f g : F3 K) : npd3 a (sub3 f g) = sub3 (npd3 a f) (npd3 a g) := by
  funext t x y z
  cases a <;> simp only [npd3, sub3, central, div_eq_mul_inv] <;> ring

/-! ### Theorems -/

/-- **C95.** The rot of a gradient vanishes everywhere, for every function. -/
theorem rot_gradient2 (f : F2 K) (m : Option (Mesh2 K)) (t x y : K) :
    (S2.plain f m).gradient.rot.call t x y = [0] := by
  have := congrFun (congrFun (congrFun (npd2_comm .x .y f) t) x) y
  simp [S2.gradient, V2.rot, S2.call, S2.plain, V2.plain, V2.vx, V2.uy, S2.px, S2.py, given2, sub2,
    this]

/-- **C95.** The divergence of a curl vanishes everywhere, for every function. -/
theorem div_curl2 (f : F2 K) (m : Option (Mesh2 K)) (t x y : K) :
    (S2.plain f m).curl.divergence.call t x y = [0] := by
  have := congrFun (congrFun (congrFun (npd2_comm .x .y f) t) x) y
  simp [S2.curl, V2.divergence, S2.call, S2.plain, V2.plain, V2.ux, V2.vy, S2.px, S2.py, given2,
    add2, npd2_neg, neg2, this]

/-- **C95.** The rot of the gradient of a vector vanishes, and so does the divergence of its
curl. -/
theorem rot_gradient_div_curl_vector2 (f g : F2 K) (m : Option (Mesh2 K)) (t x y : K) :
    (V2.plain f g m).gradient.rot.call t x y = (0, 0) ∧
      (V2.plain f g m).curl.divergence.call t x y = (0, 0) := by
  have hf := congrFun (congrFun (congrFun (npd2_comm .x .y f) t) x) y
  have hg := congrFun (congrFun (congrFun (npd2_comm .x .y g) t) x) y
  constructor
  · simp [V2.gradient, T2.rot, V2.call, V2.plain, V2.ux, V2.uy, V2.vx, V2.vy, given2, sub2, hf, hg]
  · simp [V2.curl, T2.divergence, V2.call, V2.plain, V2.ux, V2.uy, V2.vx, V2.vy, given2, add2,
      npd2_neg, neg2, hf, hg]

/-- **C95.** The Laplacian of a vector is the Laplacian of each of its components. -/
theorem laplacian_vector2 (f g : F2 K) (m : Option (Mesh2 K)) :
    ∃ r, (V2.plain f g m).laplacian = some r ∧ ∀ t x y,
      [(r.call t x y).1] = (S2.plain f m).laplacian.call t x y ∧
      [(r.call t x y).2] = (S2.plain g m).laplacian.call t x y := by
  refine ⟨_, rfl, fun t x y => ?_⟩
  have hf := congrFun (congrFun (congrFun (npd2_comm .x .y f) t) x) y
  have hg := congrFun (congrFun (congrFun (npd2_comm .x .y g) t) x) y
  constructor
  · simp only [V2.call, V2.plain, S2.laplacian, S2.plain, S2.gradient, S2.curl, V2.divergence,
      V2.rot, V2.ux, V2.uy, V2.vx, V2.vy, S2.px, S2.py, given2, S2.call, npd2_add, npd2_sub, npd2_neg,
      add2, sub2, neg2, hf, hg]
    congr 1
    ring
  · simp only [V2.call, V2.plain, S2.laplacian, S2.plain, S2.gradient, S2.curl, V2.divergence,
      V2.rot, V2.ux, V2.uy, V2.vx, V2.vy, S2.px, S2.py, given2, S2.call, npd2_add, npd2_sub, npd2_neg,
      add2, sub2, neg2, hf, hg]
    congr 1
    ring

/-- **C95.** The curl of a gradient vanishes in space, for every function. -/
theorem curl_gradient3 (f : F3 K) (t x y z : K) :
    (S3.plain f).gradient.curl.call t x y z = some (0, 0, 0) := by
  have h1 := congrFun (congrFun (congrFun (congrFun (npd3_comm .y .z f) t) x) y) z
  have h2 := congrFun (congrFun (congrFun (congrFun (npd3_comm .z .x f) t) x) y) z
  have h3 := congrFun (congrFun (congrFun (congrFun (npd3_comm .x .y f) t) x) y) z
  simp [S3.gradient, V3.curl, V3.call, S3.plain, V3.plain, given3, sub3, h1, h2, h3]

/-- **C95.** The divergence of a curl vanishes in space, for every vector function. -/
theorem div_curl3 (f g k : F3 K) (t x y z : K) :
    (V3.plain f g k).curl.divergence.s t x y z = 0 := by
  have hf := congrFun (congrFun (congrFun (congrFun (npd3_comm .y .z f) t) x) y) z
  have hg := congrFun (congrFun (congrFun (congrFun (npd3_comm .z .x g) t) x) y) z
  have hk := congrFun (congrFun (congrFun (congrFun (npd3_comm .x .y k) t) x) y) z
  simp only [V3.curl, V3.divergence, S3.plain, V3.plain, given3, sum3, npd3_sub, sub3, hf, hg, hk]
  ring

end Field

/-- **C95.** With given first derivatives, the rot of a gradient vanishes up to the error of the
numerical derivatives of the given ones. -/
theorem rot_gradient2_given (a : S2 ℝ) {gx gy : F2 ℝ} (hx : a.dx = some gx) (hy : a.dy = some gy)
    {ε t x y fxy : ℝ} (h1 : Known2 ε .y gx none t x y fxy) (h2 : Known2 ε .x gy none t x y fxy) :
    ∃ d, a.gradient.rot.call t x y = [d] ∧ |d| ≤ ε + ε := by
  refine ⟨_, rfl, ?_⟩
  have := near_sub (part_near h2) (part_near h1)
  simpa [V2.rot, S2.gradient, V2.plain, S2.plain, V2.vx, V2.uy, S2.px, S2.py, given2, hx, hy, sub2]
    using this

/-- The identities are about arbitrary functions: a discontinuous one. -/
example (t x y : ℚ) : (S2.plain (fun _ x y : ℚ => if x < y then 1 else x * y) none).gradient.rot.call
    t x y = [0] := rot_gradient2 _ _ t x y

/-- The numerical gradient of that function is not zero. -/
example : (S2.plain (fun _ x y : ℚ => if x < y then 1 else x * y) none).gradient.call 0 2 1 = (1, 2) := by
  norm_num [S2.gradient, V2.call, V2.plain, S2.plain, S2.px, S2.py, given2, npd2, central, h2]

end Phyem.Funcs
