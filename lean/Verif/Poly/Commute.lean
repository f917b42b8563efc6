import Verif.Poly.Props

/-!
C47: the derivative of the reconstruction of a cochain is the reconstruction of the incidence matrix
applied to the cochain, at every point.
-/

namespace Phyem.Poly

open Finset Phyem.Incidence Phyem.Numbering

variable {K : Type} [NontriviallyNormedField K]

section
variable {xs ys zs : List K} (hx : xs.Nodup) (hy : ys.Nodup) (hz : zs.Nodup) {p q r : ℕ}
  (px : xs.length = p + 1) (py : ys.length = q + 1) (pz : zs.length = r + 1) (c : ℕ → K) (x y z : K)

theorem rec10_eq (xs : List K) (c : ℕ → K) (x : K) :
    rec10 xs c x = ∑ i ∈ range xs.length, lagrange xs i x * c i := by
  unfold rec10
  rw [dot_eq]
  simp only [nodes_length]
  refine sum_congr rfl fun i hi => ?_
  rw [nodes_getD _ _ (mem_range.1 hi), Nat.zero_add]

theorem rec11_eq (xs : List K) (c : ℕ → K) (x : K) :
    rec11 xs c x = ∑ i ∈ range (xs.length - 1), edge xs i x * c i := by
  unfold rec11
  rw [dot_eq]
  simp only [edges_length]
  refine sum_congr rfl fun i hi => ?_
  rw [edges_getD _ _ (mem_range.1 hi), Nat.zero_add]

include hx px in
/-- C47 in 1d. -/
theorem derivative1 :
    HasDerivAt (fun t => rec10 xs c t) (rec11 xs (app (nd10 p) (E10 p) c) x) x := by
  simp_rw [rec10_eq, rec11_eq]
  have := d1 hx c x
  refine this.congr_deriv (sum_congr rfl fun i hi => ?_)
  rw [mem_range] at hi
  rw [grad1_differences p c i (by omega)]

include hx hy px py in
/-- C47, inner 0-forms in 2d: the gradient. -/
theorem grad2 :
    HasDerivAt (fun t => rec20 xs ys c t y) (rec21i xs ys (app (nd20 p q) (E20i p q) c) x y).1 x ∧
    HasDerivAt (fun t => rec20 xs ys c x t) (rec21i xs ys (app (nd20 p q) (E20i p q) c) x y).2 y := by
  obtain ⟨h1, h2, -⟩ := inner2_differences p q c
  rw [rec21i_0 xs ys px py, rec21i_1 xs ys px py]
  simp_rw [rec20_0 xs ys px py]
  constructor
  · refine (dX2 hx _ _ _ x).congr_deriv (T2_congr (fun _ _ => rfl) (fun _ _ => rfl) ?_)
    intro i hi j hj
    rw [h1 i j (by omega) (by omega)]
  · refine (dY2 hy _ _ _ y).congr_deriv (T2_congr (fun _ _ => rfl) (fun _ _ => rfl) ?_)
    intro i hi j hj
    rw [h2 i j (by omega) (by omega)]

include hx hy px py in
/-- C47, inner 1-forms `(u, v)` in 2d: the rotation `∂v/∂x - ∂u/∂y`. -/
theorem rot2 :
    ∃ vx uy, HasDerivAt (fun t => (rec21i xs ys c t y).2) vx x ∧
      HasDerivAt (fun t => (rec21i xs ys c x t).1) uy y ∧
      rec22 xs ys (app (nd21 p q) (E21i p q) c) x y = vx - uy := by
  obtain ⟨-, -, h3⟩ := inner2_differences p q c
  simp_rw [rec21i_0 xs ys px py, rec21i_1 xs ys px py]
  refine ⟨_, _, dX2 hx _ _ _ x, dY2 hy _ _ _ y, ?_⟩
  rw [rec22_0 xs ys px py, ← T2_sub]
  refine T2_congr (fun _ _ => rfl) (fun _ _ => rfl) ?_
  intro i hi j hj
  rw [h3 i j (by omega) (by omega)]

include hx hy px py in
/-- C47, outer 0-forms in 2d: the curl `(∂/∂y, -∂/∂x)`. -/
theorem curl2 :
    HasDerivAt (fun t => rec20 xs ys c x t) (rec21o xs ys (app (nd20 p q) (E20o p q) c) x y).1 y ∧
    HasDerivAt (fun t => rec20 xs ys c t y) (-(rec21o xs ys (app (nd20 p q) (E20o p q) c) x y).2) x := by
  obtain ⟨h1, h2, -⟩ := outer2_differences p q c
  rw [rec21o_0 xs ys px py, rec21o_1 xs ys px py, ← T2_neg]
  simp_rw [rec20_0 xs ys px py]
  constructor
  · refine (dY2 hy _ _ _ y).congr_deriv (T2_congr (fun _ _ => rfl) (fun _ _ => rfl) ?_)
    intro i hi j hj
    rw [h1 i j (by omega) (by omega)]
  · refine (dX2 hx _ _ _ x).congr_deriv (T2_congr (fun _ _ => rfl) (fun _ _ => rfl) ?_)
    intro i hi j hj
    rw [h2 i j (by omega) (by omega), neg_neg]

include hx hy px py in
/-- C47, outer 1-forms `(u, v)` in 2d: the divergence `∂u/∂x + ∂v/∂y`. -/
theorem div2 :
    ∃ ux vy, HasDerivAt (fun t => (rec21o xs ys c t y).1) ux x ∧
      HasDerivAt (fun t => (rec21o xs ys c x t).2) vy y ∧
      rec22 xs ys (app (nd21 p q) (E21o p q) c) x y = ux + vy := by
  obtain ⟨-, -, h3⟩ := outer2_differences p q c
  simp_rw [rec21o_0 xs ys px py, rec21o_1 xs ys px py]
  refine ⟨_, _, dX2 hx _ _ _ x, dY2 hy _ _ _ y, ?_⟩
  rw [rec22_0 xs ys px py, ← T2_add]
  refine T2_congr (fun _ _ => rfl) (fun _ _ => rfl) ?_
  intro i hi j hj
  rw [h3 i j (by omega) (by omega)]

include hx hy hz px py pz in
/-- C47, 0-forms in 3d: the gradient. -/
theorem grad3 :
    HasDerivAt (fun t => rec30 xs ys zs c t y z)
      (rec31 xs ys zs (app (nd30 p q r) (E30 p q r) c) x y z).1 x ∧
    HasDerivAt (fun t => rec30 xs ys zs c x t z)
      (rec31 xs ys zs (app (nd30 p q r) (E30 p q r) c) x y z).2.1 y ∧
    HasDerivAt (fun t => rec30 xs ys zs c x y t)
      (rec31 xs ys zs (app (nd30 p q r) (E30 p q r) c) x y z).2.2 z := by
  obtain ⟨h1, h2, h3⟩ := grad3_differences p q r c
  rw [rec31_0 xs ys zs px py pz, rec31_1 xs ys zs px py pz, rec31_2 xs ys zs px py pz]
  simp_rw [rec30_0 xs ys zs px py pz]
  refine ⟨?_, ?_, ?_⟩
  · refine (dX hx _ _ _ _ _ x).congr_deriv (T3_congr (fun _ _ => rfl) (fun _ _ => rfl) (fun _ _ => rfl) ?_)
    intro i hi j hj k hk
    rw [h1 i j k (by omega) (by omega) (by omega)]
  · refine (dY hy _ _ _ _ _ y).congr_deriv (T3_congr (fun _ _ => rfl) (fun _ _ => rfl) (fun _ _ => rfl) ?_)
    intro i hi j hj k hk
    rw [h2 i j k (by omega) (by omega) (by omega)]
  · refine (dZ hz _ _ _ _ _ z).congr_deriv (T3_congr (fun _ _ => rfl) (fun _ _ => rfl) (fun _ _ => rfl) ?_)
    intro i hi j hj k hk
    rw [h3 i j k (by omega) (by omega) (by omega)]

include hx hy hz px py pz in
/-- C47, 1-forms `(u, v, w)` in 3d: the curl `(∂w/∂y - ∂v/∂z, ∂u/∂z - ∂w/∂x, ∂v/∂x - ∂u/∂y)`. -/
theorem curl3 :
    ∃ wy vz uz wx vx uy,
      HasDerivAt (fun t => (rec31 xs ys zs c x t z).2.2) wy y ∧
      HasDerivAt (fun t => (rec31 xs ys zs c x y t).2.1) vz z ∧
      HasDerivAt (fun t => (rec31 xs ys zs c x y t).1) uz z ∧
      HasDerivAt (fun t => (rec31 xs ys zs c t y z).2.2) wx x ∧
      HasDerivAt (fun t => (rec31 xs ys zs c t y z).2.1) vx x ∧
      HasDerivAt (fun t => (rec31 xs ys zs c x t z).1) uy y ∧
      rec32 xs ys zs (app (nd31 p q r) (E31 p q r) c) x y z = (wy - vz, uz - wx, vx - uy) := by
  obtain ⟨h1, h2, h3⟩ := curl3_circulation p q r c
  simp_rw [rec31_0 xs ys zs px py pz, rec31_1 xs ys zs px py pz, rec31_2 xs ys zs px py pz]
  refine ⟨_, _, _, _, _, _, dY hy _ _ _ _ _ y, dZ hz _ _ _ _ _ z, dZ hz _ _ _ _ _ z,
    dX hx _ _ _ _ _ x, dX hx _ _ _ _ _ x, dY hy _ _ _ _ _ y, ?_⟩
  refine Prod.ext ?_ (Prod.ext ?_ ?_)
  · rw [rec32_0 xs ys zs px py pz]
    rw [← T3_sub]
    refine T3_congr (fun _ _ => rfl) (fun _ _ => rfl) (fun _ _ => rfl) ?_
    intro i hi j hj k hk
    rw [h1 i j k (by omega) (by omega) (by omega)]
  · rw [rec32_1 xs ys zs px py pz]
    dsimp only
    rw [← T3_sub]
    refine T3_congr (fun _ _ => rfl) (fun _ _ => rfl) (fun _ _ => rfl) ?_
    intro i hi j hj k hk
    rw [h2 i j k (by omega) (by omega) (by omega)]
  · rw [rec32_2 xs ys zs px py pz]
    dsimp only
    rw [← T3_sub]
    refine T3_congr (fun _ _ => rfl) (fun _ _ => rfl) (fun _ _ => rfl) ?_
    intro i hi j hj k hk
    rw [h3 i j k (by omega) (by omega) (by omega)]

include hx hy hz px py pz in
/-- C47, 2-forms `(u, v, w)` in 3d: the divergence `∂u/∂x + ∂v/∂y + ∂w/∂z`. -/
theorem div3 :
    ∃ ux vy wz,
      HasDerivAt (fun t => (rec32 xs ys zs c t y z).1) ux x ∧
      HasDerivAt (fun t => (rec32 xs ys zs c x t z).2.1) vy y ∧
      HasDerivAt (fun t => (rec32 xs ys zs c x y t).2.2) wz z ∧
      rec33 xs ys zs (app (nd32 p q r) (E32 p q r) c) x y z = ux + vy + wz := by
  have h1 := div3_outflow p q r c
  simp_rw [rec32_0 xs ys zs px py pz, rec32_1 xs ys zs px py pz, rec32_2 xs ys zs px py pz]
  refine ⟨_, _, _, dX hx _ _ _ _ _ x, dY hy _ _ _ _ _ y, dZ hz _ _ _ _ _ z, ?_⟩
  rw [rec33_0 xs ys zs px py pz, ← T3_add, ← T3_add]
  refine T3_congr (fun _ _ => rfl) (fun _ _ => rfl) (fun _ _ => rfl) ?_
  intro i hi j hj k hk
  rw [h1 i j k (by omega) (by omega) (by omega)]

/-! With the mapping of an element. `Φ` maps the reference element to the element; `J a i` is the
derivative of its component `a` in direction `i` at the point, and `iJ` the inverse matrix. `f` is the
reconstructed field on the element. -/

include hx px in
/-- C47 in 1d on an element: the derivative of the reconstructed field. -/
theorem derivative1_mapped (Φ f : K → K) (J iJ f' : K) (hf : ∀ t, f (Φ t) = rec10 xs c t)
    (hΦ : HasDerivAt Φ J x) (hJ : J * iJ = 1) (hd : HasDerivAt f f' (Φ x)) :
    f' = push11 iJ (rec11 xs (app (nd10 p) (E10 p) c) x) := by
  have h1 := hd.comp x hΦ
  have h2 : HasDerivAt (f ∘ Φ) (rec11 xs (app (nd10 p) (E10 p) c) x) x := by
    have e : f ∘ Φ = fun t => rec10 xs c t := funext hf
    rw [e]
    exact derivative1 hx px c x
  rw [← h1.unique h2]
  unfold push11
  rw [mul_assoc, hJ, mul_one]

include hx hy px py in
/-- C47, inner 0-forms in 2d on an element: the gradient `(g 0, g 1)` of the reconstructed field. -/
theorem grad2_mapped (Φ : K → K → K × K) (f : K × K → K) (J iJ : ℕ → ℕ → K) (D : K × K →L[K] K)
    (hf : ∀ s t, f (Φ s t) = rec20 xs ys c s t)
    (hΦ0 : HasDerivAt (fun t => Φ t y) (J 0 0, J 1 0) x)
    (hΦ1 : HasDerivAt (fun t => Φ x t) (J 0 1, J 1 1) y)
    (hJ : ∀ a < 2, ∀ b < 2, J a 0 * iJ 0 b + J a 1 * iJ 1 b = if a = b then 1 else 0)
    (hd : HasFDerivAt f D (Φ x y)) :
    (D (1, 0), D (0, 1)) = push21i iJ (rec21i xs ys (app (nd20 p q) (E20i p q) c) x y) := by
  obtain ⟨g0, g1⟩ := grad2 hx hy px py c x y
  have e0 : (fun t => f (Φ t y)) = fun t => rec20 xs ys c t y := funext fun t => hf t y
  have e1 : (fun t => f (Φ x t)) = fun t => rec20 xs ys c x t := funext fun t => hf x t
  have h0 := HasFDerivAt.comp_hasDerivAt (f := fun t => Φ t y) x hd hΦ0
  have h1 := HasFDerivAt.comp_hasDerivAt (f := fun t => Φ x t) y hd hΦ1
  simp only [Function.comp_def] at h0 h1
  rw [e0] at h0
  rw [e1] at h1
  have u0 := h0.unique g0
  have u1 := h1.unique g1
  have lin : ∀ a b : K, D (a, b) = a * D (1, 0) + b * D (0, 1) := by
    intro a b
    have : ((a, b) : K × K) = a • (1, 0) + b • (0, 1) := by simp
    rw [this, map_add, map_smul, map_smul]
    simp
  rw [lin] at u0 u1
  have j00 := hJ 0 (by omega) 0 (by omega)
  have j01 := hJ 0 (by omega) 1 (by omega)
  have j10 := hJ 1 (by omega) 0 (by omega)
  have j11 := hJ 1 (by omega) 1 (by omega)
  simp at j00 j01 j10 j11
  unfold push21i
  rw [← u0, ← u1]
  refine Prod.ext ?_ ?_ <;> dsimp only
  · linear_combination (-D (1, 0)) * j00 - D (0, 1) * j10
  · linear_combination (-D (1, 0)) * j01 - D (0, 1) * j11

include hx hy hz px py pz in
/-- C47, 0-forms in 3d on an element: the gradient of the reconstructed field. -/
theorem grad3_mapped (Φ : K → K → K → K × K × K) (f : K × K × K → K) (J iJ : ℕ → ℕ → K)
    (D : K × K × K →L[K] K) (hf : ∀ s t u, f (Φ s t u) = rec30 xs ys zs c s t u)
    (hΦ0 : HasDerivAt (fun t => Φ t y z) (J 0 0, J 1 0, J 2 0) x)
    (hΦ1 : HasDerivAt (fun t => Φ x t z) (J 0 1, J 1 1, J 2 1) y)
    (hΦ2 : HasDerivAt (fun t => Φ x y t) (J 0 2, J 1 2, J 2 2) z)
    (hJ : ∀ a < 3, ∀ b < 3, J a 0 * iJ 0 b + J a 1 * iJ 1 b + J a 2 * iJ 2 b = if a = b then 1 else 0)
    (hd : HasFDerivAt f D (Φ x y z)) :
    (D (1, 0, 0), D (0, 1, 0), D (0, 0, 1)) =
      push31 iJ (rec31 xs ys zs (app (nd30 p q r) (E30 p q r) c) x y z) := by
  obtain ⟨g0, g1, g2⟩ := grad3 hx hy hz px py pz c x y z
  have e0 : (fun t => f (Φ t y z)) = fun t => rec30 xs ys zs c t y z := funext fun t => hf t y z
  have e1 : (fun t => f (Φ x t z)) = fun t => rec30 xs ys zs c x t z := funext fun t => hf x t z
  have e2 : (fun t => f (Φ x y t)) = fun t => rec30 xs ys zs c x y t := funext fun t => hf x y t
  have h0 := HasFDerivAt.comp_hasDerivAt (f := fun t => Φ t y z) x hd hΦ0
  have h1 := HasFDerivAt.comp_hasDerivAt (f := fun t => Φ x t z) y hd hΦ1
  have h2 := HasFDerivAt.comp_hasDerivAt (f := fun t => Φ x y t) z hd hΦ2
  simp only [Function.comp_def] at h0 h1 h2
  rw [e0] at h0
  rw [e1] at h1
  rw [e2] at h2
  have u0 := h0.unique g0
  have u1 := h1.unique g1
  have u2 := h2.unique g2
  have lin : ∀ a b d : K, D (a, b, d) = a * D (1, 0, 0) + b * D (0, 1, 0) + d * D (0, 0, 1) := by
    intro a b d
    have : ((a, b, d) : K × K × K) = a • (1, 0, 0) + b • (0, 1, 0) + d • (0, 0, 1) := by simp
    rw [this, map_add, map_add, map_smul, map_smul, map_smul]
    simp
  rw [lin] at u0 u1 u2
  have j := hJ
  unfold push31
  rw [← u0, ← u1, ← u2]
  refine Prod.ext ?_ (Prod.ext ?_ ?_) <;> dsimp only
  · have a0 := hJ 0 (by omega) 0 (by omega)
    have a1 := hJ 1 (by omega) 0 (by omega)
    have a2 := hJ 2 (by omega) 0 (by omega)
    simp at a0 a1 a2
    linear_combination (-D (1, 0, 0)) * a0 - D (0, 1, 0) * a1 - D (0, 0, 1) * a2
  · have a0 := hJ 0 (by omega) 1 (by omega)
    have a1 := hJ 1 (by omega) 1 (by omega)
    have a2 := hJ 2 (by omega) 1 (by omega)
    simp at a0 a1 a2
    linear_combination (-D (1, 0, 0)) * a0 - D (0, 1, 0) * a1 - D (0, 0, 1) * a2
  · have a0 := hJ 0 (by omega) 2 (by omega)
    have a1 := hJ 1 (by omega) 2 (by omega)
    have a2 := hJ 2 (by omega) 2 (by omega)
    simp at a0 a1 a2
    linear_combination (-D (1, 0, 0)) * a0 - D (0, 1, 0) * a1 - D (0, 0, 1) * a2

end

/-! The hypotheses are met by the nodes `-1, 0, 1` and `-1, 1`. -/

example : ([-1, 0, 1] : List ℝ).Nodup ∧ ([-1, 0, 1] : List ℝ).length = 2 + 1 := by
  refine ⟨?_, rfl⟩
  norm_num

example : ([-1, 1] : List ℝ).Nodup ∧ ([-1, 1] : List ℝ).length = 1 + 1 := by
  refine ⟨?_, rfl⟩
  norm_num

/-- On `-1, 0, 1` the edge functions at 0 are computed: `1/2` and `1/2`. -/
example : edges ([-1, 0, 1] : List ℚ) 0 = [1 / 2, 1 / 2] := by decide +kernel

/-- … and the derivative of the parabola through `(-1, 1), (0, 0), (1, 1)` at `1/2` is 1. -/
example : rec11 ([-1, 0, 1] : List ℚ) (fun i => if i = 0 then -1 else 1) (1 / 2) = 1 := by
  decide +kernel

end Phyem.Poly
