import Verif.Poly.Commute
import Mathlib.Analysis.Calculus.Deriv.Prod
import Mathlib.LinearAlgebra.Matrix.Determinant.Basic

/-!
C47 on curvilinear elements: rotation, curl and divergence of the reconstructed fields.

`Φ` maps the reference element to the element. The fields on the element are the reconstructions, i.e. the values of the
reference element pushed forward with the inverse Jacobian matrix.
-/

namespace Phyem.Poly

open Finset Phyem.Incidence Phyem.Numbering Filter Topology

variable {K : Type} [NontriviallyNormedField K]

/-- Specification: `J` is the Jacobian matrix (`J i a` the derivative of component `i` in direction `a`) of the mapping `Φ` at
`(x, y)`, `iJ` is the inverse of `J` around the point, and the mixed second derivatives of `Φ` exist and agree. -/
structure Maps2 (Φ : K → K → K × K) (J iJ : K → K → ℕ → ℕ → K) (x y : K) : Prop where
  d0 : HasDerivAt (fun t => Φ t y) (J x y 0 0, J x y 1 0) x
  d1 : HasDerivAt (fun t => Φ x t) (J x y 0 1, J x y 1 1) y
  left : ∀ᶠ P in 𝓝 (x, y), ∀ a < 2, ∀ b < 2,
    iJ P.1 P.2 a 0 * J P.1 P.2 0 b + iJ P.1 P.2 a 1 * J P.1 P.2 1 b = if a = b then 1 else 0
  right : ∀ a < 2, ∀ b < 2, J x y a 0 * iJ x y 0 b + J x y a 1 * iJ x y 1 b = if a = b then 1 else 0
  mixed : ∀ i < 2, ∃ s, HasDerivAt (fun t => J t y i 1) s x ∧ HasDerivAt (fun t => J x t i 0) s y

/-- The same in 3d. -/
structure Maps3 (Φ : K → K → K → K × K × K) (J iJ : K → K → K → ℕ → ℕ → K) (x y z : K) : Prop where
  d0 : HasDerivAt (fun t => Φ t y z) (J x y z 0 0, J x y z 1 0, J x y z 2 0) x
  d1 : HasDerivAt (fun t => Φ x t z) (J x y z 0 1, J x y z 1 1, J x y z 2 1) y
  d2 : HasDerivAt (fun t => Φ x y t) (J x y z 0 2, J x y z 1 2, J x y z 2 2) z
  left : ∀ᶠ P in 𝓝 (x, y, z), ∀ a < 3, ∀ b < 3,
    iJ P.1 P.2.1 P.2.2 a 0 * J P.1 P.2.1 P.2.2 0 b + iJ P.1 P.2.1 P.2.2 a 1 * J P.1 P.2.1 P.2.2 1 b +
      iJ P.1 P.2.1 P.2.2 a 2 * J P.1 P.2.1 P.2.2 2 b = if a = b then 1 else 0
  mixed01 : ∀ i < 3, ∃ s, HasDerivAt (fun t => J t y z i 1) s x ∧ HasDerivAt (fun t => J x t z i 0) s y
  mixed02 : ∀ i < 3, ∃ s, HasDerivAt (fun t => J t y z i 2) s x ∧ HasDerivAt (fun t => J x y t i 0) s z
  mixed12 : ∀ i < 3, ∃ s, HasDerivAt (fun t => J x t z i 2) s y ∧ HasDerivAt (fun t => J x y t i 1) s z

/-- The Jacobian determinant in 3d. -/
def det3 (J : ℕ → ℕ → K) : K :=
  J 0 0 * (J 1 1 * J 2 2 - J 1 2 * J 2 1) - J 0 1 * (J 1 0 * J 2 2 - J 1 2 * J 2 0) +
    J 0 2 * (J 1 0 * J 2 1 - J 1 1 * J 2 0)

/-! ### Helpers -/

theorem near0 {X Y : Type} [TopologicalSpace X] [TopologicalSpace Y] {x : X} {y : Y} {P : X × Y → Prop}
    (h : ∀ᶠ Q in 𝓝 (x, y), P Q) : ∀ᶠ t in 𝓝 x, P (t, y) :=
  ((Continuous.prodMk_left y).tendsto' x (x, y) rfl).eventually h

theorem near1 {X Y : Type} [TopologicalSpace X] [TopologicalSpace Y] {x : X} {y : Y} {P : X × Y → Prop}
    (h : ∀ᶠ Q in 𝓝 (x, y), P Q) : ∀ᶠ t in 𝓝 y, P (x, t) :=
  ((Continuous.prodMk_right x).tendsto' y (x, y) rfl).eventually h

theorem lin2 (D : K × K →L[K] K × K) (a b : K) :
    (D (a, b)).1 = a * (D (1, 0)).1 + b * (D (0, 1)).1 ∧ (D (a, b)).2 = a * (D (1, 0)).2 + b * (D (0, 1)).2 := by
  have : ((a, b) : K × K) = a • (1, 0) + b • (0, 1) := by simp
  rw [this, map_add, map_smul, map_smul]
  simp

theorem comps {f : K → K × K} {d : K × K} {x : K} (h : HasDerivAt f d x) :
    HasDerivAt (fun t => (f t).1) d.1 x ∧ HasDerivAt (fun t => (f t).2) d.2 x :=
  ⟨(ContinuousLinearMap.fst K K K).hasFDerivAt.comp_hasDerivAt x h,
   (ContinuousLinearMap.snd K K K).hasFDerivAt.comp_hasDerivAt x h⟩

section two
variable {xs ys : List K} (hx : xs.Nodup) (hy : ys.Nodup) {p q : ℕ}
  (px : xs.length = p + 1) (py : ys.length = q + 1) (c : ℕ → K) (x y : K)

include hx hy px py in
/-- C47, outer 0-forms in 2d on an element: the curl `(∂f/∂y, -∂f/∂x)` of the reconstructed field. -/
theorem curl2_mapped (Φ : K → K → K × K) (J iJ : K → K → ℕ → ℕ → K) (hΦ : Maps2 Φ J iJ x y) (f : K × K → K)
    (D : K × K →L[K] K) (hf : ∀ᶠ P in 𝓝 (x, y), f (Φ P.1 P.2) = rec20 xs ys c P.1 P.2)
    (hd : HasFDerivAt f D (Φ x y)) :
    (D (0, 1), -D (1, 0)) = push21o (iJ x y) (rec21o xs ys (app (nd20 p q) (E20o p q) c) x y) := by
  obtain ⟨g0, g1⟩ := curl2 hx hy px py c x y
  have h0 := HasFDerivAt.comp_hasDerivAt (f := fun t => Φ t y) x hd hΦ.d0
  have h1 := HasFDerivAt.comp_hasDerivAt (f := fun t => Φ x t) y hd hΦ.d1
  have e0 : (f ∘ fun t => Φ t y) =ᶠ[𝓝 x] fun t => rec20 xs ys c t y := near0 hf
  have e1 : (f ∘ fun t => Φ x t) =ᶠ[𝓝 y] fun t => rec20 xs ys c x t := near1 hf
  have u0 := (h0.congr_of_eventuallyEq e0.symm).unique g1
  have u1 := (h1.congr_of_eventuallyEq e1.symm).unique g0
  have lin : ∀ a b : K, D (a, b) = a * D (1, 0) + b * D (0, 1) := by
    intro a b
    have : ((a, b) : K × K) = a • (1, 0) + b • (0, 1) := by simp
    rw [this, map_add, map_smul, map_smul]
    simp
  rw [lin] at u0 u1
  have j00 := hΦ.right 0 (by omega) 0 (by omega)
  have j01 := hΦ.right 0 (by omega) 1 (by omega)
  have j10 := hΦ.right 1 (by omega) 0 (by omega)
  have j11 := hΦ.right 1 (by omega) 1 (by omega)
  simp at j00 j01 j10 j11
  unfold push21o
  refine Prod.ext ?_ ?_ <;> dsimp only
  · linear_combination iJ x y 1 1 * u1 + iJ x y 0 1 * u0 - D (1, 0) * j01 - D (0, 1) * j11
  · linear_combination (-iJ x y 1 0) * u1 - iJ x y 0 0 * u0 + D (1, 0) * j00 + D (0, 1) * j10

include hx hy px py in
/-- C47, inner 1-forms in 2d on an element: the rotation `∂v₂/∂x - ∂v₁/∂y` of the reconstructed field is the reconstruction,
with the factor `iD = 1 / det J`, of the incidence matrix applied to the cochain. -/
theorem rot2_mapped (Φ : K → K → K × K) (J iJ : K → K → ℕ → ℕ → K) (hΦ : Maps2 Φ J iJ x y) (v : K × K → K × K)
    (D : K × K →L[K] K × K) (iD : K)
    (hv : ∀ᶠ P in 𝓝 (x, y), v (Φ P.1 P.2) = push21i (iJ P.1 P.2) (rec21i xs ys c P.1 P.2))
    (hd : HasFDerivAt v D (Φ x y)) (hD : iD * (J x y 0 0 * J x y 1 1 - J x y 0 1 * J x y 1 0) = 1) :
    (D (1, 0)).2 - (D (0, 1)).1 = push11 iD (rec22 xs ys (app (nd21 p q) (E21i p q) c) x y) := by
  obtain ⟨wx, uy, g0, g1, e⟩ := rot2 hx hy px py c x y
  obtain ⟨s0, m00, m01⟩ := hΦ.mixed 0 (by omega)
  obtain ⟨s1, m10, m11⟩ := hΦ.mixed 1 (by omega)
  have pull : ∀ᶠ P in 𝓝 (x, y),
      (rec21i xs ys c P.1 P.2).1 = J P.1 P.2 0 0 * (v (Φ P.1 P.2)).1 + J P.1 P.2 1 0 * (v (Φ P.1 P.2)).2 ∧
      (rec21i xs ys c P.1 P.2).2 = J P.1 P.2 0 1 * (v (Φ P.1 P.2)).1 + J P.1 P.2 1 1 * (v (Φ P.1 P.2)).2 := by
    filter_upwards [hv, hΦ.left] with P h1 h2
    have j00 := h2 0 (by omega) 0 (by omega)
    have j01 := h2 0 (by omega) 1 (by omega)
    have j10 := h2 1 (by omega) 0 (by omega)
    have j11 := h2 1 (by omega) 1 (by omega)
    simp at j00 j01 j10 j11
    rw [h1]
    unfold push21i
    dsimp only
    constructor
    · linear_combination (-(rec21i xs ys c P.1 P.2).1) * j00 - (rec21i xs ys c P.1 P.2).2 * j10
    · linear_combination (-(rec21i xs ys c P.1 P.2).1) * j01 - (rec21i xs ys c P.1 P.2).2 * j11
  have h0 := comps (HasFDerivAt.comp_hasDerivAt (f := fun t => Φ t y) x hd hΦ.d0)
  have h1 := comps (HasFDerivAt.comp_hasDerivAt (f := fun t => Φ x t) y hd hΦ.d1)
  have k0 := (m00.mul h0.1).add (m10.mul h0.2)
  have k1 := (m01.mul h1.1).add (m11.mul h1.2)
  have u0 := (k0.congr_of_eventuallyEq ((near0 pull).mono fun t h => h.2)).unique g0
  have u1 := (k1.congr_of_eventuallyEq ((near1 pull).mono fun t h => h.1)).unique g1
  obtain ⟨l0, l1⟩ := lin2 D (J x y 0 0) (J x y 1 0)
  obtain ⟨l2, l3⟩ := lin2 D (J x y 0 1) (J x y 1 1)
  simp only [Function.comp_def, l0, l1, l2, l3] at u0 u1
  unfold push11
  rw [e]
  linear_combination (-((D (1, 0)).2 - (D (0, 1)).1)) * hD + iD * u0 - iD * u1

include hx hy px py in
/-- C47, outer 1-forms in 2d on an element: the divergence of the reconstructed field. -/
theorem div2_mapped (Φ : K → K → K × K) (J iJ : K → K → ℕ → ℕ → K) (hΦ : Maps2 Φ J iJ x y) (v : K × K → K × K)
    (D : K × K →L[K] K × K) (iD : K)
    (hv : ∀ᶠ P in 𝓝 (x, y), v (Φ P.1 P.2) = push21o (iJ P.1 P.2) (rec21o xs ys c P.1 P.2))
    (hd : HasFDerivAt v D (Φ x y)) (hD : iD * (J x y 0 0 * J x y 1 1 - J x y 0 1 * J x y 1 0) = 1) :
    (D (1, 0)).1 + (D (0, 1)).2 = push11 iD (rec22 xs ys (app (nd21 p q) (E21o p q) c) x y) := by
  obtain ⟨ux, wy, g0, g1, e⟩ := div2 hx hy px py c x y
  obtain ⟨s0, m00, m01⟩ := hΦ.mixed 0 (by omega)
  obtain ⟨s1, m10, m11⟩ := hΦ.mixed 1 (by omega)
  have pull : ∀ᶠ P in 𝓝 (x, y),
      (rec21o xs ys c P.1 P.2).1 = J P.1 P.2 1 1 * (v (Φ P.1 P.2)).1 - J P.1 P.2 0 1 * (v (Φ P.1 P.2)).2 ∧
      (rec21o xs ys c P.1 P.2).2 = J P.1 P.2 0 0 * (v (Φ P.1 P.2)).2 - J P.1 P.2 1 0 * (v (Φ P.1 P.2)).1 := by
    filter_upwards [hv, hΦ.left] with P h1 h2
    have j00 := h2 0 (by omega) 0 (by omega)
    have j01 := h2 0 (by omega) 1 (by omega)
    have j10 := h2 1 (by omega) 0 (by omega)
    have j11 := h2 1 (by omega) 1 (by omega)
    simp at j00 j01 j10 j11
    rw [h1]
    unfold push21o
    dsimp only
    constructor
    · linear_combination (-(rec21o xs ys c P.1 P.2).1) * j11 + (rec21o xs ys c P.1 P.2).2 * j01
    · linear_combination (rec21o xs ys c P.1 P.2).1 * j10 - (rec21o xs ys c P.1 P.2).2 * j00
  have h0 := comps (HasFDerivAt.comp_hasDerivAt (f := fun t => Φ t y) x hd hΦ.d0)
  have h1 := comps (HasFDerivAt.comp_hasDerivAt (f := fun t => Φ x t) y hd hΦ.d1)
  have k0 := (m10.mul h0.1).sub (m00.mul h0.2)
  have k1 := (m01.mul h1.2).sub (m11.mul h1.1)
  have u0 := (k0.congr_of_eventuallyEq ((near0 pull).mono fun t h => h.1)).unique g0
  have u1 := (k1.congr_of_eventuallyEq ((near1 pull).mono fun t h => h.2)).unique g1
  obtain ⟨l0, l1⟩ := lin2 D (J x y 0 0) (J x y 1 0)
  obtain ⟨l2, l3⟩ := lin2 D (J x y 0 1) (J x y 1 1)
  simp only [Function.comp_def, l0, l1, l2, l3] at u0 u1
  unfold push11
  rw [e]
  linear_combination (-((D (1, 0)).1 + (D (0, 1)).2)) * hD + iD * u0 + iD * u1

end two

section three

theorem lin3 (D : K × K × K →L[K] K × K × K) (a b d : K) :
    D (a, b, d) = (a * (D (1, 0, 0)).1 + b * (D (0, 1, 0)).1 + d * (D (0, 0, 1)).1,
      a * (D (1, 0, 0)).2.1 + b * (D (0, 1, 0)).2.1 + d * (D (0, 0, 1)).2.1,
      a * (D (1, 0, 0)).2.2 + b * (D (0, 1, 0)).2.2 + d * (D (0, 0, 1)).2.2) := by
  have : ((a, b, d) : K × K × K) = a • (1, 0, 0) + b • (0, 1, 0) + d • (0, 0, 1) := by simp
  rw [this, map_add, map_add, map_smul, map_smul, map_smul]
  simp [Prod.ext_iff]

theorem comps3 {f : K → K × K × K} {d : K × K × K} {x : K} (h : HasDerivAt f d x) :
    HasDerivAt (fun t => (f t).1) d.1 x ∧ HasDerivAt (fun t => (f t).2.1) d.2.1 x ∧
      HasDerivAt (fun t => (f t).2.2) d.2.2 x :=
  have h2 : HasDerivAt (fun t => (f t).2) d.2 x := (ContinuousLinearMap.snd K K (K × K)).hasFDerivAt.comp_hasDerivAt x h
  ⟨(ContinuousLinearMap.fst K K (K × K)).hasFDerivAt.comp_hasDerivAt x h, comps h2⟩

theorem inv_det3 {I J : ℕ → ℕ → K}
    (h : ∀ a < 3, ∀ b < 3, I a 0 * J 0 b + I a 1 * J 1 b + I a 2 * J 2 b = if a = b then 1 else 0) :
    det3 I * det3 J = 1 := by
  have e : (Matrix.of fun i j : Fin 3 => I i j) * (Matrix.of fun i j : Fin 3 => J i j) = 1 := by
    ext i j
    rw [Matrix.mul_apply, Fin.sum_univ_three, Matrix.one_apply]
    have := h i i.2 j j.2
    simp only [Matrix.of_apply, Fin.val_zero, Fin.val_one, Fin.val_two]
    rw [this]
    simp [Fin.ext_iff]
  have := congrArg Matrix.det e
  rw [Matrix.det_mul, Matrix.det_one, Matrix.det_fin_three, Matrix.det_fin_three] at this
  simp only [Matrix.of_apply, Fin.val_zero, Fin.val_one, Fin.val_two] at this
  unfold det3
  linear_combination this

/-- The Piola form of the transformation of 2-forms. -/
theorem push32_piola {I J : ℕ → ℕ → K}
    (h : ∀ a < 3, ∀ b < 3, I a 0 * J 0 b + I a 1 * J 1 b + I a 2 * J 2 b = if a = b then 1 else 0) (u : K × K × K) :
    push32 I u = (det3 I * (J 0 0 * u.1 + J 0 1 * u.2.1 + J 0 2 * u.2.2),
      det3 I * (J 1 0 * u.1 + J 1 1 * u.2.1 + J 1 2 * u.2.2),
      det3 I * (J 2 0 * u.1 + J 2 1 * u.2.1 + J 2 2 * u.2.2)) := by
  have h00 := h 0 (by omega) 0 (by omega)
  have h01 := h 0 (by omega) 1 (by omega)
  have h02 := h 0 (by omega) 2 (by omega)
  have h10 := h 1 (by omega) 0 (by omega)
  have h11 := h 1 (by omega) 1 (by omega)
  have h12 := h 1 (by omega) 2 (by omega)
  have h20 := h 2 (by omega) 0 (by omega)
  have h21 := h 2 (by omega) 1 (by omega)
  have h22 := h 2 (by omega) 2 (by omega)
  simp at h00 h01 h02 h10 h11 h12 h20 h21 h22
  unfold push32 det3
  refine Prod.ext ?_ (Prod.ext ?_ ?_) <;> dsimp only
  · linear_combination (-u.1) * ((I 1 1 * I 2 2 - I 1 2 * I 2 1) * h00 + (I 2 1 * I 0 2 - I 2 2 * I 0 1) * h10 + (I 0 1 * I 1 2 - I 0 2 * I 1 1) * h20) - u.2.1 * ((I 1 1 * I 2 2 - I 1 2 * I 2 1) * h01 + (I 2 1 * I 0 2 - I 2 2 * I 0 1) * h11 + (I 0 1 * I 1 2 - I 0 2 * I 1 1) * h21) - u.2.2 * ((I 1 1 * I 2 2 - I 1 2 * I 2 1) * h02 + (I 2 1 * I 0 2 - I 2 2 * I 0 1) * h12 + (I 0 1 * I 1 2 - I 0 2 * I 1 1) * h22)
  · linear_combination (-u.1) * ((I 1 2 * I 2 0 - I 1 0 * I 2 2) * h00 + (I 2 2 * I 0 0 - I 2 0 * I 0 2) * h10 + (I 0 2 * I 1 0 - I 0 0 * I 1 2) * h20) - u.2.1 * ((I 1 2 * I 2 0 - I 1 0 * I 2 2) * h01 + (I 2 2 * I 0 0 - I 2 0 * I 0 2) * h11 + (I 0 2 * I 1 0 - I 0 0 * I 1 2) * h21) - u.2.2 * ((I 1 2 * I 2 0 - I 1 0 * I 2 2) * h02 + (I 2 2 * I 0 0 - I 2 0 * I 0 2) * h12 + (I 0 2 * I 1 0 - I 0 0 * I 1 2) * h22)
  · linear_combination (-u.1) * ((I 1 0 * I 2 1 - I 1 1 * I 2 0) * h00 + (I 2 0 * I 0 1 - I 2 1 * I 0 0) * h10 + (I 0 0 * I 1 1 - I 0 1 * I 1 0) * h20) - u.2.1 * ((I 1 0 * I 2 1 - I 1 1 * I 2 0) * h01 + (I 2 0 * I 0 1 - I 2 1 * I 0 0) * h11 + (I 0 0 * I 1 1 - I 0 1 * I 1 0) * h21) - u.2.2 * ((I 1 0 * I 2 1 - I 1 1 * I 2 0) * h02 + (I 2 0 * I 0 1 - I 2 1 * I 0 0) * h12 + (I 0 0 * I 1 1 - I 0 1 * I 1 0) * h22)

theorem push32_push32 {I J : ℕ → ℕ → K}
    (h : ∀ a < 3, ∀ b < 3, I a 0 * J 0 b + I a 1 * J 1 b + I a 2 * J 2 b = if a = b then 1 else 0) (u : K × K × K) :
    push32 I (push32 J u) = u ∧ push32 J (push32 I u) = u := by
  have hd := inv_det3 h
  constructor
  · rw [push32_piola h]
    refine Prod.ext ?_ (Prod.ext ?_ ?_) <;> dsimp only [push32] <;> unfold det3 at hd ⊢
    · linear_combination u.1 * hd
    · linear_combination u.2.1 * hd
    · linear_combination u.2.2 * hd
  · rw [push32_piola h]
    refine Prod.ext ?_ (Prod.ext ?_ ?_) <;> dsimp only [push32] <;> unfold det3 at hd ⊢
    · linear_combination u.1 * hd
    · linear_combination u.2.1 * hd
    · linear_combination u.2.2 * hd

variable {xs ys zs : List K} (hx : xs.Nodup) (hy : ys.Nodup) (hz : zs.Nodup) {p q r : ℕ}
  (px : xs.length = p + 1) (py : ys.length = q + 1) (pz : zs.length = r + 1) (c : ℕ → K) (x y z : K)

include hx hy hz px py pz in
/-- C47, 1-forms in 3d on an element: the curl of the reconstructed field is the reconstruction of the incidence matrix applied
to the cochain. -/
theorem curl3_mapped (Φ : K → K → K → K × K × K) (J iJ : K → K → K → ℕ → ℕ → K) (hΦ : Maps3 Φ J iJ x y z)
    (v : K × K × K → K × K × K) (D : K × K × K →L[K] K × K × K)
    (hv : ∀ᶠ P in 𝓝 (x, y, z), v (Φ P.1 P.2.1 P.2.2) =
      push31 (iJ P.1 P.2.1 P.2.2) (rec31 xs ys zs c P.1 P.2.1 P.2.2))
    (hd : HasFDerivAt v D (Φ x y z)) :
    ((D (0, 1, 0)).2.2 - (D (0, 0, 1)).2.1, (D (0, 0, 1)).1 - (D (1, 0, 0)).2.2,
      (D (1, 0, 0)).2.1 - (D (0, 1, 0)).1) =
      push32 (iJ x y z) (rec32 xs ys zs (app (nd31 p q r) (E31 p q r) c) x y z) := by
  obtain ⟨wy, vz, uz, wx, vx, uy, g0, g1, g2, g3, g4, g5, e⟩ := curl3 hx hy hz px py pz c x y z
  obtain ⟨a0, m00, m01⟩ := hΦ.mixed01 0 (by omega)
  obtain ⟨a1, m10, m11⟩ := hΦ.mixed01 1 (by omega)
  obtain ⟨a2, m20, m21⟩ := hΦ.mixed01 2 (by omega)
  obtain ⟨b0, n00, n01⟩ := hΦ.mixed02 0 (by omega)
  obtain ⟨b1, n10, n11⟩ := hΦ.mixed02 1 (by omega)
  obtain ⟨b2, n20, n21⟩ := hΦ.mixed02 2 (by omega)
  obtain ⟨d0, o00, o01⟩ := hΦ.mixed12 0 (by omega)
  obtain ⟨d1, o10, o11⟩ := hΦ.mixed12 1 (by omega)
  obtain ⟨d2, o20, o21⟩ := hΦ.mixed12 2 (by omega)
  have pull : ∀ᶠ P in 𝓝 (x, y, z),
      (rec31 xs ys zs c P.1 P.2.1 P.2.2).1 = J P.1 P.2.1 P.2.2 0 0 * (v (Φ P.1 P.2.1 P.2.2)).1 +
        J P.1 P.2.1 P.2.2 1 0 * (v (Φ P.1 P.2.1 P.2.2)).2.1 + J P.1 P.2.1 P.2.2 2 0 * (v (Φ P.1 P.2.1 P.2.2)).2.2 ∧
      (rec31 xs ys zs c P.1 P.2.1 P.2.2).2.1 = J P.1 P.2.1 P.2.2 0 1 * (v (Φ P.1 P.2.1 P.2.2)).1 +
        J P.1 P.2.1 P.2.2 1 1 * (v (Φ P.1 P.2.1 P.2.2)).2.1 + J P.1 P.2.1 P.2.2 2 1 * (v (Φ P.1 P.2.1 P.2.2)).2.2 ∧
      (rec31 xs ys zs c P.1 P.2.1 P.2.2).2.2 = J P.1 P.2.1 P.2.2 0 2 * (v (Φ P.1 P.2.1 P.2.2)).1 +
        J P.1 P.2.1 P.2.2 1 2 * (v (Φ P.1 P.2.1 P.2.2)).2.1 + J P.1 P.2.1 P.2.2 2 2 * (v (Φ P.1 P.2.1 P.2.2)).2.2 := by
    filter_upwards [hv, hΦ.left] with P h1 h
    have h00 := h 0 (by omega) 0 (by omega)
    have h01 := h 0 (by omega) 1 (by omega)
    have h02 := h 0 (by omega) 2 (by omega)
    have h10 := h 1 (by omega) 0 (by omega)
    have h11 := h 1 (by omega) 1 (by omega)
    have h12 := h 1 (by omega) 2 (by omega)
    have h20 := h 2 (by omega) 0 (by omega)
    have h21 := h 2 (by omega) 1 (by omega)
    have h22 := h 2 (by omega) 2 (by omega)
    simp at h00 h01 h02 h10 h11 h12 h20 h21 h22
    rw [h1]
    generalize rec31 xs ys zs c P.1 P.2.1 P.2.2 = u
    unfold push31
    dsimp only
    refine ⟨?_, ?_, ?_⟩
    · linear_combination (-u.1) * h00 - u.2.1 * h10 - u.2.2 * h20
    · linear_combination (-u.1) * h01 - u.2.1 * h11 - u.2.2 * h21
    · linear_combination (-u.1) * h02 - u.2.1 * h12 - u.2.2 * h22
  obtain ⟨x0, x1, x2⟩ := comps3 (HasFDerivAt.comp_hasDerivAt (f := fun t => Φ t y z) x hd hΦ.d0)
  obtain ⟨y0, y1, y2⟩ := comps3 (HasFDerivAt.comp_hasDerivAt (f := fun t => Φ x t z) y hd hΦ.d1)
  obtain ⟨z0, z1, z2⟩ := comps3 (HasFDerivAt.comp_hasDerivAt (f := fun t => Φ x y t) z hd hΦ.d2)
  have px' := near0 pull
  have py' := near0 (near1 pull)
  have pz' := near1 (near1 pull)
  have k0 := (((o00.mul y0).add (o10.mul y1)).add (o20.mul y2)).congr_of_eventuallyEq (py'.mono fun t h => h.2.2)
  have k1 := (((o01.mul z0).add (o11.mul z1)).add (o21.mul z2)).congr_of_eventuallyEq (pz'.mono fun t h => h.2.1)
  have k2 := (((n01.mul z0).add (n11.mul z1)).add (n21.mul z2)).congr_of_eventuallyEq (pz'.mono fun t h => h.1)
  have k3 := (((n00.mul x0).add (n10.mul x1)).add (n20.mul x2)).congr_of_eventuallyEq (px'.mono fun t h => h.2.2)
  have k4 := (((m00.mul x0).add (m10.mul x1)).add (m20.mul x2)).congr_of_eventuallyEq (px'.mono fun t h => h.2.1)
  have k5 := (((m01.mul y0).add (m11.mul y1)).add (m21.mul y2)).congr_of_eventuallyEq (py'.mono fun t h => h.1)
  have u0 := k0.unique g0
  have u1 := k1.unique g1
  have u2 := k2.unique g2
  have u3 := k3.unique g3
  have u4 := k4.unique g4
  have u5 := k5.unique g5
  rw [lin3] at u0 u1 u2 u3 u4 u5
  simp only [Function.comp_def] at u0 u1 u2 u3 u4 u5
  have hi := hΦ.left.self_of_nhds
  rw [e, ← (push32_push32 hi (_, _, _)).1]
  congr 1
  unfold push32
  refine Prod.ext ?_ (Prod.ext ?_ ?_) <;> dsimp only
  · linear_combination u0 - u1
  · linear_combination u2 - u3
  · linear_combination u4 - u5

include hx hy hz px py pz in
/-- C47, 2-forms in 3d on an element: the divergence of the reconstructed field. -/
theorem div3_mapped (Φ : K → K → K → K × K × K) (J iJ : K → K → K → ℕ → ℕ → K) (hΦ : Maps3 Φ J iJ x y z)
    (v : K × K × K → K × K × K) (D : K × K × K →L[K] K × K × K) (iD : K)
    (hv : ∀ᶠ P in 𝓝 (x, y, z), v (Φ P.1 P.2.1 P.2.2) =
      push32 (iJ P.1 P.2.1 P.2.2) (rec32 xs ys zs c P.1 P.2.1 P.2.2))
    (hd : HasFDerivAt v D (Φ x y z)) (hD : iD * det3 (J x y z) = 1) :
    (D (1, 0, 0)).1 + (D (0, 1, 0)).2.1 + (D (0, 0, 1)).2.2 =
      push11 iD (rec33 xs ys zs (app (nd32 p q r) (E32 p q r) c) x y z) := by
  obtain ⟨ux, vy, wz, g0, g1, g2, e⟩ := div3 hx hy hz px py pz c x y z
  obtain ⟨a0, m00, m01⟩ := hΦ.mixed01 0 (by omega)
  obtain ⟨a1, m10, m11⟩ := hΦ.mixed01 1 (by omega)
  obtain ⟨a2, m20, m21⟩ := hΦ.mixed01 2 (by omega)
  obtain ⟨b0, n00, n01⟩ := hΦ.mixed02 0 (by omega)
  obtain ⟨b1, n10, n11⟩ := hΦ.mixed02 1 (by omega)
  obtain ⟨b2, n20, n21⟩ := hΦ.mixed02 2 (by omega)
  obtain ⟨d0, o00, o01⟩ := hΦ.mixed12 0 (by omega)
  obtain ⟨d1, o10, o11⟩ := hΦ.mixed12 1 (by omega)
  obtain ⟨d2, o20, o21⟩ := hΦ.mixed12 2 (by omega)
  have pull : ∀ᶠ P in 𝓝 (x, y, z),
      rec32 xs ys zs c P.1 P.2.1 P.2.2 = push32 (J P.1 P.2.1 P.2.2) (v (Φ P.1 P.2.1 P.2.2)) := by
    filter_upwards [hv, hΦ.left] with P h1 h
    rw [h1, (push32_push32 h _).2]
  obtain ⟨x0, x1, x2⟩ := comps3 (HasFDerivAt.comp_hasDerivAt (f := fun t => Φ t y z) x hd hΦ.d0)
  obtain ⟨y0, y1, y2⟩ := comps3 (HasFDerivAt.comp_hasDerivAt (f := fun t => Φ x t z) y hd hΦ.d1)
  obtain ⟨z0, z1, z2⟩ := comps3 (HasFDerivAt.comp_hasDerivAt (f := fun t => Φ x y t) z hd hΦ.d2)
  have k0 := (((x0.mul ((m10.mul n20).sub (n10.mul m20))).add (x1.mul ((m20.mul n00).sub (n20.mul m00)))).add
    (x2.mul ((m00.mul n10).sub (n00.mul m10)))).congr_of_eventuallyEq
    ((near0 pull).mono fun t h => congrArg Prod.fst h)
  have k1 := (((y0.mul ((o10.mul m21).sub (m11.mul o20))).add (y1.mul ((o20.mul m01).sub (m21.mul o00)))).add
    (y2.mul ((o00.mul m11).sub (m01.mul o10)))).congr_of_eventuallyEq
    ((near0 (near1 pull)).mono fun t h => congrArg (fun w => w.2.1) h)
  have k2 := (((z0.mul ((n11.mul o21).sub (o11.mul n21))).add (z1.mul ((n21.mul o01).sub (o21.mul n01)))).add
    (z2.mul ((n01.mul o11).sub (o01.mul n11)))).congr_of_eventuallyEq
    ((near1 (near1 pull)).mono fun t h => congrArg (fun w => w.2.2) h)
  have u0 := k0.unique g0
  have u1 := k1.unique g1
  have u2 := k2.unique g2
  rw [lin3] at u0 u1 u2
  simp only [Function.comp_def, Pi.mul_apply, Pi.sub_apply] at u0 u1 u2
  unfold push11
  rw [e]
  unfold det3 at hD
  linear_combination (-((D (1, 0, 0)).1 + (D (0, 1, 0)).2.1 + (D (0, 0, 1)).2.2)) * hD + iD * u0 + iD * u1 + iD * u2

end three

/-! The hypotheses are met by curved elements: `(s, t) ↦ (s + t², t)` and `(s, t, u) ↦ (s + t u, t, u)`. -/

def bend2 (s t : ℝ) : ℝ × ℝ := (s + t ^ 2, t)

def bendJ (_ t : ℝ) (i a : ℕ) : ℝ := if i = a then 1 else if i = 0 then 2 * t else 0

def bendI (_ t : ℝ) (i a : ℕ) : ℝ := if i = a then 1 else if i = 0 then -(2 * t) else 0

theorem bend2_maps (x y : ℝ) : Maps2 bend2 bendJ bendI x y where
  d0 := by
    have := ((hasDerivAt_id x).add_const (y ^ 2)).prodMk (hasDerivAt_const x y)
    simpa [bend2, bendJ] using this
  d1 := by
    have := (((hasDerivAt_id y).pow 2).const_add x).prodMk (hasDerivAt_id y)
    simpa [bend2, bendJ] using this
  left := by
    refine Filter.Eventually.of_forall fun P a ha b hb => ?_
    interval_cases a <;> interval_cases b <;> simp [bendJ, bendI]
  right := by
    intro a ha b hb
    interval_cases a <;> interval_cases b <;> simp [bendJ, bendI]
  mixed := by
    intro i hi
    refine ⟨0, ?_, ?_⟩ <;> interval_cases i <;> simp [bendJ, hasDerivAt_const]

def bend3 (s t u : ℝ) : ℝ × ℝ × ℝ := (s + t * u, t, u)

def bendJ3 (_ t u : ℝ) (i a : ℕ) : ℝ := if i = a then 1 else if i = 0 then (if a = 1 then u else t) else 0

def bendI3 (_ t u : ℝ) (i a : ℕ) : ℝ := if i = a then 1 else if i = 0 then (if a = 1 then -u else -t) else 0

theorem bend3_maps (x y z : ℝ) : Maps3 bend3 bendJ3 bendI3 x y z where
  d0 := by
    have := ((hasDerivAt_id x).add_const (y * z)).prodMk ((hasDerivAt_const x y).prodMk (hasDerivAt_const x z))
    simpa [bend3, bendJ3] using this
  d1 := by
    have := (((hasDerivAt_id y).mul_const z).const_add x).prodMk ((hasDerivAt_id y).prodMk (hasDerivAt_const y z))
    simpa [bend3, bendJ3] using this
  d2 := by
    have := (((hasDerivAt_id z).const_mul y).const_add x).prodMk ((hasDerivAt_const z y).prodMk (hasDerivAt_id z))
    simpa [bend3, bendJ3] using this
  left := by
    refine Filter.Eventually.of_forall fun P a ha b hb => ?_
    interval_cases a <;> interval_cases b <;> simp [bendJ3, bendI3]
  mixed01 := by
    intro i hi
    refine ⟨0, ?_, ?_⟩ <;> interval_cases i <;> simp [bendJ3, hasDerivAt_const]
  mixed02 := by
    intro i hi
    refine ⟨0, ?_, ?_⟩ <;> interval_cases i <;> simp [bendJ3, hasDerivAt_const]
  mixed12 := by
    intro i hi
    refine ⟨if i = 0 then 1 else 0, ?_, ?_⟩ <;> interval_cases i <;> simp [bendJ3, hasDerivAt_const, hasDerivAt_id']

/-- The linear form with the values `0` and `4` on the edges in direction `x` is, on the curved element, the field
`(1 + Y, -2 Y (1 + Y))`, which is differentiable; its rotation is `-1`. -/
example (s t : ℝ) :
    ((1 + t, -2 * t * (1 + t)) : ℝ × ℝ) =
      push21i (bendI s t) (rec21i [-1, 1] [-1, 1] (fun i => if i = 1 then 4 else 0) s t) := by
  simp [push21i, rec21i, bendI, dot, kron, nodes, edges, lagrange, edge, dpoly, dmat, off, cw, node, n21i,
    List.range_succ]
  constructor <;> ring

end Phyem.Poly
