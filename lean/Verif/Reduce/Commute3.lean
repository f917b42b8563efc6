import Verif.Reduce.Commute2
import Mathlib.Analysis.Calculus.Deriv.Comp

/-! Reduction commutes with the differential operators in three dimensions and in one, up to the errors of the quadrature. -/

namespace Phyem.Reduce

open Set Numbering Incidence Poly

section
variable {Φ : ℝ → ℝ → ℝ → ℝ × ℝ × ℝ} {J : ℝ → ℝ → ℝ → ℕ → ℕ → ℝ} {f : ℝ × ℝ × ℝ → ℝ} {v : ℝ × ℝ × ℝ → ℝ × ℝ × ℝ} {p q r : ℕ}
  {xs ys zs qx wx qy wy qz wz : List ℝ}

lemma dx3 (y z t : ℝ) : HasDerivAt (fun t : ℝ => (t, y, z)) (1, 0, 0) t := (hasDerivAt_id t).prodMk (hasDerivAt_const t (y, z))
lemma dy3 (x z t : ℝ) : HasDerivAt (fun t : ℝ => (x, t, z)) (0, 1, 0) t :=
  (hasDerivAt_const t x).prodMk ((hasDerivAt_id t).prodMk (hasDerivAt_const t z))
lemma dz3 (x y t : ℝ) : HasDerivAt (fun t : ℝ => (x, y, t)) (0, 0, 1) t :=
  (hasDerivAt_const t x).prodMk ((hasDerivAt_const t y).prodMk (hasDerivAt_id t))

/-- **C116, what the numbers of 1-forms in space are**: the circulations along the edges of the grid. -/
theorem reduce31 (hE : Elem3 Φ J) (hx : Nodes p xs) (hy : Nodes q ys) (hz : Nodes r zs) (hqx : ∀ t ∈ qx, t ∈ I)
    (hqy : ∀ t ∈ qy, t ∈ I) (hqz : ∀ t ∈ qz, t ∈ I) (v : ℝ × ℝ × ℝ → ℝ × ℝ × ℝ) :
    (red31 Φ J v p q r xs ys zs qx wx qy wy qz wz).length = nd31 p q r ∧
    (∀ i j k, i < p → j < q + 1 → k < r + 1 →
      dof (red31 Φ J v p q r xs ys zs qx wx qy wy qz wz) (snum (ln31 p q r) (0, i, j, k)) =
        rule qx wx (fun x => dot3 (v (Φ x (node ys j) (node zs k))) (tan3 Φ x (node ys j) (node zs k) (1, 0, 0)))
          (node xs i) (node xs (i + 1))) ∧
    (∀ i j k, i < p + 1 → j < q → k < r + 1 →
      dof (red31 Φ J v p q r xs ys zs qx wx qy wy qz wz) (snum (ln31 p q r) (1, i, j, k)) =
        rule qy wy (fun y => dot3 (v (Φ (node xs i) y (node zs k))) (tan3 Φ (node xs i) y (node zs k) (0, 1, 0)))
          (node ys j) (node ys (j + 1))) ∧
    (∀ i j k, i < p + 1 → j < q + 1 → k < r →
      dof (red31 Φ J v p q r xs ys zs qx wx qy wy qz wz) (snum (ln31 p q r) (2, i, j, k)) =
        rule qz wz (fun z => dot3 (v (Φ (node xs i) (node ys j) z)) (tan3 Φ (node xs i) (node ys j) z (0, 0, 1)))
          (node zs k) (node zs (k + 1))) := by
  refine ⟨red31_length hx.len hy.len hz.len Φ J v qx wx qy wy qz wz, fun i j k hi hj hk => ?_, fun i j k hi hj hk => ?_,
    fun i j k hi hj hk => ?_⟩
  · rw [red31_at0 hx.len hy.len hz.len Φ J v qx wx qy wy qz wz hi hj hk]
    refine rule_congr hqx (fun x hxI => ?_) (node_in hx (by omega)) (node_in hx (by omega))
    rw [tan3, (hE.jac x hxI _ (node_in hy hj) _ (node_in hz hk)).1, dot3, column]
    ring
  · rw [red31_at1 hx.len hy.len hz.len Φ J v qx wx qy wy qz wz hi hj hk]
    refine rule_congr hqy (fun y hyI => ?_) (node_in hy (by omega)) (node_in hy (by omega))
    rw [tan3, (hE.jac _ (node_in hx hi) y hyI _ (node_in hz hk)).2.1, dot3, column]
    ring
  · rw [red31_at2 hx.len hy.len hz.len Φ J v qx wx qy wy qz wz hi hj hk]
    refine rule_congr hqz (fun z hzI => ?_) (node_in hz (by omega)) (node_in hz (by omega))
    rw [tan3, (hE.jac _ (node_in hx hi) _ (node_in hy hj) z hzI).2.2, dot3, column]
    ring

/-- **C116, what the numbers of 2-forms in space are**: the fluxes through the faces of the grid. -/
theorem reduce32 (hE : Elem3 Φ J) (hx : Nodes p xs) (hy : Nodes q ys) (hz : Nodes r zs) (hqx : ∀ t ∈ qx, t ∈ I)
    (hqy : ∀ t ∈ qy, t ∈ I) (hqz : ∀ t ∈ qz, t ∈ I) (v : ℝ × ℝ × ℝ → ℝ × ℝ × ℝ) :
    (red32 Φ J v p q r xs ys zs qx wx qy wy qz wz).length = nd32 p q r ∧
    (∀ i j k, i < p + 1 → j < q → k < r →
      dof (red32 Φ J v p q r xs ys zs qx wx qy wy qz wz) (snum (ln32 p q r) (0, i, j, k)) =
        rule2 qy wy qz wz (fun y z => dot3 (v (Φ (node xs i) y z))
          (cross3 (tan3 Φ (node xs i) y z (0, 1, 0)) (tan3 Φ (node xs i) y z (0, 0, 1))))
          (node ys j) (node ys (j + 1)) (node zs k) (node zs (k + 1))) ∧
    (∀ i j k, i < p → j < q + 1 → k < r →
      dof (red32 Φ J v p q r xs ys zs qx wx qy wy qz wz) (snum (ln32 p q r) (1, i, j, k)) =
        rule2 qx wx qz wz (fun x z => dot3 (v (Φ x (node ys j) z))
          (cross3 (tan3 Φ x (node ys j) z (0, 0, 1)) (tan3 Φ x (node ys j) z (1, 0, 0))))
          (node xs i) (node xs (i + 1)) (node zs k) (node zs (k + 1))) ∧
    (∀ i j k, i < p → j < q → k < r + 1 →
      dof (red32 Φ J v p q r xs ys zs qx wx qy wy qz wz) (snum (ln32 p q r) (2, i, j, k)) =
        rule2 qx wx qy wy (fun x y => dot3 (v (Φ x y (node zs k)))
          (cross3 (tan3 Φ x y (node zs k) (1, 0, 0)) (tan3 Φ x y (node zs k) (0, 1, 0))))
          (node xs i) (node xs (i + 1)) (node ys j) (node ys (j + 1))) := by
  refine ⟨red32_length Φ J v qx wx qy wy qz wz, fun i j k hi hj hk => ?_, fun i j k hi hj hk => ?_, fun i j k hi hj hk => ?_⟩
  · rw [red32_at0 Φ J v qx wx qy wy qz wz hi hj hk]
    refine rule2_congr hqy hqz (fun y hyI z hzI => ?_) (node_in hy (by omega)) (node_in hy (by omega)) (node_in hz (by omega))
      (node_in hz (by omega))
    obtain ⟨j0, j1, j2⟩ := hE.jac _ (node_in hx hi) y hyI z hzI
    rw [tan3, tan3, j1, j2, dot3, cross3, faceX]
    ring
  · rw [red32_at1 Φ J v qx wx qy wy qz wz hi hj hk]
    refine rule2_congr hqx hqz (fun x hxI z hzI => ?_) (node_in hx (by omega)) (node_in hx (by omega)) (node_in hz (by omega))
      (node_in hz (by omega))
    obtain ⟨j0, j1, j2⟩ := hE.jac x hxI _ (node_in hy hj) z hzI
    rw [tan3, tan3, j0, j2, dot3, cross3, faceY]
    ring
  · rw [red32_at2 Φ J v qx wx qy wy qz wz hi hj hk]
    refine rule2_congr hqx hqy (fun x hxI y hyI => ?_) (node_in hx (by omega)) (node_in hx (by omega)) (node_in hy (by omega))
      (node_in hy (by omega))
    obtain ⟨j0, j1, j2⟩ := hE.jac x hxI y hyI _ (node_in hz hk)
    rw [tan3, tan3, j0, j1, dot3, cross3, faceZ]
    ring

/-- **C116, what the numbers of 3-forms are**: the integrals over the cells of the grid. -/
theorem reduce33 (hE : Elem3 Φ J) (hx : Nodes p xs) (hy : Nodes q ys) (hz : Nodes r zs) (hqx : ∀ t ∈ qx, t ∈ I)
    (hqy : ∀ t ∈ qy, t ∈ I) (hqz : ∀ t ∈ qz, t ∈ I) (f : ℝ × ℝ × ℝ → ℝ) :
    (red33 Φ J f p q r xs ys zs qx wx qy wy qz wz).length = nd33 p q r ∧
    ∀ i j k, i < p → j < q → k < r →
      dof (red33 Φ J f p q r xs ys zs qx wx qy wy qz wz) (snum (ln33 p q r) (0, i, j, k)) =
        rule3 qx wx qy wy qz wz (fun x y z => f (Φ x y z) *
          dot3 (tan3 Φ x y z (1, 0, 0)) (cross3 (tan3 Φ x y z (0, 1, 0)) (tan3 Φ x y z (0, 0, 1))))
          (node xs i) (node xs (i + 1)) (node ys j) (node ys (j + 1)) (node zs k) (node zs (k + 1)) := by
  refine ⟨red33_length Φ J f qx wx qy wy qz wz, fun i j k hi hj hk => ?_⟩
  rw [red33_at Φ J f qx wx qy wy qz wz hi hj hk]
  refine rule3_congr hqx hqy hqz (fun x hxI y hyI z hzI => ?_) (node_in hx (by omega)) (node_in hx (by omega))
    (node_in hy (by omega)) (node_in hy (by omega)) (node_in hz (by omega)) (node_in hz (by omega))
  obtain ⟨j0, j1, j2⟩ := hE.jac x hxI y hyI z hzI
  rw [tan3, tan3, tan3, j0, j1, j2, dot3, cross3, jac3]
  ring

/-- **C116, gradient in space**. -/
theorem grad3_commutes (hE : Elem3 Φ J) (hf : SmoothOn3 Φ f) (hx : Nodes p xs) (hy : Nodes q ys) (hz : Nodes r zs)
    (hqx : ∀ t ∈ qx, t ∈ I) (hqy : ∀ t ∈ qy, t ∈ I) (hqz : ∀ t ∈ qz, t ∈ I) {ε : ℝ}
    (e0 : ∀ i < p, ∀ j < q + 1, ∀ k < r + 1, err qx wx
      (fun x => dot3 (grad3 f (Φ x (node ys j) (node zs k))) (tan3 Φ x (node ys j) (node zs k) (1, 0, 0)))
      (node xs i) (node xs (i + 1)) ≤ ε)
    (e1 : ∀ i < p + 1, ∀ j < q, ∀ k < r + 1, err qy wy
      (fun y => dot3 (grad3 f (Φ (node xs i) y (node zs k))) (tan3 Φ (node xs i) y (node zs k) (0, 1, 0)))
      (node ys j) (node ys (j + 1)) ≤ ε)
    (e2 : ∀ i < p + 1, ∀ j < q + 1, ∀ k < r, err qz wz
      (fun z => dot3 (grad3 f (Φ (node xs i) (node ys j) z)) (tan3 Φ (node xs i) (node ys j) z (0, 0, 1)))
      (node zs k) (node zs (k + 1)) ≤ ε) :
    ∀ m < nd31 p q r, |dof (red31 Φ J (grad3 f) p q r xs ys zs qx wx qy wy qz wz) m -
      app (nd30 p q r) (E30 p q r) (dof (red30 Φ f xs ys zs)) m| ≤ ε := by
  intro m hm
  obtain ⟨t, d, i, j, k, hd, ⟨hi, hj, hk⟩, rfl⟩ := Stacked.exists_snum (st31 p q r) hm
  obtain ⟨_, r0, r1, r2⟩ := reduce31 (wx := wx) (wy := wy) (wz := wz) hE hx hy hz hqx hqy hqz (grad3 f)
  obtain ⟨g0, g1, g2⟩ := grad3_differences p q r (dof (red30 Φ f xs ys zs))
  have sm : ∀ x ∈ I, ∀ y ∈ I, ∀ z ∈ I, ContDiffAt ℝ 1 (fun P : ℝ × ℝ × ℝ => f (Φ P.1 P.2.1 P.2.2)) (x, y, z) :=
    fun x hx y hy z hz => pull_smooth (hE.smooth x hx y hy z hz) (hf x hx y hy z hz)
  have pl : ∀ x ∈ I, ∀ y ∈ I, ∀ z ∈ I, ∀ a, fderiv ℝ (fun P : ℝ × ℝ × ℝ => f (Φ P.1 P.2.1 P.2.2)) (x, y, z) a =
      dot3 (grad3 f (Φ x y z)) (tan3 Φ x y z a) :=
    fun x hx y hy z hz a => grad3_pull (hE.smooth x hx y hy z hz) (hf x hx y hy z hz) a
  rcases t with _ | _ | _ | t <;> simp [ln31] at hd <;> subst hd <;> simp only at hi hj hk
  · change |dof _ (snum (ln31 p q r) (0, i, j, k)) - app _ _ _ (snum (ln31 p q r) (0, i, j, k))| ≤ ε
    rw [r0 i j k hi hj hk, g0 i j k hi hj hk, red30_at hx.len hy.len hz.len Φ f (by omega) hj hk,
      red30_at hx.len hy.len hz.len Φ f (by omega) hj hk]
    have hI : ∀ t ∈ uIcc (node xs i) (node xs (i + 1)), t ∈ I := fun t ht =>
      sub_I (node_in hx (by omega)) (node_in hx (by omega)) ht
    have := ftc (A := fun P : ℝ × ℝ × ℝ => f (Φ P.1 P.2.1 P.2.2)) (γ := fun t => (t, node ys j, node zs k)) (dx3 _ _)
      (a := node xs i) (b := node xs (i + 1)) fun t ht => sm t (hI t ht) _ (node_in hy hj) _ (node_in hz hk)
    rw [← this]
    refine le_of_eq_of_le ?_ (e0 i hi j hj k hk)
    unfold err
    congr 2
    exact intervalIntegral.integral_congr fun t ht => pl t (hI t ht) _ (node_in hy hj) _ (node_in hz hk) _
  · change |dof _ (snum (ln31 p q r) (1, i, j, k)) - app _ _ _ (snum (ln31 p q r) (1, i, j, k))| ≤ ε
    rw [r1 i j k hi hj hk, g1 i j k hi hj hk, red30_at hx.len hy.len hz.len Φ f hi (by omega) hk,
      red30_at hx.len hy.len hz.len Φ f hi (by omega) hk]
    have hI : ∀ t ∈ uIcc (node ys j) (node ys (j + 1)), t ∈ I := fun t ht =>
      sub_I (node_in hy (by omega)) (node_in hy (by omega)) ht
    have := ftc (A := fun P : ℝ × ℝ × ℝ => f (Φ P.1 P.2.1 P.2.2)) (γ := fun t => (node xs i, t, node zs k)) (dy3 _ _)
      (a := node ys j) (b := node ys (j + 1)) fun t ht => sm _ (node_in hx hi) t (hI t ht) _ (node_in hz hk)
    rw [← this]
    refine le_of_eq_of_le ?_ (e1 i hi j hj k hk)
    unfold err
    congr 2
    exact intervalIntegral.integral_congr fun t ht => pl _ (node_in hx hi) t (hI t ht) _ (node_in hz hk) _
  · change |dof _ (snum (ln31 p q r) (2, i, j, k)) - app _ _ _ (snum (ln31 p q r) (2, i, j, k))| ≤ ε
    rw [r2 i j k hi hj hk, g2 i j k hi hj hk, red30_at hx.len hy.len hz.len Φ f hi hj (by omega),
      red30_at hx.len hy.len hz.len Φ f hi hj (by omega)]
    have hI : ∀ t ∈ uIcc (node zs k) (node zs (k + 1)), t ∈ I := fun t ht =>
      sub_I (node_in hz (by omega)) (node_in hz (by omega)) ht
    have := ftc (A := fun P : ℝ × ℝ × ℝ => f (Φ P.1 P.2.1 P.2.2)) (γ := fun t => (node xs i, node ys j, t)) (dz3 _ _)
      (a := node zs k) (b := node zs (k + 1)) fun t ht => sm _ (node_in hx hi) _ (node_in hy hj) t (hI t ht)
    rw [← this]
    refine le_of_eq_of_le ?_ (e2 i hi j hj k hk)
    unfold err
    congr 2
    exact intervalIntegral.integral_congr fun t ht => pl _ (node_in hx hi) _ (node_in hy hj) t (hI t ht) _

/-- **C116, curl in space**: the reduction of the curl is the incidence matrix applied to the reduction of the field, up to the
errors of the quadrature on the edges (`ε`) and on the faces (`δ`). -/
theorem curl3_commutes (hE : Elem3 Φ J) (hv : SmoothOn3 Φ v) (hx : Nodes p xs) (hy : Nodes q ys) (hz : Nodes r zs)
    (hqx : ∀ t ∈ qx, t ∈ I) (hqy : ∀ t ∈ qy, t ∈ I) (hqz : ∀ t ∈ qz, t ∈ I) {ε δ : ℝ}
    (e0 : ∀ i < p, ∀ j < q + 1, ∀ k < r + 1, err qx wx
      (fun x => dot3 (v (Φ x (node ys j) (node zs k))) (tan3 Φ x (node ys j) (node zs k) (1, 0, 0)))
      (node xs i) (node xs (i + 1)) ≤ ε)
    (e1 : ∀ i < p + 1, ∀ j < q, ∀ k < r + 1, err qy wy
      (fun y => dot3 (v (Φ (node xs i) y (node zs k))) (tan3 Φ (node xs i) y (node zs k) (0, 1, 0)))
      (node ys j) (node ys (j + 1)) ≤ ε)
    (e2 : ∀ i < p + 1, ∀ j < q + 1, ∀ k < r, err qz wz
      (fun z => dot3 (v (Φ (node xs i) (node ys j) z)) (tan3 Φ (node xs i) (node ys j) z (0, 0, 1)))
      (node zs k) (node zs (k + 1)) ≤ ε)
    (d0 : ∀ i < p + 1, ∀ j < q, ∀ k < r, err2 qy wy qz wz (fun y z => dot3 (curl3 v (Φ (node xs i) y z))
      (cross3 (tan3 Φ (node xs i) y z (0, 1, 0)) (tan3 Φ (node xs i) y z (0, 0, 1))))
      (node ys j) (node ys (j + 1)) (node zs k) (node zs (k + 1)) ≤ δ)
    (d1 : ∀ i < p, ∀ j < q + 1, ∀ k < r, err2 qx wx qz wz (fun x z => dot3 (curl3 v (Φ x (node ys j) z))
      (cross3 (tan3 Φ x (node ys j) z (0, 0, 1)) (tan3 Φ x (node ys j) z (1, 0, 0))))
      (node xs i) (node xs (i + 1)) (node zs k) (node zs (k + 1)) ≤ δ)
    (d2 : ∀ i < p, ∀ j < q, ∀ k < r + 1, err2 qx wx qy wy (fun x y => dot3 (curl3 v (Φ x y (node zs k)))
      (cross3 (tan3 Φ x y (node zs k) (1, 0, 0)) (tan3 Φ x y (node zs k) (0, 1, 0))))
      (node xs i) (node xs (i + 1)) (node ys j) (node ys (j + 1)) ≤ δ) :
    ∀ m < nd32 p q r, |dof (red32 Φ J (curl3 v) p q r xs ys zs qx wx qy wy qz wz) m -
      app (nd31 p q r) (E31 p q r) (dof (red31 Φ J v p q r xs ys zs qx wx qy wy qz wz)) m| ≤ 4 * ε + δ := by
  intro m hm
  obtain ⟨t, d, i, j, k, hd, ⟨hi, hj, hk⟩, rfl⟩ := Stacked.exists_snum (st32 p q r) hm
  obtain ⟨_, r0, r1, r2⟩ := reduce31 (wx := wx) (wy := wy) (wz := wz) hE hx hy hz hqx hqy hqz v
  obtain ⟨_, s0, s1, s2⟩ := reduce32 (wx := wx) (wy := wy) (wz := wz) hE hx hy hz hqx hqy hqz (curl3 v)
  obtain ⟨g0, g1, g2⟩ := curl3_circulation p q r (dof (red31 Φ J v p q r xs ys zs qx wx qy wy qz wz))
  have sm : ∀ x ∈ I, ∀ y ∈ I, ∀ z ∈ I, ∀ a, ContDiffAt ℝ 1
      (fun P : ℝ × ℝ × ℝ => dot3 (v (Φ P.1 P.2.1 P.2.2)) (tan3 Φ P.1 P.2.1 P.2.2 a)) (x, y, z) :=
    fun x hx y hy z hz a => dot3_smooth (pull_smooth (hE.smooth x hx y hy z hz) (hv x hx y hy z hz))
      (tan_smooth (hE.smooth x hx y hy z hz) a)
  have pl : ∀ x ∈ I, ∀ y ∈ I, ∀ z ∈ I, ∀ a b,
      fderiv ℝ (fun P : ℝ × ℝ × ℝ => dot3 (v (Φ P.1 P.2.1 P.2.2)) (tan3 Φ P.1 P.2.1 P.2.2 b)) (x, y, z) a -
      fderiv ℝ (fun P : ℝ × ℝ × ℝ => dot3 (v (Φ P.1 P.2.1 P.2.2)) (tan3 Φ P.1 P.2.1 P.2.2 a)) (x, y, z) b =
      dot3 (curl3 v (Φ x y z)) (cross3 (tan3 Φ x y z a) (tan3 Φ x y z b)) :=
    fun x hx y hy z hz a b => curl3_pull (hE.smooth x hx y hy z hz) (hv x hx y hy z hz) a b
  rcases t with _ | _ | _ | t <;> simp [ln32] at hd <;> subst hd <;> simp only at hi hj hk
  · change |dof _ (snum (ln32 p q r) (0, i, j, k)) - app _ _ _ (snum (ln32 p q r) (0, i, j, k))| ≤ _
    rw [g0 i j k hi hj hk, s0 i j k hi hj hk, r2 i (j + 1) k hi (by omega) hk, r2 i j k hi (by omega) hk,
      r1 i j (k + 1) hi hj (by omega), r1 i j k hi hj (by omega)]
    have hN := node_in hx hi
    have ha := node_in hy (show j < q + 1 by omega)
    have hb := node_in hy (show j + 1 < q + 1 by omega)
    have hc := node_in hz (show k < r + 1 by omega)
    have hd := node_in hz (show k + 1 < r + 1 by omega)
    have G := green_sides (γ := fun y z => (node xs i, y, z)) (by fun_prop) (fun y z => dy3 (node xs i) z y)
      (fun y z => dz3 (node xs i) y z) (fun y hy z hz => sm (node xs i) hN y hy z hz (0, 1, 0))
      (fun y hy z hz => sm (node xs i) hN y hy z hz (0, 0, 1)) ha hb hc hd
    have e : ∫ y in node ys j..node ys (j + 1), ∫ z in node zs k..node zs (k + 1), dot3 (curl3 v (Φ (node xs i) y z))
        (cross3 (tan3 Φ (node xs i) y z (0, 1, 0)) (tan3 Φ (node xs i) y z (0, 0, 1))) = _ :=
      (intervalIntegral.integral_congr fun y hy => intervalIntegral.integral_congr fun z hz =>
        (pl (node xs i) hN y (sub_I ha hb hy) z (sub_I hc hd hz) (0, 1, 0) (0, 0, 1)).symm).trans G
    have a0 := err_le (e1 i hi j hj k (by omega))
    have a1 := err_le (e1 i hi j hj (k + 1) (by omega))
    have b0 := err_le (e2 i hi j (by omega) k hk)
    have b1 := err_le (e2 i hi (j + 1) (by omega) k hk)
    have c := err2_le (d0 i hi j hj k hk)
    rw [e] at c
    rw [abs_le]
    constructor <;> linarith [a0.1, a0.2, a1.1, a1.2, b0.1, b0.2, b1.1, b1.2, c.1, c.2]
  · change |dof _ (snum (ln32 p q r) (1, i, j, k)) - app _ _ _ (snum (ln32 p q r) (1, i, j, k))| ≤ _
    rw [g1 i j k hi hj hk, s1 i j k hi hj hk, r0 i j (k + 1) hi hj (by omega), r0 i j k hi hj (by omega),
      r2 (i + 1) j k (by omega) hj hk, r2 i j k (by omega) hj hk]
    have hN := node_in hy hj
    have ha := node_in hx (show i < p + 1 by omega)
    have hb := node_in hx (show i + 1 < p + 1 by omega)
    have hc := node_in hz (show k < r + 1 by omega)
    have hd := node_in hz (show k + 1 < r + 1 by omega)
    have G := green_sides (γ := fun x z => (x, node ys j, z)) (by fun_prop) (fun x z => dx3 (node ys j) z x)
      (fun x z => dz3 x (node ys j) z) (fun x hx z hz => sm x hx (node ys j) hN z hz (1, 0, 0))
      (fun x hx z hz => sm x hx (node ys j) hN z hz (0, 0, 1)) ha hb hc hd
    have e : -(∫ x in node xs i..node xs (i + 1), ∫ z in node zs k..node zs (k + 1), dot3 (curl3 v (Φ x (node ys j) z))
        (cross3 (tan3 Φ x (node ys j) z (0, 0, 1)) (tan3 Φ x (node ys j) z (1, 0, 0)))) = _ := Eq.trans (by
      rw [← intervalIntegral.integral_neg]
      refine intervalIntegral.integral_congr fun x hx => ?_
      try dsimp only
      rw [← intervalIntegral.integral_neg]
      refine intervalIntegral.integral_congr fun z hz => ?_
      try dsimp only
      rw [← pl x (sub_I ha hb hx) (node ys j) hN z (sub_I hc hd hz) (0, 0, 1) (1, 0, 0)]
      ring) G
    have a0 := err_le (e0 i hi j hj k (by omega))
    have a1 := err_le (e0 i hi j hj (k + 1) (by omega))
    have b0 := err_le (e2 i (by omega) j hj k hk)
    have b1 := err_le (e2 (i + 1) (by omega) j hj k hk)
    have c := err2_le (d1 i hi j hj k hk)
    rw [abs_le]
    constructor <;> linarith [a0.1, a0.2, a1.1, a1.2, b0.1, b0.2, b1.1, b1.2, c.1, c.2]
  · change |dof _ (snum (ln32 p q r) (2, i, j, k)) - app _ _ _ (snum (ln32 p q r) (2, i, j, k))| ≤ _
    rw [g2 i j k hi hj hk, s2 i j k hi hj hk, r0 i (j + 1) k hi (by omega) hk, r0 i j k hi (by omega) hk,
      r1 (i + 1) j k (by omega) hj hk, r1 i j k (by omega) hj hk]
    have hN := node_in hz hk
    have ha := node_in hx (show i < p + 1 by omega)
    have hb := node_in hx (show i + 1 < p + 1 by omega)
    have hc := node_in hy (show j < q + 1 by omega)
    have hd := node_in hy (show j + 1 < q + 1 by omega)
    have G := green_sides (γ := fun x y => (x, y, node zs k)) (by fun_prop) (fun x y => dx3 y (node zs k) x)
      (fun x y => dy3 x (node zs k) y) (fun x hx y hy => sm x hx y hy (node zs k) hN (1, 0, 0))
      (fun x hx y hy => sm x hx y hy (node zs k) hN (0, 1, 0)) ha hb hc hd
    have e : ∫ x in node xs i..node xs (i + 1), ∫ y in node ys j..node ys (j + 1), dot3 (curl3 v (Φ x y (node zs k)))
        (cross3 (tan3 Φ x y (node zs k) (1, 0, 0)) (tan3 Φ x y (node zs k) (0, 1, 0))) = _ :=
      (intervalIntegral.integral_congr fun x hx => intervalIntegral.integral_congr fun y hy =>
        (pl x (sub_I ha hb hx) y (sub_I hc hd hy) (node zs k) hN (1, 0, 0) (0, 1, 0)).symm).trans G
    have a0 := err_le (e0 i hi j (by omega) k hk)
    have a1 := err_le (e0 i hi (j + 1) (by omega) k hk)
    have b0 := err_le (e1 i (by omega) j hj k hk)
    have b1 := err_le (e1 (i + 1) (by omega) j hj k hk)
    have c := err2_le (d2 i hi j hj k hk)
    rw [e] at c
    rw [abs_le]
    constructor <;> linarith [a0.1, a0.2, a1.1, a1.2, b0.1, b0.2, b1.1, b1.2, c.1, c.2]

lemma sub2 {g h : ℝ → ℝ → ℝ} (hg : ∀ x ∈ I, ∀ y ∈ I, ContinuousAt (fun P : ℝ × ℝ => g P.1 P.2) (x, y))
    (hh : ∀ x ∈ I, ∀ y ∈ I, ContinuousAt (fun P : ℝ × ℝ => h P.1 P.2) (x, y)) {a b c d : ℝ}
    (ha : a ∈ I) (hb : b ∈ I) (hc : c ∈ I) (hd : d ∈ I) :
    ∫ x in a..b, ∫ y in c..d, (g x y - h x y) =
      (∫ x in a..b, ∫ y in c..d, g x y) - ∫ x in a..b, ∫ y in c..d, h x y := by
  have := add2 (g := g) (h := fun x y => -h x y) hg (fun x hx y hy => (hh x hx y hy).neg) ha hb hc hd
  simp only [← sub_eq_add_neg, intervalIntegral.integral_neg] at this
  exact this

lemma err3_le {g : ℝ → ℝ → ℝ → ℝ} {a b c d a' b' ε : ℝ} (h : err3 qx wx qy wy qz wz g a b c d a' b' ≤ ε) :
    (∫ x in a..b, ∫ y in c..d, ∫ z in a'..b', g x y z) - ε ≤ rule3 qx wx qy wy qz wz g a b c d a' b' ∧
      rule3 qx wx qy wy qz wz g a b c d a' b' ≤ (∫ x in a..b, ∫ y in c..d, ∫ z in a'..b', g x y z) + ε := by
  have := abs_le.1 h
  constructor <;> linarith [this.1, this.2]

/-- **C116, divergence in space**. -/
theorem div3_commutes (hE : Elem3 Φ J) (hv : SmoothOn3 Φ v) (hx : Nodes p xs) (hy : Nodes q ys) (hz : Nodes r zs)
    (hqx : ∀ t ∈ qx, t ∈ I) (hqy : ∀ t ∈ qy, t ∈ I) (hqz : ∀ t ∈ qz, t ∈ I) {ε δ : ℝ}
    (d0 : ∀ i < p + 1, ∀ j < q, ∀ k < r, err2 qy wy qz wz (fun y z => dot3 (v (Φ (node xs i) y z))
      (cross3 (tan3 Φ (node xs i) y z (0, 1, 0)) (tan3 Φ (node xs i) y z (0, 0, 1))))
      (node ys j) (node ys (j + 1)) (node zs k) (node zs (k + 1)) ≤ ε)
    (d1 : ∀ i < p, ∀ j < q + 1, ∀ k < r, err2 qx wx qz wz (fun x z => dot3 (v (Φ x (node ys j) z))
      (cross3 (tan3 Φ x (node ys j) z (0, 0, 1)) (tan3 Φ x (node ys j) z (1, 0, 0))))
      (node xs i) (node xs (i + 1)) (node zs k) (node zs (k + 1)) ≤ ε)
    (d2 : ∀ i < p, ∀ j < q, ∀ k < r + 1, err2 qx wx qy wy (fun x y => dot3 (v (Φ x y (node zs k)))
      (cross3 (tan3 Φ x y (node zs k) (1, 0, 0)) (tan3 Φ x y (node zs k) (0, 1, 0))))
      (node xs i) (node xs (i + 1)) (node ys j) (node ys (j + 1)) ≤ ε)
    (c0 : ∀ i < p, ∀ j < q, ∀ k < r, err3 qx wx qy wy qz wz (fun x y z => div3 v (Φ x y z) *
      dot3 (tan3 Φ x y z (1, 0, 0)) (cross3 (tan3 Φ x y z (0, 1, 0)) (tan3 Φ x y z (0, 0, 1))))
      (node xs i) (node xs (i + 1)) (node ys j) (node ys (j + 1)) (node zs k) (node zs (k + 1)) ≤ δ) :
    ∀ m < nd33 p q r, |dof (red33 Φ J (div3 v) p q r xs ys zs qx wx qy wy qz wz) m -
      app (nd32 p q r) (E32 p q r) (dof (red32 Φ J v p q r xs ys zs qx wx qy wy qz wz)) m| ≤ 6 * ε + δ := by
  intro m hm
  obtain ⟨t, d, i, j, k, hd, ⟨hi, hj, hk⟩, rfl⟩ := Stacked.exists_snum (st33 p q r) hm
  obtain ⟨_, s0, s1, s2⟩ := reduce32 (wx := wx) (wy := wy) (wz := wz) hE hx hy hz hqx hqy hqz v
  obtain ⟨_, s⟩ := reduce33 (wx := wx) (wy := wy) (wz := wz) hE hx hy hz hqx hqy hqz (div3 v)
  have g := div3_outflow p q r (dof (red32 Φ J v p q r xs ys zs qx wx qy wy qz wz))
  have sm : ∀ x ∈ I, ∀ y ∈ I, ∀ z ∈ I, ∀ a b, ContDiffAt ℝ 1 (fun P : ℝ × ℝ × ℝ =>
      dot3 (v (Φ P.1 P.2.1 P.2.2)) (cross3 (tan3 Φ P.1 P.2.1 P.2.2 a) (tan3 Φ P.1 P.2.1 P.2.2 b))) (x, y, z) :=
    fun x hx y hy z hz a b => triple_smooth (pull_smooth (hE.smooth x hx y hy z hz) (hv x hx y hy z hz))
      (tan_smooth (hE.smooth x hx y hy z hz) a) (tan_smooth (hE.smooth x hx y hy z hz) b)
  have pl : ∀ x ∈ I, ∀ y ∈ I, ∀ z ∈ I, _ := fun x hx y hy z hz =>
    div3_pull (hE.smooth x hx y hy z hz) (hv x hx y hy z hz) (1, 0, 0) (0, 1, 0) (0, 0, 1)
  rcases t with _ | t <;> simp [ln33] at hd
  subst hd
  simp only at hi hj hk
  change |dof _ (snum (ln33 p q r) (0, i, j, k)) - app _ _ _ (snum (ln33 p q r) (0, i, j, k))| ≤ _
  rw [g i j k hi hj hk, s i j k hi hj hk, s0 i j k (by omega) hj hk, s0 (i + 1) j k (by omega) hj hk,
    s1 i j k hi (by omega) hk, s1 i (j + 1) k hi (by omega) hk, s2 i j k hi hj (by omega), s2 i j (k + 1) hi hj (by omega)]
  have ha := node_in hx (show i < p + 1 by omega)
  have hb := node_in hx (show i + 1 < p + 1 by omega)
  have hc := node_in hy (show j < q + 1 by omega)
  have hd := node_in hy (show j + 1 < q + 1 by omega)
  have he := node_in hz (show k < r + 1 by omega)
  have hf := node_in hz (show k + 1 < r + 1 by omega)
  have G := divergence (fun x hx y hy z hz => sm x hx y hy z hz (0, 1, 0) (0, 0, 1))
    (fun x hx y hy z hz => sm x hx y hy z hz (0, 0, 1) (1, 0, 0)) (fun x hx y hy z hz => sm x hx y hy z hz (1, 0, 0) (0, 1, 0))
    ha hb hc hd he hf
  have cx : ∀ x ∈ I, ∀ a b, ∀ y ∈ I, ∀ z ∈ I, ContinuousAt (fun P : ℝ × ℝ =>
      dot3 (v (Φ x P.1 P.2)) (cross3 (tan3 Φ x P.1 P.2 a) (tan3 Φ x P.1 P.2 b))) (y, z) := fun x hx a b y hy z hz =>
    ContinuousAt.comp_of_eq (f := fun P : ℝ × ℝ => (x, P.1, P.2)) (sm x hx y hy z hz a b).continuousAt (by fun_prop) rfl
  have cy : ∀ y ∈ I, ∀ a b, ∀ x ∈ I, ∀ z ∈ I, ContinuousAt (fun P : ℝ × ℝ =>
      dot3 (v (Φ P.1 y P.2)) (cross3 (tan3 Φ P.1 y P.2 a) (tan3 Φ P.1 y P.2 b))) (x, z) := fun y hy a b x hx z hz =>
    ContinuousAt.comp_of_eq (f := fun P : ℝ × ℝ => (P.1, y, P.2)) (sm x hx y hy z hz a b).continuousAt (by fun_prop) rfl
  have cz : ∀ z ∈ I, ∀ a b, ∀ x ∈ I, ∀ y ∈ I, ContinuousAt (fun P : ℝ × ℝ =>
      dot3 (v (Φ P.1 P.2 z)) (cross3 (tan3 Φ P.1 P.2 z a) (tan3 Φ P.1 P.2 z b))) (x, y) := fun z hz a b x hx y hy =>
    ContinuousAt.comp_of_eq (f := fun P : ℝ × ℝ => (P.1, P.2, z)) (sm x hx y hy z hz a b).continuousAt (by fun_prop) rfl
  simp only at G
  rw [sub2 (cx _ hb _ _) (cx _ ha _ _) hc hd he hf, sub2 (cy _ hd _ _) (cy _ hc _ _) ha hb he hf,
    sub2 (cz _ hf _ _) (cz _ he _ _) ha hb hc hd] at G
  have e : ∫ x in node xs i..node xs (i + 1), ∫ y in node ys j..node ys (j + 1), ∫ z in node zs k..node zs (k + 1),
      div3 v (Φ x y z) * dot3 (tan3 Φ x y z (1, 0, 0)) (cross3 (tan3 Φ x y z (0, 1, 0)) (tan3 Φ x y z (0, 0, 1))) = _ :=
    (intervalIntegral.integral_congr fun x hx => intervalIntegral.integral_congr fun y hy =>
      intervalIntegral.integral_congr fun z hz =>
        (pl x (sub_I ha hb hx) y (sub_I hc hd hy) z (sub_I he hf hz)).symm).trans G
  have a0 := err2_le (d0 i (by omega) j hj k hk)
  have a1 := err2_le (d0 (i + 1) (by omega) j hj k hk)
  have b0 := err2_le (d1 i hi j (by omega) k hk)
  have b1 := err2_le (d1 i hi (j + 1) (by omega) k hk)
  have f0 := err2_le (d2 i hi j hj k (by omega))
  have f1 := err2_le (d2 i hi j hj (k + 1) (by omega))
  have c := err3_le (c0 i hi j hj k hk)
  rw [e] at c
  rw [abs_le]
  constructor <;> linarith [a0.1, a0.2, a1.1, a1.2, b0.1, b0.2, b1.1, b1.2, f0.1, f0.2, f1.1, f1.2, c.1, c.2]

end

/-- **C116, derivative on a line**. -/
theorem deriv1_commutes {Φ D f : ℝ → ℝ} {p : ℕ} {xs qs ws : List ℝ} (hE : Elem1 Φ D)
    (hf : ∀ x ∈ I, ContDiffAt ℝ 1 f (Φ x)) (hx : Nodes p xs) (hq : ∀ t ∈ qs, t ∈ I) {ε : ℝ}
    (e0 : ∀ i < p, err qs ws (fun x => deriv f (Φ x) * deriv Φ x) (node xs i) (node xs (i + 1)) ≤ ε) :
    ∀ i < p, |dof (red11 Φ D (deriv f) xs qs ws) i - app (nd10 p) (E10 p) (dof (red10 Φ f xs)) i| ≤ ε := by
  intro i hi
  have ha := node_in hx (show i < p + 1 by omega)
  have hb := node_in hx (show i + 1 < p + 1 by omega)
  rw [grad1_differences p _ i hi, red10_at hx.len Φ f (by omega), red10_at hx.len Φ f (by omega), red11_at hx.len Φ D _ qs ws hi]
  rw [rule_congr hq (fun x hxI => by rw [← hE.jac x hxI]) ha hb]
  refine le_of_eq_of_le ?_ (e0 i hi)
  unfold err
  congr 2
  have sm : ∀ x ∈ I, ContDiffAt ℝ 1 (fun x => f (Φ x)) x := fun x hxI => ContDiffAt.comp x (hf x hxI) (hE.smooth x hxI)
  have := ftc (A := fun x => f (Φ x)) (γ := fun t => t) (fun t => hasDerivAt_id t) (a := node xs i) (b := node xs (i + 1))
    fun t ht => sm t (sub_I ha hb ht)
  rw [← this]
  refine intervalIntegral.integral_congr fun t ht => ?_
  have hI := sub_I ha hb ht
  have h1 : HasDerivAt (fun x => f (Φ x)) (deriv f (Φ t) * deriv Φ t) t :=
    ((hf t hI).differentiableAt (by norm_num)).hasDerivAt.comp t ((hE.smooth t hI).differentiableAt (by norm_num)).hasDerivAt
  try dsimp only
  rw [h1.hasFDerivAt.fderiv]
  simp

end Phyem.Reduce
