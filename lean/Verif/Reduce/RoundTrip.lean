import Verif.Reduce.Exact
import Verif.Poly.Mapped

/-!
C117: reducing the reconstruction of a cochain gives the cochain back.

The fields are the reconstructions on the element: the values `rec…` of the reference element, transformed by `push…` with the
inverse Jacobian matrix.
-/

namespace Phyem.Reduce

open Set Numbering Incidence Poly

/-- `iJ` is the inverse of `J` on the reference square. -/
def Inverse2 (J iJ : ℝ → ℝ → ℕ → ℕ → ℝ) : Prop :=
  ∀ x ∈ I, ∀ y ∈ I, ∀ a < 2, ∀ b < 2, iJ x y a 0 * J x y 0 b + iJ x y a 1 * J x y 1 b = if a = b then 1 else 0

/-- `iJ` is the inverse of `J` on the reference cube. -/
def Inverse3 (J iJ : ℝ → ℝ → ℝ → ℕ → ℕ → ℝ) : Prop :=
  ∀ x ∈ I, ∀ y ∈ I, ∀ z ∈ I, ∀ a < 3, ∀ b < 3,
    iJ x y z a 0 * J x y z 0 b + iJ x y z a 1 * J x y z 1 b + iJ x y z a 2 * J x y z 2 b = if a = b then 1 else 0

lemma exact_len {n p : ℕ} {xs qs ws : List ℝ} (h : ExactTo n qs ws) (hx : Nodes p xs) (hn : p ≤ n + 1) :
    ExactTo (xs.length - 2) qs ws := fun k hk => h k (by rw [hx.len] at hk; omega)

section one
variable {Φ D iD f : ℝ → ℝ} {p n : ℕ} {xs qs ws : List ℝ} {c : ℕ → ℝ}

/-- **C117, 0-forms on a line**. -/
theorem roundtrip10 (hx : Nodes p xs) (dx : xs.Nodup) (hf : ∀ x ∈ I, f (Φ x) = rec10 xs c x) :
    ∀ m < p + 1, dof (red10 Φ f xs) m = c m := by
  intro m hm
  rw [red10_at hx.len Φ f hm, hf _ (node_in hx hm), rec10_eq]
  rw [Finset.sum_congr rfl fun i hi => by rw [lagrange_node dx (Finset.mem_range.1 hi) (by rw [hx.len]; exact hm)]]
  exact sum_unit (by rw [hx.len]; exact hm) c

/-- **C117, 1-forms on a line**. -/
theorem roundtrip11 (hx : Nodes p xs) (dx : xs.Nodup) (hq : ∀ t ∈ qs, t ∈ I) (he : ExactTo n qs ws) (hn : p ≤ n + 1)
    (hD : ∀ x ∈ I, iD x * D x = 1) (hf : ∀ x ∈ I, f (Φ x) = push11 (iD x) (rec11 xs c x)) :
    ∀ m < p, dof (red11 Φ D f xs qs ws) m = c m := by
  intro m hm
  rw [red11_at hx.len Φ D f qs ws hm, rule_congr hq (h := fun x => rec11 xs c x) (fun x hI => by
    rw [hf x hI, push11, mul_assoc, hD x hI, mul_one]) (node_in hx (by omega)) (node_in hx (by omega))]
  simp_rw [rec11_eq]
  have hl := hx.len
  rw [r1 dx (exact_len he hx hn) (by omega)]
  exact sum_unit (by omega) c

end one

section two
variable {Φ : ℝ → ℝ → ℝ × ℝ} {J iJ : ℝ → ℝ → ℕ → ℕ → ℝ} {f : ℝ × ℝ → ℝ} {v : ℝ × ℝ → ℝ × ℝ} {p q n : ℕ}
  {xs ys qx wx qy wy : List ℝ} {c : ℕ → ℝ}

/-- **C117, 0-forms in the plane**. -/
theorem roundtrip20 (hx : Nodes p xs) (hy : Nodes q ys) (dx : xs.Nodup) (dy : ys.Nodup)
    (hf : ∀ x ∈ I, ∀ y ∈ I, f (Φ x y) = rec20 xs ys c x y) : ∀ m < nd20 p q, dof (red20 Φ f xs ys) m = c m := by
  intro m hm
  obtain ⟨t, d, i, j, k, hd, ⟨hi, hj, hk⟩, rfl⟩ := Stacked.exists_snum (st20 p q) hm
  rcases t with _ | t <;> simp [ln20] at hd
  subst hd
  simp only at hi hj hk
  obtain rfl : k = 0 := by omega
  refine Eq.trans ?_ (dofs20 dx dy hx.len hy.len c i j hi hj)
  exact (red20_at hx.len hy.len Φ f hi hj).trans (hf _ (node_in hx hi) _ (node_in hy hj))

/-- **C117, inner 1-forms in the plane**. -/
theorem roundtrip21i (hx : Nodes p xs) (hy : Nodes q ys) (dx : xs.Nodup) (dy : ys.Nodup) (hqx : ∀ t ∈ qx, t ∈ I)
    (hqy : ∀ t ∈ qy, t ∈ I) (hex : ExactTo n qx wx) (hey : ExactTo n qy wy) (hp : p ≤ n + 1) (hq : q ≤ n + 1)
    (hJ : Inverse2 J iJ) (hv : ∀ x ∈ I, ∀ y ∈ I, v (Φ x y) = push21i (iJ x y) (rec21i xs ys c x y)) :
    ∀ m < nd21 p q, dof (red21i Φ J v p q xs ys qx wx qy wy) m = c m := by
  intro m hm
  obtain ⟨t, d, i, j, k, hd, ⟨hi, hj, hk⟩, rfl⟩ := Stacked.exists_snum (st21i p q) hm
  have key : ∀ x ∈ I, ∀ y ∈ I, J x y 0 0 * (v (Φ x y)).1 + J x y 1 0 * (v (Φ x y)).2 = (rec21i xs ys c x y).1 ∧
      J x y 0 1 * (v (Φ x y)).1 + J x y 1 1 * (v (Φ x y)).2 = (rec21i xs ys c x y).2 := by
    intro x hxI y hyI
    have j00 := hJ x hxI y hyI 0 (by omega) 0 (by omega)
    have j01 := hJ x hxI y hyI 0 (by omega) 1 (by omega)
    have j10 := hJ x hxI y hyI 1 (by omega) 0 (by omega)
    have j11 := hJ x hxI y hyI 1 (by omega) 1 (by omega)
    simp at j00 j01 j10 j11
    rw [hv x hxI y hyI, push21i]
    dsimp only
    constructor
    · linear_combination (rec21i xs ys c x y).1 * j00 + (rec21i xs ys c x y).2 * j10
    · linear_combination (rec21i xs ys c x y).1 * j01 + (rec21i xs ys c x y).2 * j11
  have lx := hx.len
  have ly := hy.len
  rcases t with _ | _ | t <;> simp [ln21i] at hd <;> subst hd <;> simp only at hi hj hk
  · obtain rfl : k = 0 := by omega
    refine (red21i_at0 hx.len hy.len Φ J v qx wx qy wy hi hj).trans ?_
    rw [rule_congr hqx (fun x hI => (key x hI _ (node_in hy hj)).1) (node_in hx (by omega)) (node_in hx (by omega))]
    simp_rw [rec21i_0 xs ys hx.len hy.len c]
    rw [rX2 dx (exact_len hex hx hp) (by omega)]
    exact (T2_congr (fun _ _ => rfl) (fun a ha => lagrange_node dy ha (by omega)) (fun _ _ _ _ => rfl)).trans
      (T2_unit (by omega) (by omega) _)
  · obtain rfl : k = 0 := by omega
    refine (red21i_at1 hx.len hy.len Φ J v qx wx qy wy hi hj).trans ?_
    rw [rule_congr hqy (fun y hI => (key _ (node_in hx hi) y hI).2) (node_in hy (by omega)) (node_in hy (by omega))]
    simp_rw [rec21i_1 xs ys hx.len hy.len c]
    rw [rY2 dy (exact_len hey hy hq) (by omega)]
    exact (T2_congr (fun a ha => lagrange_node dx ha (by omega)) (fun _ _ => rfl) (fun _ _ _ _ => rfl)).trans
      (T2_unit (by omega) (by omega) _)

/-- **C117, outer 1-forms in the plane**. -/
theorem roundtrip21o (hx : Nodes p xs) (hy : Nodes q ys) (dx : xs.Nodup) (dy : ys.Nodup) (hqx : ∀ t ∈ qx, t ∈ I)
    (hqy : ∀ t ∈ qy, t ∈ I) (hex : ExactTo n qx wx) (hey : ExactTo n qy wy) (hp : p ≤ n + 1) (hq : q ≤ n + 1)
    (hJ : Inverse2 J iJ) (hv : ∀ x ∈ I, ∀ y ∈ I, v (Φ x y) = push21o (iJ x y) (rec21o xs ys c x y)) :
    ∀ m < nd21 p q, dof (red21o Φ J v p q xs ys qx wx qy wy) m = c m := by
  intro m hm
  obtain ⟨t, d, i, j, k, hd, ⟨hi, hj, hk⟩, rfl⟩ := Stacked.exists_snum (st21o p q) hm
  have key : ∀ x ∈ I, ∀ y ∈ I, -J x y 0 1 * (v (Φ x y)).2 + J x y 1 1 * (v (Φ x y)).1 = (rec21o xs ys c x y).1 ∧
      J x y 0 0 * (v (Φ x y)).2 - J x y 1 0 * (v (Φ x y)).1 = (rec21o xs ys c x y).2 := by
    intro x hxI y hyI
    have j00 := hJ x hxI y hyI 0 (by omega) 0 (by omega)
    have j01 := hJ x hxI y hyI 0 (by omega) 1 (by omega)
    have j10 := hJ x hxI y hyI 1 (by omega) 0 (by omega)
    have j11 := hJ x hxI y hyI 1 (by omega) 1 (by omega)
    simp at j00 j01 j10 j11
    rw [hv x hxI y hyI, push21o]
    dsimp only
    constructor
    · linear_combination (rec21o xs ys c x y).1 * j11 - (rec21o xs ys c x y).2 * j01
    · linear_combination (rec21o xs ys c x y).2 * j00 - (rec21o xs ys c x y).1 * j10
  have lx := hx.len
  have ly := hy.len
  rcases t with _ | _ | t <;> simp [ln21o] at hd <;> subst hd <;> simp only at hi hj hk
  · obtain rfl : k = 0 := by omega
    refine (red21o_at0 hx.len hy.len Φ J v qx wx qy wy hi hj).trans ?_
    rw [rule_congr hqy (fun y hI => (key _ (node_in hx hi) y hI).1) (node_in hy (by omega)) (node_in hy (by omega))]
    simp_rw [rec21o_0 xs ys hx.len hy.len c]
    rw [rY2 dy (exact_len hey hy hq) (by omega)]
    exact (T2_congr (fun a ha => lagrange_node dx ha (by omega)) (fun _ _ => rfl) (fun _ _ _ _ => rfl)).trans
      (T2_unit (by omega) (by omega) _)
  · obtain rfl : k = 0 := by omega
    refine (red21o_at1 hx.len hy.len Φ J v qx wx qy wy hi hj).trans ?_
    rw [rule_congr hqx (fun x hI => (key x hI _ (node_in hy hj)).2) (node_in hx (by omega)) (node_in hx (by omega))]
    simp_rw [rec21o_1 xs ys hx.len hy.len c]
    rw [rX2 dx (exact_len hex hx hp) (by omega)]
    exact (T2_congr (fun _ _ => rfl) (fun a ha => lagrange_node dy ha (by omega)) (fun _ _ _ _ => rfl)).trans
      (T2_unit (by omega) (by omega) _)

/-- **C117, 2-forms in the plane**; `iD` is the inverse of the determinant. -/
theorem roundtrip22 {iD : ℝ → ℝ → ℝ} (hx : Nodes p xs) (hy : Nodes q ys) (dx : xs.Nodup) (dy : ys.Nodup)
    (hqx : ∀ t ∈ qx, t ∈ I) (hqy : ∀ t ∈ qy, t ∈ I) (hex : ExactTo n qx wx) (hey : ExactTo n qy wy) (hp : p ≤ n + 1)
    (hq : q ≤ n + 1) (hD : ∀ x ∈ I, ∀ y ∈ I, iD x y * (J x y 0 0 * J x y 1 1 - J x y 0 1 * J x y 1 0) = 1)
    (hf : ∀ x ∈ I, ∀ y ∈ I, f (Φ x y) = push11 (iD x y) (rec22 xs ys c x y)) :
    ∀ m < nd22 p q, dof (red22 Φ J f p q xs ys qx wx qy wy) m = c m := by
  intro m hm
  obtain ⟨t, d, i, j, k, hd, ⟨hi, hj, hk⟩, rfl⟩ := Stacked.exists_snum (st22 p q) hm
  rcases t with _ | t <;> simp [ln22] at hd
  subst hd
  simp only at hi hj hk
  obtain rfl : k = 0 := by omega
  have lx := hx.len
  have ly := hy.len
  refine (red22_at Φ J f qx wx qy wy hi hj).trans ?_
  rw [rule2_congr hqx hqy (h := fun x y => rec22 xs ys c x y) (fun x hxI y hyI => by
    rw [hf x hxI y hyI, push11, mul_assoc, hD x hxI y hyI, mul_one]) (node_in hx (by omega)) (node_in hx (by omega))
    (node_in hy (by omega)) (node_in hy (by omega))]
  simp_rw [rec22_0 xs ys hx.len hy.len c]
  unfold rule2
  simp_rw [rY2 dy (exact_len hey hy hq) (show j < ys.length - 1 by omega)]
  rw [rX2 dx (exact_len hex hx hp) (by omega)]
  exact T2_unit (by omega) (by omega) _

end two

section three
variable {Φ : ℝ → ℝ → ℝ → ℝ × ℝ × ℝ} {J iJ : ℝ → ℝ → ℝ → ℕ → ℕ → ℝ} {f : ℝ × ℝ × ℝ → ℝ} {v : ℝ × ℝ × ℝ → ℝ × ℝ × ℝ}
  {p q r n : ℕ} {xs ys zs qx wx qy wy qz wz : List ℝ} {c : ℕ → ℝ}

/-- **C117, 0-forms in space**. -/
theorem roundtrip30 (hx : Nodes p xs) (hy : Nodes q ys) (hz : Nodes r zs) (dx : xs.Nodup) (dy : ys.Nodup) (dz : zs.Nodup)
    (hf : ∀ x ∈ I, ∀ y ∈ I, ∀ z ∈ I, f (Φ x y z) = rec30 xs ys zs c x y z) :
    ∀ m < nd30 p q r, dof (red30 Φ f xs ys zs) m = c m := by
  intro m hm
  obtain ⟨t, d, i, j, k, hd, ⟨hi, hj, hk⟩, rfl⟩ := Stacked.exists_snum (st30 p q r) hm
  rcases t with _ | t <;> simp [ln30] at hd
  subst hd
  simp only at hi hj hk
  refine Eq.trans ?_ (dofs30 dx dy dz hx.len hy.len hz.len c i j k hi hj hk)
  exact (red30_at hx.len hy.len hz.len Φ f hi hj hk).trans (hf _ (node_in hx hi) _ (node_in hy hj) _ (node_in hz hk))

/-- **C117, 1-forms in space**. -/
theorem roundtrip31 (hx : Nodes p xs) (hy : Nodes q ys) (hz : Nodes r zs) (dx : xs.Nodup) (dy : ys.Nodup) (dz : zs.Nodup)
    (hqx : ∀ t ∈ qx, t ∈ I) (hqy : ∀ t ∈ qy, t ∈ I) (hqz : ∀ t ∈ qz, t ∈ I) (hex : ExactTo n qx wx) (hey : ExactTo n qy wy)
    (hez : ExactTo n qz wz) (hp : p ≤ n + 1) (hq : q ≤ n + 1) (hr : r ≤ n + 1) (hJ : Inverse3 J iJ)
    (hv : ∀ x ∈ I, ∀ y ∈ I, ∀ z ∈ I, v (Φ x y z) = push31 (iJ x y z) (rec31 xs ys zs c x y z)) :
    ∀ m < nd31 p q r, dof (red31 Φ J v p q r xs ys zs qx wx qy wy qz wz) m = c m := by
  intro m hm
  obtain ⟨t, d, i, j, k, hd, ⟨hi, hj, hk⟩, rfl⟩ := Stacked.exists_snum (st31 p q r) hm
  have key : ∀ x ∈ I, ∀ y ∈ I, ∀ z ∈ I, column Φ J v 0 (x, y, z) = (rec31 xs ys zs c x y z).1 ∧
      column Φ J v 1 (x, y, z) = (rec31 xs ys zs c x y z).2.1 ∧ column Φ J v 2 (x, y, z) = (rec31 xs ys zs c x y z).2.2 := by
    intro x hxI y hyI z hzI
    have h := hJ x hxI y hyI z hzI
    have h00 := h 0 (by omega) 0 (by omega)
    have h01 := h 0 (by omega) 1 (by omega)
    have h02 := h 0 (by omega) 2 (by omega)
    have h10 := h 1 (by omega) 0 (by omega)
    have h11 := h 1 (by omega) 1 (by omega)
    have h12 := h 1 (by omega) 2 (by omega)
    have h20 := h 2 (by omega) 0 (by omega)
    have h21 := h 2 (by omega) 1 (by omega)
    have h22 := h 2 (by omega) 2 (by omega)
    simp at h00 h01 h02 h10 h11 h12 h20 h21 h22
    unfold column
    dsimp only
    rw [hv x hxI y hyI z hzI, push31]
    dsimp only
    generalize rec31 xs ys zs c x y z = u
    refine ⟨?_, ?_, ?_⟩
    · linear_combination u.1 * h00 + u.2.1 * h10 + u.2.2 * h20
    · linear_combination u.1 * h01 + u.2.1 * h11 + u.2.2 * h21
    · linear_combination u.1 * h02 + u.2.1 * h12 + u.2.2 * h22
  have lx := hx.len
  have ly := hy.len
  have lz := hz.len
  rcases t with _ | _ | _ | t <;> simp [ln31] at hd <;> subst hd <;> simp only at hi hj hk
  · refine (red31_at0 hx.len hy.len hz.len Φ J v qx wx qy wy qz wz hi hj hk).trans ?_
    rw [rule_congr hqx (fun x hI => (key x hI _ (node_in hy hj) _ (node_in hz hk)).1) (node_in hx (by omega))
      (node_in hx (by omega))]
    simp_rw [rec31_0 xs ys zs hx.len hy.len hz.len c]
    rw [rX dx (exact_len hex hx hp) (by omega)]
    exact (T3_congr (fun _ _ => rfl) (fun a ha => lagrange_node dy ha (by omega)) (fun a ha => lagrange_node dz ha (by omega))
      (fun _ _ _ _ _ _ => rfl)).trans (T3_unit (by omega) (by omega) (by omega) _)
  · refine (red31_at1 hx.len hy.len hz.len Φ J v qx wx qy wy qz wz hi hj hk).trans ?_
    rw [rule_congr hqy (fun y hI => (key _ (node_in hx hi) y hI _ (node_in hz hk)).2.1) (node_in hy (by omega))
      (node_in hy (by omega))]
    simp_rw [rec31_1 xs ys zs hx.len hy.len hz.len c]
    rw [rY dy (exact_len hey hy hq) (by omega)]
    exact (T3_congr (fun a ha => lagrange_node dx ha (by omega)) (fun _ _ => rfl) (fun a ha => lagrange_node dz ha (by omega))
      (fun _ _ _ _ _ _ => rfl)).trans (T3_unit (by omega) (by omega) (by omega) _)
  · refine (red31_at2 hx.len hy.len hz.len Φ J v qx wx qy wy qz wz hi hj hk).trans ?_
    rw [rule_congr hqz (fun z hI => (key _ (node_in hx hi) _ (node_in hy hj) z hI).2.2) (node_in hz (by omega))
      (node_in hz (by omega))]
    simp_rw [rec31_2 xs ys zs hx.len hy.len hz.len c]
    rw [rZ dz (exact_len hez hz hr) (by omega)]
    exact (T3_congr (fun a ha => lagrange_node dx ha (by omega)) (fun a ha => lagrange_node dy ha (by omega)) (fun _ _ => rfl)
      (fun _ _ _ _ _ _ => rfl)).trans (T3_unit (by omega) (by omega) (by omega) _)

/-- **C117, 2-forms in space**. -/
theorem roundtrip32 (hx : Nodes p xs) (hy : Nodes q ys) (hz : Nodes r zs) (dx : xs.Nodup) (dy : ys.Nodup) (dz : zs.Nodup)
    (hqx : ∀ t ∈ qx, t ∈ I) (hqy : ∀ t ∈ qy, t ∈ I) (hqz : ∀ t ∈ qz, t ∈ I) (hex : ExactTo n qx wx) (hey : ExactTo n qy wy)
    (hez : ExactTo n qz wz) (hp : p ≤ n + 1) (hq : q ≤ n + 1) (hr : r ≤ n + 1) (hJ : Inverse3 J iJ)
    (hv : ∀ x ∈ I, ∀ y ∈ I, ∀ z ∈ I, v (Φ x y z) = push32 (iJ x y z) (rec32 xs ys zs c x y z)) :
    ∀ m < nd32 p q r, dof (red32 Φ J v p q r xs ys zs qx wx qy wy qz wz) m = c m := by
  intro m hm
  obtain ⟨t, d, i, j, k, hd, ⟨hi, hj, hk⟩, rfl⟩ := Stacked.exists_snum (st32 p q r) hm
  have key : ∀ x ∈ I, ∀ y ∈ I, ∀ z ∈ I, faceX Φ J v x y z = (rec32 xs ys zs c x y z).1 ∧
      faceY Φ J v x y z = (rec32 xs ys zs c x y z).2.1 ∧ faceZ Φ J v x y z = (rec32 xs ys zs c x y z).2.2 := by
    intro x hxI y hyI z hzI
    have h := (push32_push32 (hJ x hxI y hyI z hzI) (rec32 xs ys zs c x y z)).2
    rw [← hv x hxI y hyI z hzI] at h
    rw [← h, push32]
    unfold faceX faceY faceZ
    dsimp only
    refine ⟨?_, ?_, ?_⟩ <;> ring
  have lx := hx.len
  have ly := hy.len
  have lz := hz.len
  rcases t with _ | _ | _ | t <;> simp [ln32] at hd <;> subst hd <;> simp only at hi hj hk
  · refine (red32_at0 Φ J v qx wx qy wy qz wz hi hj hk).trans ?_
    rw [rule2_congr hqy hqz (fun y hyI z hzI => (key _ (node_in hx hi) y hyI z hzI).1) (node_in hy (by omega))
      (node_in hy (by omega)) (node_in hz (by omega)) (node_in hz (by omega))]
    simp_rw [rec32_0 xs ys zs hx.len hy.len hz.len c]
    unfold rule2
    simp_rw [rZ dz (exact_len hez hz hr) (show k < zs.length - 1 by omega)]
    rw [rY dy (exact_len hey hy hq) (by omega)]
    exact (T3_congr (fun a ha => lagrange_node dx ha (by omega)) (fun _ _ => rfl) (fun _ _ => rfl)
      (fun _ _ _ _ _ _ => rfl)).trans (T3_unit (by omega) (by omega) (by omega) _)
  · refine (red32_at1 Φ J v qx wx qy wy qz wz hi hj hk).trans ?_
    rw [rule2_congr hqx hqz (fun x hxI z hzI => (key x hxI _ (node_in hy hj) z hzI).2.1) (node_in hx (by omega))
      (node_in hx (by omega)) (node_in hz (by omega)) (node_in hz (by omega))]
    simp_rw [rec32_1 xs ys zs hx.len hy.len hz.len c]
    unfold rule2
    simp_rw [rZ dz (exact_len hez hz hr) (show k < zs.length - 1 by omega)]
    rw [rX dx (exact_len hex hx hp) (by omega)]
    exact (T3_congr (fun _ _ => rfl) (fun a ha => lagrange_node dy ha (by omega)) (fun _ _ => rfl)
      (fun _ _ _ _ _ _ => rfl)).trans (T3_unit (by omega) (by omega) (by omega) _)
  · refine (red32_at2 Φ J v qx wx qy wy qz wz hi hj hk).trans ?_
    rw [rule2_congr hqx hqy (fun x hxI y hyI => (key x hxI y hyI _ (node_in hz hk)).2.2) (node_in hx (by omega))
      (node_in hx (by omega)) (node_in hy (by omega)) (node_in hy (by omega))]
    simp_rw [rec32_2 xs ys zs hx.len hy.len hz.len c]
    unfold rule2
    simp_rw [rY dy (exact_len hey hy hq) (show j < ys.length - 1 by omega)]
    rw [rX dx (exact_len hex hx hp) (by omega)]
    exact (T3_congr (fun _ _ => rfl) (fun _ _ => rfl) (fun a ha => lagrange_node dz ha (by omega))
      (fun _ _ _ _ _ _ => rfl)).trans (T3_unit (by omega) (by omega) (by omega) _)

/-- **C117, 3-forms**; `iD` is the inverse of the determinant. -/
theorem roundtrip33 {iD : ℝ → ℝ → ℝ → ℝ} (hx : Nodes p xs) (hy : Nodes q ys) (hz : Nodes r zs) (dx : xs.Nodup)
    (dy : ys.Nodup) (dz : zs.Nodup) (hqx : ∀ t ∈ qx, t ∈ I) (hqy : ∀ t ∈ qy, t ∈ I) (hqz : ∀ t ∈ qz, t ∈ I)
    (hex : ExactTo n qx wx) (hey : ExactTo n qy wy) (hez : ExactTo n qz wz) (hp : p ≤ n + 1) (hq : q ≤ n + 1) (hr : r ≤ n + 1)
    (hD : ∀ x ∈ I, ∀ y ∈ I, ∀ z ∈ I, iD x y z * det3 (J x y z) = 1)
    (hf : ∀ x ∈ I, ∀ y ∈ I, ∀ z ∈ I, f (Φ x y z) = push11 (iD x y z) (rec33 xs ys zs c x y z)) :
    ∀ m < nd33 p q r, dof (red33 Φ J f p q r xs ys zs qx wx qy wy qz wz) m = c m := by
  intro m hm
  obtain ⟨t, d, i, j, k, hd, ⟨hi, hj, hk⟩, rfl⟩ := Stacked.exists_snum (st33 p q r) hm
  rcases t with _ | t <;> simp [ln33] at hd
  subst hd
  simp only at hi hj hk
  have lx := hx.len
  have ly := hy.len
  have lz := hz.len
  refine (red33_at Φ J f qx wx qy wy qz wz hi hj hk).trans ?_
  rw [rule3_congr hqx hqy hqz (h := fun x y z => rec33 xs ys zs c x y z) (fun x hxI y hyI z hzI => by
    have e : jac3 (J x y z) = det3 (J x y z) := by unfold jac3 det3; ring
    rw [hf x hxI y hyI z hzI, push11, mul_assoc, e, hD x hxI y hyI z hzI, mul_one]) (node_in hx (by omega))
    (node_in hx (by omega)) (node_in hy (by omega)) (node_in hy (by omega)) (node_in hz (by omega)) (node_in hz (by omega))]
  simp_rw [rec33_0 xs ys zs hx.len hy.len hz.len c]
  unfold rule3
  simp_rw [rZ dz (exact_len hez hz hr) (show k < zs.length - 1 by omega), rY dy (exact_len hey hy hq) (show j < ys.length - 1 by omega)]
  rw [rX dx (exact_len hex hx hp) (by omega)]
  exact T3_unit (by omega) (by omega) (by omega) _

end three

end Phyem.Reduce
