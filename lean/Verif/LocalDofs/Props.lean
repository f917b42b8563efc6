import Verif.LocalDofs.Model
import Verif.Poly.Commute

/-!
C48: the local dofs found on a face are exactly those whose basis function has a non-zero trace there.

The trace of a 0-form is its value; of a 1-form in 2d (inner or outer) and of a 2-form in 3d the
component along the face (`dy` on faces of constant `x`, `dy dz` on faces of constant `x`, …); of a
1-form in 3d the two components along the face. The basis function of dof `d` is the reconstruction of
the cochain `unit d`, which is 1 at `d` and 0 elsewhere.
-/

namespace Phyem.LocalDofs

open Finset Phyem.Incidence Phyem.Numbering Phyem.Poly

/-- The node on side 0 or 1: the first or the last one, `-1` or `1`. -/
noncomputable def sideNode (xs : List ℝ) (side : ℕ) : ℝ := if side = 0 then node xs 0 else node xs (xs.length - 1)

/-- The points of the reference element along one axis: from the first node to the last. -/
def Along (xs : List ℝ) : Set ℝ := Set.Icc (node xs 0) (node xs (xs.length - 1))

/-! ### Lemmas -/

theorem sideNode_eq {xs : List ℝ} {p side i : ℕ} (px : xs.length = p + 1)
    (h : atSide (p + 1) side = some i) : sideNode xs side = node xs i ∧ i < p + 1 := by
  unfold atSide at h
  unfold sideNode
  rw [if_neg (by omega)] at h
  split_ifs at h with h0 h1
  · simp only [Option.some.injEq] at h; subst h; rw [if_pos h0]; exact ⟨rfl, by omega⟩
  · simp only [Option.some.injEq] at h; subst h; rw [if_neg h0, px]; exact ⟨rfl, by omega⟩

theorem nodup_of {xs : List ℝ} (h : xs.Pairwise (· < ·)) : xs.Nodup := h.imp (fun a => ne_of_lt a)

theorem node_le {xs : List ℝ} (h : xs.Pairwise (· < ·)) {i j : ℕ} (hij : i ≤ j) (hj : j < xs.length) :
    node xs i ≤ node xs j := by
  unfold node
  rw [List.getD_eq_getElem _ _ hj, List.getD_eq_getElem _ _ (by omega : i < xs.length)]
  rcases Nat.lt_or_eq_of_le hij with h' | rfl
  · exact le_of_lt (List.pairwise_iff_getElem.1 h i j _ _ h')
  · exact le_refl _

theorem exists_edge {xs : List ℝ} (h : xs.Pairwise (· < ·)) {i : ℕ} (hi : i < xs.length - 1) :
    ∃ x ∈ Along xs, edge xs i x ≠ 0 := by
  by_contra hc
  push Not at hc
  have e := integral_edge (nodup_of h) hi hi
  rw [intervalIntegral.integral_congr (g := fun _ => (0 : ℝ))] at e
  · simp [unit] at e
  · intro x hx
    rw [Set.uIcc_of_le (node_le h (by omega) (by omega))] at hx
    exact hc x ⟨le_trans (node_le h (by omega) (by omega)) hx.1,
      le_trans hx.2 (node_le h (by omega) (by omega))⟩

theorem exists_node {xs : List ℝ} (h : xs.Pairwise (· < ·)) {i : ℕ} (hi : i < xs.length) :
    ∃ x ∈ Along xs, lagrange xs i x ≠ 0 :=
  ⟨node xs i, ⟨node_le h (by omega) (by omega), node_le h (by omega) (by omega)⟩, by
    rw [lagrange_node (nodup_of h) hi hi]; simp [unit]⟩

/-- A tensor-product function with `x` fixed at a node: which dofs have a non-zero value. -/
theorem trace3 {X : ℕ → ℝ} {Y Z : ℝ → ℕ → ℝ} {S T : Set ℝ} {a n b d D : ℕ} {num : ℕ → ℕ → ℕ → ℕ}
    (ha : a < n) (hX : ∀ i < n, X i = unit a i)
    (hY : ∀ j < b, ∃ y ∈ S, Y y j ≠ 0) (hZ : ∀ k < d, ∃ z ∈ T, Z z k ≠ 0)
    (inj : ∀ j < b, ∀ k < d, ∀ j' < b, ∀ k' < d, num a j k = num a j' k' → j = j' ∧ k = k') :
    (∃ y ∈ S, ∃ z ∈ T, T3 X (Y y) (Z z) n b d (fun i j k => unit D (num i j k)) ≠ 0) ↔
      ∃ j < b, ∃ k < d, num a j k = D := by
  have e : ∀ y z, T3 X (Y y) (Z z) n b d (fun i j k => unit D (num i j k)) =
      ∑ k ∈ range d, ∑ j ∈ range b, Z z k * Y y j * unit D (num a j k) := by
    intro y z
    rw [T3_congr hX (fun _ _ => rfl) (fun _ _ => rfl) (fun _ _ _ _ _ _ => rfl), T3_x]
    simp_rw [sum_unit ha]
  simp_rw [e]
  constructor
  · rintro ⟨y, _, z, _, h⟩
    by_contra hc
    push Not at hc
    refine h (sum_eq_zero fun k hk => sum_eq_zero fun j hj => ?_)
    rw [unit, if_neg (hc j (mem_range.1 hj) k (mem_range.1 hk)), mul_zero]
  · rintro ⟨j, hj, k, hk, rfl⟩
    obtain ⟨y, hyS, hy⟩ := hY j hj
    obtain ⟨z, hzT, hz⟩ := hZ k hk
    refine ⟨y, hyS, z, hzT, ?_⟩
    rw [sum_eq_single k, sum_eq_single j]
    · simp [unit, hy, hz]
    · intro j' hj' hne
      rw [unit, if_neg (fun e => hne (inj j' (mem_range.1 hj') k hk j hj k hk e).1), mul_zero]
    · intro h; exact absurd (mem_range.2 hj) h
    · intro k' hk' hne
      refine sum_eq_zero fun j' hj' => ?_
      rw [unit, if_neg (fun e => hne (inj j' (mem_range.1 hj') k' (mem_range.1 hk') j hj k hk e).2),
        mul_zero]
    · intro h; exact absurd (mem_range.2 hk) h

theorem T3_swap_xy (X Y Z : ℕ → ℝ) (a b d : ℕ) (c : ℕ → ℕ → ℕ → ℝ) :
    T3 X Y Z a b d c = T3 Y X Z b a d fun j i k => c i j k := by
  rw [T3_x, T3_y]

theorem T3_swap_xz (X Y Z : ℕ → ℝ) (a b d : ℕ) (c : ℕ → ℕ → ℕ → ℝ) :
    T3 X Y Z a b d c = T3 Z X Y d a b fun k i j => c i j k := by
  rw [T3_z, T3_x]

theorem T2_T3 (X Y : ℕ → ℝ) (a b : ℕ) (c : ℕ → ℕ → ℝ) :
    T2 X Y a b c = T3 X Y (fun _ => 1) a b 1 fun i j _ => c i j := by
  simp [T2, T3]

theorem slice0 {ln : List Comp} {t side : ℕ} {x : Comp} (hx : ln[t]? = some x) {l : List ℕ}
    (h : sliceOf ln t 0 side = some l) :
    ∃ i, atSide x.a side = some i ∧ ∀ d, d ∈ l ↔ ∃ j < x.b, ∃ k < x.c, x.num i j k = d := by
  simp only [sliceOf, slice, hx, Option.bind_some, if_true, Option.map_eq_some_iff] at h
  obtain ⟨i, hi, rfl⟩ := h
  exact ⟨i, hi, fun d => by simp⟩

theorem slice1 {ln : List Comp} {t side : ℕ} {x : Comp} (hx : ln[t]? = some x) {l : List ℕ}
    (h : sliceOf ln t 1 side = some l) :
    ∃ j, atSide x.b side = some j ∧ ∀ d, d ∈ l ↔ ∃ i < x.a, ∃ k < x.c, x.num i j k = d := by
  simp only [sliceOf, slice, hx, Option.bind_some, if_true, Option.map_eq_some_iff,
    one_ne_zero, if_false] at h
  obtain ⟨i, hi, rfl⟩ := h
  exact ⟨i, hi, fun d => by simp⟩

theorem slice2 {ln : List Comp} {t side : ℕ} {x : Comp} (hx : ln[t]? = some x) {l : List ℕ}
    (h : sliceOf ln t 2 side = some l) :
    ∃ k, atSide x.c side = some k ∧ ∀ d, d ∈ l ↔ ∃ i < x.a, ∃ j < x.b, x.num i j k = d := by
  simp only [sliceOf, slice, hx, Option.bind_some, if_true, Option.map_eq_some_iff,
    (by decide : (2 : ℕ) ≠ 0), (by decide : (2 : ℕ) ≠ 1), if_false] at h
  obtain ⟨i, hi, rfl⟩ := h
  exact ⟨i, hi, fun d => by simp⟩

section
variable {A : List ℝ} {ln : List Comp} {t side : ℕ} {x : Comp} {l : List ℕ} {Y Z : ℝ → ℕ → ℝ}
  {S T : Set ℝ} (hA : A.Pairwise (· < ·)) (hx : ln[t]? = some x)

include hA hx in
/-- The face of constant `x`. -/
theorem face0 (hn : A.length = x.a) (hY : ∀ j < x.b, ∃ y ∈ S, Y y j ≠ 0)
    (hZ : ∀ k < x.c, ∃ z ∈ T, Z z k ≠ 0) (h : sliceOf ln t 0 side = some l) (D : ℕ) :
    D ∈ l ↔ ∃ y ∈ S, ∃ z ∈ T, T3 (fun i => lagrange A i (sideNode A side)) (Y y) (Z z) x.a x.b x.c
      (fun i j k => unit D (snum ln (t, i, j, k))) ≠ 0 := by
  obtain ⟨a, ha, hl⟩ := slice0 hx h
  have pa : A.length = (x.a - 1) + 1 := by
    unfold atSide at ha; split_ifs at ha <;> omega
  obtain ⟨e, ha'⟩ := sideNode_eq pa (by rw [← pa, hn]; exact ha)
  have hb : a < x.a := by omega
  rw [hl, e]
  simp only [snum, hx, Option.getD_some]
  refine (trace3 (num := x.num) hb (fun i hi => ?_) hY hZ ?_).symm
  · rw [lagrange_node (nodup_of hA) (by omega) (by omega)]
  · intro j hj k hk j' hj' k' hk' e
    have := num_inj x ⟨hb, hj, hk⟩ ⟨hb, hj', hk'⟩ e
    exact ⟨this.2.1, this.2.2⟩

include hA hx in
/-- The face of constant `y`. -/
theorem face1 (hn : A.length = x.b) (hY : ∀ j < x.a, ∃ y ∈ S, Y y j ≠ 0)
    (hZ : ∀ k < x.c, ∃ z ∈ T, Z z k ≠ 0) (h : sliceOf ln t 1 side = some l) (D : ℕ) :
    D ∈ l ↔ ∃ y ∈ S, ∃ z ∈ T, T3 (Y y) (fun i => lagrange A i (sideNode A side)) (Z z) x.a x.b x.c
      (fun i j k => unit D (snum ln (t, i, j, k))) ≠ 0 := by
  obtain ⟨a, ha, hl⟩ := slice1 hx h
  have pa : A.length = (x.b - 1) + 1 := by
    unfold atSide at ha; split_ifs at ha <;> omega
  obtain ⟨e, ha'⟩ := sideNode_eq pa (by rw [← pa, hn]; exact ha)
  have hb : a < x.b := by omega
  rw [hl, e]
  simp only [snum, hx, Option.getD_some]
  simp_rw [T3_swap_xy _ _ _ x.a x.b]
  refine (trace3 (num := fun j i k => x.num i j k) hb (fun i hi => ?_) hY hZ ?_).symm
  · rw [lagrange_node (nodup_of hA) (by omega) (by omega)]
  · intro j hj k hk j' hj' k' hk' e
    have := num_inj x ⟨hj, hb, hk⟩ ⟨hj', hb, hk'⟩ e
    exact ⟨this.1, this.2.2⟩

include hA hx in
/-- The face of constant `z`. -/
theorem face2 (hn : A.length = x.c) (hY : ∀ j < x.a, ∃ y ∈ S, Y y j ≠ 0)
    (hZ : ∀ k < x.b, ∃ z ∈ T, Z z k ≠ 0) (h : sliceOf ln t 2 side = some l) (D : ℕ) :
    D ∈ l ↔ ∃ y ∈ S, ∃ z ∈ T, T3 (Y y) (Z z) (fun i => lagrange A i (sideNode A side)) x.a x.b x.c
      (fun i j k => unit D (snum ln (t, i, j, k))) ≠ 0 := by
  obtain ⟨a, ha, hl⟩ := slice2 hx h
  have pa : A.length = (x.c - 1) + 1 := by
    unfold atSide at ha; split_ifs at ha <;> omega
  obtain ⟨e, ha'⟩ := sideNode_eq pa (by rw [← pa, hn]; exact ha)
  have hb : a < x.c := by omega
  rw [hl, e]
  simp only [snum, hx, Option.getD_some]
  simp_rw [T3_swap_xz _ _ _ x.a x.b x.c]
  refine (trace3 (num := fun k i j => x.num i j k) hb (fun i hi => ?_) hY hZ ?_).symm
  · rw [lagrange_node (nodup_of hA) (by omega) (by omega)]
  · intro j hj k hk j' hj' k' hk' e
    have := num_inj x ⟨hj, hk, hb⟩ ⟨hj', hk', hb⟩ e
    exact ⟨this.1, this.2.1⟩
end

/-! ### C48 -/

section
variable {xs ys zs : List ℝ} (hx : xs.Pairwise (· < ·)) (hy : ys.Pairwise (· < ·))
  (hz : zs.Pairwise (· < ·)) {p q r : ℕ}
  (px : xs.length = p + 1) (py : ys.length = q + 1) (pz : zs.length = r + 1)
  {side : ℕ} {l : List ℕ} (d : ℕ)

include hx hy hz px py pz in
/-- C48, 0-forms in 3d, the face of constant `x`. -/
theorem face30_x (h : find30 p q r 0 side = some l) :
    d ∈ l ↔ ∃ y ∈ Along ys, ∃ z ∈ Along zs,
      (rec30 xs ys zs (unit d) (sideNode xs side) y z) ≠ 0 := by
  simp_rw [rec30_0 xs ys zs px py pz]
  simp only [px, py, pz, Nat.add_sub_cancel]
  exact face0 (Y := (fun y i => lagrange ys i y)) (Z := (fun z i => lagrange zs i z)) hx
    (by rfl : (ln30 p q r)[0]? = some ⟨0, p + 1, q + 1, r + 1⟩) px
    (fun _ h => exists_node hy (by simp only [py] at *; omega))
    (fun _ h => exists_node hz (by simp only [pz] at *; omega)) (by simpa [find30] using h) d

include hx hy hz px py pz in
/-- C48, 0-forms in 3d, the face of constant `y`. -/
theorem face30_y (h : find30 p q r 1 side = some l) :
    d ∈ l ↔ ∃ x ∈ Along xs, ∃ z ∈ Along zs,
      (rec30 xs ys zs (unit d) x (sideNode ys side) z) ≠ 0 := by
  simp_rw [rec30_0 xs ys zs px py pz]
  simp only [px, py, pz, Nat.add_sub_cancel]
  exact face1 (Y := (fun x i => lagrange xs i x)) (Z := (fun z i => lagrange zs i z)) hy
    (by rfl : (ln30 p q r)[0]? = some ⟨0, p + 1, q + 1, r + 1⟩) py
    (fun _ h => exists_node hx (by simp only [px] at *; omega))
    (fun _ h => exists_node hz (by simp only [pz] at *; omega)) (by simpa [find30] using h) d

include hx hy hz px py pz in
/-- C48, 0-forms in 3d, the face of constant `z`. -/
theorem face30_z (h : find30 p q r 2 side = some l) :
    d ∈ l ↔ ∃ x ∈ Along xs, ∃ y ∈ Along ys,
      (rec30 xs ys zs (unit d) x y (sideNode zs side)) ≠ 0 := by
  simp_rw [rec30_0 xs ys zs px py pz]
  simp only [px, py, pz, Nat.add_sub_cancel]
  exact face2 (Y := (fun x i => lagrange xs i x)) (Z := (fun y i => lagrange ys i y)) hz
    (by rfl : (ln30 p q r)[0]? = some ⟨0, p + 1, q + 1, r + 1⟩) pz
    (fun _ h => exists_node hx (by simp only [px] at *; omega))
    (fun _ h => exists_node hy (by simp only [py] at *; omega)) (by simpa [find30] using h) d

include hx hy hz px py pz in
/-- C48, 2-forms in 3d, the face of constant `x`. -/
theorem face32_x (h : find32 p q r 0 side = some l) :
    d ∈ l ↔ ∃ y ∈ Along ys, ∃ z ∈ Along zs,
      (rec32 xs ys zs (unit d) (sideNode xs side) y z).1 ≠ 0 := by
  simp_rw [rec32_0 xs ys zs px py pz]
  simp only [px, py, pz, Nat.add_sub_cancel]
  exact face0 (Y := (fun y i => edge ys i y)) (Z := (fun z i => edge zs i z)) hx
    (by rfl : (ln32 p q r)[0]? = some ⟨0, p + 1, q, r⟩) px
    (fun _ h => exists_edge hy (by simp only [py] at *; omega))
    (fun _ h => exists_edge hz (by simp only [pz] at *; omega)) (by simpa [find32] using h) d

include hx hy hz px py pz in
/-- C48, 2-forms in 3d, the face of constant `y`. -/
theorem face32_y (h : find32 p q r 1 side = some l) :
    d ∈ l ↔ ∃ x ∈ Along xs, ∃ z ∈ Along zs,
      (rec32 xs ys zs (unit d) x (sideNode ys side) z).2.1 ≠ 0 := by
  simp_rw [rec32_1 xs ys zs px py pz]
  simp only [px, py, pz, Nat.add_sub_cancel]
  exact face1 (Y := (fun x i => edge xs i x)) (Z := (fun z i => edge zs i z)) hy
    (by rfl : (ln32 p q r)[1]? = some ⟨(p + 1) * q * r, p, q + 1, r⟩) py
    (fun _ h => exists_edge hx (by simp only [px] at *; omega))
    (fun _ h => exists_edge hz (by simp only [pz] at *; omega)) (by simpa [find32] using h) d

include hx hy hz px py pz in
/-- C48, 2-forms in 3d, the face of constant `z`. -/
theorem face32_z (h : find32 p q r 2 side = some l) :
    d ∈ l ↔ ∃ x ∈ Along xs, ∃ y ∈ Along ys,
      (rec32 xs ys zs (unit d) x y (sideNode zs side)).2.2 ≠ 0 := by
  simp_rw [rec32_2 xs ys zs px py pz]
  simp only [px, py, pz, Nat.add_sub_cancel]
  exact face2 (Y := (fun x i => edge xs i x)) (Z := (fun y i => edge ys i y)) hz
    (by rfl : (ln32 p q r)[2]? = some ⟨(p + 1) * q * r + p * (q + 1) * r, p, q, r + 1⟩) pz
    (fun _ h => exists_edge hx (by simp only [px] at *; omega))
    (fun _ h => exists_edge hy (by simp only [py] at *; omega)) (by simpa [find32] using h) d

include hx hy px py in
/-- C48, 0-forms in 2d, the face of constant `x`. -/
theorem face20_x (h : find20 p q 0 side = some l) :
    d ∈ l ↔ ∃ y ∈ Along ys, (rec20 xs ys (unit d) (sideNode xs side) y) ≠ 0 := by
  simp_rw [rec20_0 xs ys px py, T2_T3]
  simp only [px, py, Nat.add_sub_cancel]
  have := face0 (Y := (fun y i => lagrange ys i y)) (Z := fun _ _ => 1) (T := Set.univ) hx
    (by rfl : (ln20 p q)[0]? = some _) px
    (fun _ h => exists_node hy (by simp only [py] at *; omega))
    (fun _ _ => ⟨0, trivial, one_ne_zero⟩) h d
  simpa [snum, ln20, Comp.num, T3] using this

include hx hy px py in
/-- C48, 0-forms in 2d, the face of constant `y`. -/
theorem face20_y (h : find20 p q 1 side = some l) :
    d ∈ l ↔ ∃ x ∈ Along xs, (rec20 xs ys (unit d) x (sideNode ys side)) ≠ 0 := by
  simp_rw [rec20_0 xs ys px py, T2_T3]
  simp only [px, py, Nat.add_sub_cancel]
  have := face1 (Y := (fun x i => lagrange xs i x)) (Z := fun _ _ => 1) (T := Set.univ) hy
    (by rfl : (ln20 p q)[0]? = some _) py
    (fun _ h => exists_node hx (by simp only [px] at *; omega))
    (fun _ _ => ⟨0, trivial, one_ne_zero⟩) h d
  simpa [snum, ln20, Comp.num, T3] using this

include hx hy px py in
/-- C48, inner 1-forms in 2d, the face of constant `x`. -/
theorem face21i_x (h : find21i p q 0 side = some l) :
    d ∈ l ↔ ∃ y ∈ Along ys, (rec21i xs ys (unit d) (sideNode xs side) y).2 ≠ 0 := by
  simp_rw [rec21i_1 xs ys px py, T2_T3]
  simp only [px, py, Nat.add_sub_cancel]
  have := face0 (Y := (fun y i => edge ys i y)) (Z := fun _ _ => 1) (T := Set.univ) hx
    (by rfl : (ln21i p q)[1]? = some _) px
    (fun _ h => exists_edge hy (by simp only [py] at *; omega))
    (fun _ _ => ⟨0, trivial, one_ne_zero⟩) h d
  simpa [snum, ln21i, Comp.num, T3] using this

include hx hy px py in
/-- C48, inner 1-forms in 2d, the face of constant `y`. -/
theorem face21i_y (h : find21i p q 1 side = some l) :
    d ∈ l ↔ ∃ x ∈ Along xs, (rec21i xs ys (unit d) x (sideNode ys side)).1 ≠ 0 := by
  simp_rw [rec21i_0 xs ys px py, T2_T3]
  simp only [px, py, Nat.add_sub_cancel]
  have := face1 (Y := (fun x i => edge xs i x)) (Z := fun _ _ => 1) (T := Set.univ) hy
    (by rfl : (ln21i p q)[0]? = some _) py
    (fun _ h => exists_edge hx (by simp only [px] at *; omega))
    (fun _ _ => ⟨0, trivial, one_ne_zero⟩) h d
  simpa [snum, ln21i, Comp.num, T3] using this

include hx hy px py in
/-- C48, outer 1-forms in 2d, the face of constant `x`. -/
theorem face21o_x (h : find21o p q 0 side = some l) :
    d ∈ l ↔ ∃ y ∈ Along ys, (rec21o xs ys (unit d) (sideNode xs side) y).1 ≠ 0 := by
  simp_rw [rec21o_0 xs ys px py, T2_T3]
  simp only [px, py, Nat.add_sub_cancel]
  have := face0 (Y := (fun y i => edge ys i y)) (Z := fun _ _ => 1) (T := Set.univ) hx
    (by rfl : (ln21o p q)[0]? = some _) px
    (fun _ h => exists_edge hy (by simp only [py] at *; omega))
    (fun _ _ => ⟨0, trivial, one_ne_zero⟩) h d
  simpa [snum, ln21o, Comp.num, T3] using this

include hx hy px py in
/-- C48, outer 1-forms in 2d, the face of constant `y`. -/
theorem face21o_y (h : find21o p q 1 side = some l) :
    d ∈ l ↔ ∃ x ∈ Along xs, (rec21o xs ys (unit d) x (sideNode ys side)).2 ≠ 0 := by
  simp_rw [rec21o_1 xs ys px py, T2_T3]
  simp only [px, py, Nat.add_sub_cancel]
  have := face1 (Y := (fun x i => edge xs i x)) (Z := fun _ _ => 1) (T := Set.univ) hy
    (by rfl : (ln21o p q)[1]? = some _) py
    (fun _ h => exists_edge hx (by simp only [px] at *; omega))
    (fun _ _ => ⟨0, trivial, one_ne_zero⟩) h d
  simpa [snum, ln21o, Comp.num, T3] using this

include hx px in
/-- C48, 0-forms in 1d. -/
theorem face10 (h : find10 p 0 side = some l) :
    d ∈ l ↔ rec10 xs (unit d) (sideNode xs side) ≠ 0 := by
  have := face0 (Y := fun _ _ => 1) (Z := fun _ _ => 1) (S := Set.univ) (T := Set.univ) hx
    (by rfl : (ln10 p)[0]? = some ⟨0, p + 1, 1, 1⟩) px
    (fun _ _ => ⟨0, trivial, one_ne_zero⟩) (fun _ _ => ⟨0, trivial, one_ne_zero⟩)
    (by simpa [find10] using h) d
  rw [this, rec10_eq, px]
  simp [snum, ln10, Comp.num, T3]

end

/-- C48: a face is named by an axis and a side; every face of an element is found, and every other
pair is refused. -/
theorem found {p q r axis side : ℕ} :
    ((find10 p axis side).isSome = true ↔ axis < 1 ∧ side < 2) ∧
    ((find20 p q axis side).isSome = true ↔ axis < 2 ∧ side < 2) ∧
    ((find21i p q axis side).isSome = true ↔ axis < 2 ∧ side < 2) ∧
    ((find21o p q axis side).isSome = true ↔ axis < 2 ∧ side < 2) ∧
    ((find30 p q r axis side).isSome = true ↔ axis < 3 ∧ side < 2) ∧
    ((find32 p q r axis side).isSome = true ↔ axis < 3 ∧ side < 2) := by
  have e : ∀ n, (atSide (n + 1) side).isSome = true ↔ side < 2 := by
    intro n
    unfold atSide
    rw [if_neg (by omega)]
    split_ifs with h0 h1
    · simp [h0]
    · simp [h1]
    · simp only [Option.isSome_none, Bool.false_eq_true, false_iff]; omega
  have c : axis = 0 ∨ axis = 1 ∨ axis = 2 ∨ 3 ≤ axis := by omega
  rcases c with rfl | rfl | rfl | c
  · simp [find10, find20, find21i, find21o, find30, find32, sliceOf, slice, ln10, ln20, ln21i, ln21o,
      ln30, ln32, e]
  · simp [find10, find20, find21i, find21o, find30, find32, sliceOf, slice, ln20, ln21i, ln21o,
      ln30, ln32, e]
  · simp [find10, find20, find21i, find21o, find30, find32, sliceOf, slice,
      ln30, ln32, e]
  · have h0 : axis ≠ 0 := by omega
    have h1 : axis ≠ 1 := by omega
    have h2 : axis ≠ 2 := by omega
    simp [find10, find20, find21i, find21o, find30, find32, h0, h1, h2, c]
    omega

/-- C48: no dof is listed twice on a face. -/
theorem found_nodup {ln : List Comp} {t axis side : ℕ} {l : List ℕ}
    (h : sliceOf ln t axis side = some l) : l.Nodup := by
  unfold sliceOf at h
  rw [Option.bind_eq_some_iff] at h
  obtain ⟨x, -, h⟩ := h
  have key : ∀ (n m : ℕ) (f : ℕ → ℕ → ℕ),
      (∀ i < n, ∀ j < m, ∀ i' < n, ∀ j' < m, f i j = f i' j' → i = i' ∧ j = j') →
      ((List.range n).flatMap fun i => (List.range m).map fun j => f i j).Nodup := by
    intro n m f hf
    rw [List.nodup_flatMap]
    constructor
    · intro i hi
      refine List.Nodup.map_on (fun j hj j' hj' e => ?_) List.nodup_range
      exact (hf i (List.mem_range.1 hi) j (List.mem_range.1 hj) i (List.mem_range.1 hi) j'
        (List.mem_range.1 hj') e).2
    · refine List.Pairwise.imp_of_mem (R := fun a b => a ≠ b) ?_ List.nodup_range
      intro i i' hi hi' hne
      simp only [Function.onFun, List.disjoint_left, List.mem_map, List.mem_range]
      rintro _ ⟨j, hj, rfl⟩ ⟨j', hj', e⟩
      exact hne (hf i' (List.mem_range.1 hi') j' hj' i (List.mem_range.1 hi) j hj e).1.symm
  unfold slice at h
  have side_lt : ∀ {n i : ℕ}, atSide n side = some i → i < n := by
    intro n i hi
    unfold atSide at hi
    split_ifs at hi <;> simp only [Option.some.injEq] at hi <;> omega
  split_ifs at h <;> simp only [Option.map_eq_some_iff] at h <;> obtain ⟨a, ha, rfl⟩ := h <;>
    have ha := side_lt ha
  · refine key _ _ (fun j k => x.num a j k) fun j hj k hk j' hj' k' hk' e => ?_
    exact (num_inj x ⟨ha, hj, hk⟩ ⟨ha, hj', hk'⟩ e).2
  · refine key _ _ (fun j k => x.num j a k) fun j hj k hk j' hj' k' hk' e => ?_
    have := num_inj x ⟨hj, ha, hk⟩ ⟨hj', ha, hk'⟩ e
    exact ⟨this.1, this.2.2⟩
  · refine key _ _ (fun j k => x.num j k a) fun j hj k hk j' hj' k' hk' e => ?_
    have := num_inj x ⟨hj, hk, ha⟩ ⟨hj', hk', ha⟩ e
    exact ⟨this.1, this.2.1⟩

/-- C48, 1-forms on the boundary of a 2d mesh: the four faces share no dof, and together have all
`2 (nWE + nNS)` of them. -/
theorem face2b_partition {nWE nNS : ℕ} :
    (∀ {a s a' s' : ℕ} {l l' : List ℕ} {d : ℕ}, find2b nWE nNS a s = some l →
      find2b nWE nNS a' s' = some l' → d ∈ l → d ∈ l' → a = a' ∧ s = s') ∧
    (∀ d, d < 2 * (nWE + nNS) ↔ ∃ a s l, find2b nWE nNS a s = some l ∧ d ∈ l) := by
  constructor
  · intro a s a' s' l l' d h h' hd hd'
    unfold find2b at h h'
    split_ifs at h with h0 h1 h2 h3 <;> simp only [Option.some.injEq] at h <;> subst h <;>
    split_ifs at h' with g0 g1 g2 g3 <;> simp only [Option.some.injEq] at h' <;> subst h' <;>
    simp only [List.mem_range'_1] at hd hd' <;> omega
  · intro d
    constructor
    · intro hd
      by_cases c0 : d < nNS
      · exact ⟨0, 0, _, by simp [find2b]; rfl, by simp [List.mem_range'_1]; omega⟩
      by_cases c1 : d < 2 * nNS
      · exact ⟨0, 1, _, by simp [find2b]; rfl, by simp [List.mem_range'_1]; omega⟩
      by_cases c2 : d < 2 * nNS + nWE
      · exact ⟨1, 0, _, by simp [find2b]; rfl, by simp [List.mem_range'_1]; omega⟩
      · exact ⟨1, 1, _, by simp [find2b]; rfl, by simp [List.mem_range'_1]; omega⟩
    · rintro ⟨a, s, l, h, hd⟩
      unfold find2b at h
      split_ifs at h <;> simp only [Option.some.injEq] at h <;> subst h <;>
        simp only [List.mem_range'_1] at hd <;> omega

/-- C48 fails for 1-forms in 3d: on the face of constant `x` the code returns the dofs of the edges
along `x`, none of which has a trace there: the reconstruction has no `dy` and no `dz` component at
all. -/
theorem face31_none {xs ys zs : List ℝ} {p q r : ℕ} (px : xs.length = p + 1) (py : ys.length = q + 1)
    (pz : zs.length = r + 1) {side d : ℕ} {l : List ℕ} (h : find31 p q r 0 side = some l) (hd : d ∈ l)
    (x y z : ℝ) :
    (rec31 xs ys zs (unit d) x y z).2.1 = 0 ∧ (rec31 xs ys zs (unit d) x y z).2.2 = 0 := by
  have hs : sliceOf (ln31 p q r) 0 0 side = some l := by simpa [find31] using h
  obtain ⟨i, hi, hl⟩ := slice0 (by rfl : (ln31 p q r)[0]? = some ⟨0, p, q + 1, r + 1⟩) hs
  obtain ⟨j, hj, k, hk, e⟩ := (hl d).1 hd
  have hi' : i < p := by
    unfold atSide at hi
    split_ifs at hi <;> simp only [Option.some.injEq] at hi <;> simp only [] at * <;> omega
  have lt := num_lt ⟨0, p, q + 1, r + 1⟩ (i := i) (j := j) (k := k) ⟨hi', hj, hk⟩
  rw [e] at lt
  simp only [Comp.size, Nat.zero_add] at lt
  rw [rec31_1 xs ys zs px py pz, rec31_2 xs ys zs px py pz]
  constructor
  · unfold T3
    refine sum_eq_zero fun k _ => sum_eq_zero fun j _ => sum_eq_zero fun i _ => ?_
    have : (unit d (snum (ln31 p q r) (1, i, j, k)) : ℝ) = 0 := by
      rw [unit, if_neg]
      simp only [snum, ln31, List.getElem?_cons_succ, List.getElem?_cons_zero, Comp.num]
      omega
    beta_reduce
    rw [this, mul_zero]
  · unfold T3
    refine sum_eq_zero fun k _ => sum_eq_zero fun j _ => sum_eq_zero fun i _ => ?_
    have : (unit d (snum (ln31 p q r) (2, i, j, k)) : ℝ) = 0 := by
      rw [unit, if_neg]
      simp only [snum, ln31, List.getElem?_cons_succ, List.getElem?_cons_zero, Comp.num]
      omega
    beta_reduce
    rw [this, mul_zero]

/-- C48 fails for 1-forms in 3d: not every dof returned has a trace on the face. -/
theorem face31_refuted :
    ¬ ∀ (xs ys zs : List ℝ) (p q r side : ℕ) (l : List ℕ), xs.Pairwise (· < ·) → ys.Pairwise (· < ·) →
      zs.Pairwise (· < ·) → xs.length = p + 1 → ys.length = q + 1 → zs.length = r + 1 →
      find31 p q r 0 side = some l → ∀ d ∈ l, ∃ y z,
        (rec31 xs ys zs (unit d) (sideNode xs side) y z).2.1 ≠ 0 ∨
        (rec31 xs ys zs (unit d) (sideNode xs side) y z).2.2 ≠ 0 := by
  intro H
  have hn : ([-1, 1] : List ℝ).Pairwise (· < ·) := by simp
  obtain ⟨y, z, h⟩ := H [-1, 1] [-1, 1] [-1, 1] 1 1 1 0 [0, 2, 1, 3] hn hn hn rfl rfl rfl (by decide +kernel)
    0 (by simp)
  have := face31_none (xs := [-1, 1]) (ys := [-1, 1]) (zs := [-1, 1]) (p := 1) (q := 1) (r := 1)
    (side := 0) (l := [0, 2, 1, 3]) rfl rfl rfl (by decide +kernel) (by simp : 0 ∈ [0, 2, 1, 3])
    (sideNode [-1, 1] 0) y z
  rcases h with h | h
  · exact h this.1
  · exact h this.2

/-! A case that meets the hypotheses: degree 2 in `x` and 1 in `y`; the outer 1-form dofs of the right
face and of the upper face, and the dofs that are not there. -/
example : ([-1, 0, 1] : List ℝ).Pairwise (· < ·) ∧ ([-1, 0, 1] : List ℝ).length = 2 + 1 ∧
    find21o 2 1 0 1 = some [2] ∧ find21o 2 1 1 1 = some [5, 6] ∧ find21i 2 1 0 1 = some [6] ∧
    find32 1 1 1 2 1 = some [5] ∧ find30 1 1 2 2 1 = some [8, 10, 9, 11] ∧ find20 1 1 2 0 = none := by
  refine ⟨by simp, rfl, ?_⟩
  decide +kernel

end Phyem.LocalDofs
