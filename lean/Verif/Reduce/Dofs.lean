import Verif.Reduce.Index
import Verif.Triangle.Model
import Mathlib.Tactic.NormNum

/-! The entry of a reduced cochain at every local dof. -/

namespace Phyem.Reduce

open Phyem.Numbering Phyem.Incidence Phyem.Poly

variable {α K : Type} [Field K]

/-- Entry `m` of a cochain. -/
def dof (c : List K) (m : ℕ) : K := c.getD m 0

lemma dof_of {c : List K} {m : ℕ} {a : K} (h : c[m]? = some a) : dof c m = a := by simp [dof, List.getD, h]

lemma inCell_eq (xs : List K) (i : ℕ) (t : K) :
    inCell xs i t = node xs i + (node xs (i + 1) - node xs i) / 2 * (t + 1) := by
  unfold inCell node; ring

lemma quarter : (1 / 4 : K) = 1 / 2 * (1 / 2) := by rw [div_mul_div_comm, one_mul]; norm_num

lemma eighth : (1 / 8 : K) = 1 / 2 * (1 / 2 * (1 / 2)) := by
  rw [div_mul_div_comm, div_mul_div_comm, one_mul, one_mul]; norm_num

lemma len_eq (xs : List K) (i : ℕ) : len xs i = node xs (i + 1) - node xs i := rfl

section one
variable {xs : List K} {p : ℕ} (px : xs.length = p + 1)

include px in
lemma red10_at (Φ f : K → K) {i : ℕ} (hi : i < p + 1) : dof (red10 Φ f xs) i = f (Φ (node xs i)) := by
  apply dof_of
  simp [red10, node_at (show i < xs.length by omega)]

include px in
lemma red11_at (Φ D f : K → K) (qs ws : List K) {i : ℕ} (hi : i < p) :
    dof (red11 Φ D f xs qs ws) i = rule qs ws (fun x => f (Φ x) * D x) (node xs i) (node xs (i + 1)) := by
  have hs := sizes_at (xs := xs) (i := i) (by omega)
  have h := along_at (g := fun x => f (Φ x) * D x) (ws := ws) (moved_at (qs := qs) hs (dropLast_at (xs := xs) (i := i) (by omega))) hs
  rw [← sum_rule]
  apply dof_of
  refine h.trans ?_
  rw [zipWith_map]

include px in
lemma red10_length (Φ f : K → K) : (red10 Φ f xs).length = p + 1 := by simp [red10, px]

include px in
lemma red11_length (Φ D f : K → K) (qs ws : List K) : (red11 Φ D f xs qs ws).length = p := by
  simp [red11, along, sizes, px]

end one

section two
variable {xs ys : List K} {p q : ℕ} (px : xs.length = p + 1) (py : ys.length = q + 1)

include px py in
lemma red20_at (Φ : K → K → K × K) (f : K × K → K) {i j : ℕ} (hi : i < p + 1) (hj : j < q + 1) :
    dof (red20 Φ f xs ys) (snum (ln20 p q) (0, i, j, 0)) = f (Φ (node xs i) (node ys j)) := by
  apply dof_of
  have := loop_at (fun i j => f (Φ (node xs i) (node ys j))) (n := xs.length) (m := ys.length) (i := i) (j := j) (by omega)
    (by omega)
  unfold red20
  rw [flatMap_eq_range]
  simp_rw [map_eq_range xs]
  simpa [snum, ln20, Comp.num, px] using this

include px py in
lemma red20_length (Φ : K → K → K × K) (f : K × K → K) : (red20 Φ f xs ys).length = nd20 p q := by
  simp [red20, List.length_flatMap, px, py, nd20, Nat.mul_comm]

include px py in
lemma alongX2_at (g : K × K → K) (qx wx : List K) {i j : ℕ} (hi : i < p) (hj : j < q + 1) :
    (along g wx (colsX2 p q xs ys qx) (sizeX2 q xs))[i + p * j]? =
      some (rule qx wx (fun x => g (x, node ys j)) (node xs i) (node xs (i + 1))) := by
  have hc : (tile (cells xs qx) (q + 1))[i + p * j]? = some (onEdge xs qx i) := by
    have := tile_at (cells xs qx) (i := i) (j := j) (n := q + 1) (by rw [cells_length]; omega) hj
    rw [cells_length, px, Nat.add_sub_cancel] at this
    rw [this, cells_at (by omega)]
  have hs : (sizeX2 q xs)[i + p * j]? = some (node xs (i + 1) - node xs i) := by
    have := tile_at (sizes xs) (i := i) (j := j) (n := q + 1) (by rw [sizes_length]; omega) hj
    rw [sizes_length, px, Nat.add_sub_cancel] at this
    rw [sizeX2, this, sizes_at (by omega)]
  have he : (rep ys p)[i + p * j]? = some (node ys j) := by rw [rep_at _ hi, node_at (by omega)]
  rw [colsX2, along_at (pts2_at hc (same_at he)) hs, ← sum_rule]
  have : qx.length = (onEdge xs qx i).length := by simp [onEdge]
  rw [this, zip_replicate_right, zipWith_map, onEdge, zipWith_map]

include px py in
lemma alongY2_at (g : K × K → K) (qy wy : List K) {i j : ℕ} (hi : i < p + 1) (hj : j < q) :
    (along g wy (colsY2 p q xs ys qy) (sizeY2 p ys))[i + (p + 1) * j]? =
      some (rule qy wy (fun y => g (node xs i, y)) (node ys j) (node ys (j + 1))) := by
  have hc : (rep (cells ys qy) (p + 1))[i + (p + 1) * j]? = some (onEdge ys qy j) := by
    rw [rep_at _ hi, cells_at (by omega)]
  have hs : (sizeY2 p ys)[i + (p + 1) * j]? = some (node ys (j + 1) - node ys j) := by
    rw [sizeY2, rep_at _ hi, sizes_at (by omega)]
  have he : (tile xs q)[i + (p + 1) * j]? = some (node xs i) := by
    have := tile_at xs (i := i) (j := j) (n := q) (by omega) hj
    rw [px] at this
    rw [this, node_at (by omega)]
  rw [colsY2, along_at (pts2_at (same_at he) hc) hs, ← sum_rule]
  have : qy.length = (onEdge ys qy j).length := by simp [onEdge]
  rw [this, zip_replicate_left, zipWith_map, onEdge, zipWith_map]

lemma along_length (g : α → K) (ws : List K) (pts : List (List α)) (size : List K) :
    (along g ws pts size).length = min pts.length size.length := by simp [along]

include px py in
lemma alongX2_length (g : K × K → K) (qx wx : List K) :
    (along g wx (colsX2 p q xs ys qx) (sizeX2 q xs)).length = p * (q + 1) := by
  simp [along, colsX2, pts2, same, sizeX2, tile_length, rep_length, cells_length, sizes_length, px, py, Nat.mul_comm]

include px py in
lemma alongY2_length (g : K × K → K) (qy wy : List K) :
    (along g wy (colsY2 p q xs ys qy) (sizeY2 p ys)).length = (p + 1) * q := by
  simp [along, colsY2, pts2, same, sizeY2, tile_length, rep_length, cells_length, sizes_length, px, py, Nat.mul_comm]

lemma lt_mul {a b i j : ℕ} (hi : i < a) (hj : j < b) : i + a * j < a * b :=
  calc i + a * j < a + a * j := by omega
    _ = a * (j + 1) := by ring
    _ ≤ a * b := Nat.mul_le_mul_left _ hj

variable (Φ : K → K → K × K) (J : K → K → ℕ → ℕ → K) (v : K × K → K × K) (f : K × K → K) (qx wx qy wy : List K)

include px py in
lemma red21i_at0 {i j : ℕ} (hi : i < p) (hj : j < q + 1) :
    dof (red21i Φ J v p q xs ys qx wx qy wy) (snum (ln21i p q) (0, i, j, 0)) =
      rule qx wx (fun x => J x (node ys j) 0 0 * (v (Φ x (node ys j))).1 + J x (node ys j) 1 0 * (v (Φ x (node ys j))).2)
        (node xs i) (node xs (i + 1)) := by
  apply dof_of
  have h := alongX2_at px py (fun P => J P.1 P.2 0 0 * (v (Φ P.1 P.2)).1 + J P.1 P.2 1 0 * (v (Φ P.1 P.2)).2) qx wx hi hj
  have e : snum (ln21i p q) (0, i, j, 0) = i + p * j := by simp [snum, ln21i, Comp.num]
  rw [e, red21i, List.getElem?_append_left, red21i_dx, h]
  rw [red21i_dx, alongX2_length px py]
  exact lt_mul hi hj

include px py in
lemma red21i_at1 {i j : ℕ} (hi : i < p + 1) (hj : j < q) :
    dof (red21i Φ J v p q xs ys qx wx qy wy) (snum (ln21i p q) (1, i, j, 0)) =
      rule qy wy (fun y => J (node xs i) y 0 1 * (v (Φ (node xs i) y)).1 + J (node xs i) y 1 1 * (v (Φ (node xs i) y)).2)
        (node ys j) (node ys (j + 1)) := by
  apply dof_of
  have h := alongY2_at px py (fun P => J P.1 P.2 0 1 * (v (Φ P.1 P.2)).1 + J P.1 P.2 1 1 * (v (Φ P.1 P.2)).2) qy wy hi hj
  have e : snum (ln21i p q) (1, i, j, 0) = p * (q + 1) + (i + (p + 1) * j) := by simp [snum, ln21i, Comp.num]
  have hl : (red21i_dx Φ J v p q xs ys qx wx).length = p * (q + 1) := alongX2_length px py _ _ _
  rw [e, red21i, List.getElem?_append_right (by rw [hl]; omega), hl, Nat.add_sub_cancel_left, red21i_dy, h]

include px py in
lemma red21i_length : (red21i Φ J v p q xs ys qx wx qy wy).length = nd21 p q := by
  rw [red21i, List.length_append, red21i_dx, red21i_dy, alongX2_length px py, alongY2_length px py, nd21, Nat.add_comm]

include px py in
lemma red21o_at0 {i j : ℕ} (hi : i < p + 1) (hj : j < q) :
    dof (red21o Φ J v p q xs ys qx wx qy wy) (snum (ln21o p q) (0, i, j, 0)) =
      rule qy wy (fun y => -J (node xs i) y 0 1 * (v (Φ (node xs i) y)).2 + J (node xs i) y 1 1 * (v (Φ (node xs i) y)).1)
        (node ys j) (node ys (j + 1)) := by
  apply dof_of
  have h := alongY2_at px py (fun P => -J P.1 P.2 0 1 * (v (Φ P.1 P.2)).2 + J P.1 P.2 1 1 * (v (Φ P.1 P.2)).1) qy wy hi hj
  have e : snum (ln21o p q) (0, i, j, 0) = i + (p + 1) * j := by simp [snum, ln21o, Comp.num]
  rw [e, red21o, List.getElem?_append_left, red21o_dy, h]
  rw [red21o_dy, alongY2_length px py]
  exact lt_mul hi hj

include px py in
lemma red21o_at1 {i j : ℕ} (hi : i < p) (hj : j < q + 1) :
    dof (red21o Φ J v p q xs ys qx wx qy wy) (snum (ln21o p q) (1, i, j, 0)) =
      rule qx wx (fun x => J x (node ys j) 0 0 * (v (Φ x (node ys j))).2 - J x (node ys j) 1 0 * (v (Φ x (node ys j))).1)
        (node xs i) (node xs (i + 1)) := by
  apply dof_of
  have h := alongX2_at px py (fun P => J P.1 P.2 0 0 * (v (Φ P.1 P.2)).2 - J P.1 P.2 1 0 * (v (Φ P.1 P.2)).1) qx wx hi hj
  have e : snum (ln21o p q) (1, i, j, 0) = (p + 1) * q + (i + p * j) := by simp [snum, ln21o, Comp.num]
  have hl : (red21o_dy Φ J v p q xs ys qy wy).length = (p + 1) * q := alongY2_length px py _ _ _
  rw [e, red21o, List.getElem?_append_right (by rw [hl]; omega), hl, Nat.add_sub_cancel_left, red21o_dx, h]

include px py in
lemma red21o_length : (red21o Φ J v p q xs ys qx wx qy wy).length = nd21 p q := by
  rw [red21o, List.length_append, red21o_dx, red21o_dy, alongX2_length px py, alongY2_length px py, nd21]

lemma red22_at {i j : ℕ} (hi : i < p) (hj : j < q) :
    dof (red22 Φ J f p q xs ys qx wx qy wy) (snum (ln22 p q) (0, i, j, 0)) =
      rule2 qx wx qy wy (fun x y => f (Φ x y) * (J x y 0 0 * J x y 1 1 - J x y 0 1 * J x y 1 0))
        (node xs i) (node xs (i + 1)) (node ys j) (node ys (j + 1)) := by
  have e : snum (ln22 p q) (0, i, j, 0) = i + p * j := by simp [snum, ln22, Comp.num]
  rw [e, ← sum_rule2]
  apply dof_of
  unfold red22
  rw [loop_at (fun i j => _) hi hj]
  congr 1
  rw [len_eq, len_eq]
  congr 1
  · congr 1
    refine zipWith_ext fun s _ ws _ => ?_
    congr 1
    refine zipWith_ext fun t _ wt _ => ?_
    simp only [inCell_eq]
    ring
  · rw [quarter]; ring

lemma red22_length : (red22 Φ J f p q xs ys qx wx qy wy).length = nd22 p q := loop_length _ _ _

end two

section three
variable {xs ys zs : List K} {p q r : ℕ} (px : xs.length = p + 1) (py : ys.length = q + 1) (pz : zs.length = r + 1)

include px py pz in
lemma red30_at (Φ : K → K → K → K × K × K) (f : K × K × K → K) {i j k : ℕ} (hi : i < p + 1) (hj : j < q + 1)
    (hk : k < r + 1) :
    dof (red30 Φ f xs ys zs) (snum (ln30 p q r) (0, i, j, k)) = f (Φ (node xs i) (node ys j) (node zs k)) := by
  apply dof_of
  have := loop3_at (fun i j k => f (Φ (node xs i) (node ys j) (node zs k))) (a := xs.length) (b := ys.length)
    (c := zs.length) (i := i) (j := j) (k := k) (by omega) (by omega) (by omega)
  unfold red30
  rw [flatMap_eq_range]
  simp_rw [flatMap_eq_range ys, map_eq_range xs]
  simpa [snum, ln30, Comp.num, px, py] using this

include px py pz in
lemma red30_length (Φ : K → K → K → K × K × K) (f : K × K × K → K) : (red30 Φ f xs ys zs).length = nd30 p q r := by
  simp [red30, List.length_flatMap, px, py, pz, nd30, Nat.mul_comm, Nat.mul_left_comm]

include px py pz in
lemma alongX3_at (g : K × K × K → K) (qx wx : List K) {i j k : ℕ} (hi : i < p) (hj : j < q + 1) (hk : k < r + 1) :
    (along g wx (colsX3 p q r xs ys zs qx) (sizeX3 q r xs))[i + p * (j + (q + 1) * k)]? =
      some (rule qx wx (fun x => g (x, node ys j, node zs k)) (node xs i) (node xs (i + 1))) := by
  have hjk := lt_mul hj hk
  have hs : (sizeX3 q r xs)[i + p * (j + (q + 1) * k)]? = some (node xs (i + 1) - node xs i) := by
    have := tile_at (sizes xs) (i := i) (by rw [sizes_length]; omega) hjk
    rw [sizes_length, px, Nat.add_sub_cancel] at this
    rw [sizeX3, this, sizes_at (by omega)]
  have ha : (tile xs.dropLast ((q + 1) * (r + 1)))[i + p * (j + (q + 1) * k)]? = some (node xs i) := by
    have := tile_at xs.dropLast (i := i) (by simp; omega) hjk
    rw [List.length_dropLast, px, Nat.add_sub_cancel] at this
    rw [this, dropLast_at (by omega)]
  have hy : (tile (rep ys p) (r + 1))[i + p * (j + (q + 1) * k)]? = some (node ys j) := by
    have hl : (rep ys p).length = p * (q + 1) := by rw [rep_length, py, Nat.mul_comm]
    have := tile_at (rep ys p) (i := i + p * j) (by rw [hl]; exact lt_mul hi hj) hk
    rw [hl] at this
    rw [show i + p * (j + (q + 1) * k) = i + p * j + p * (q + 1) * k by ring, this, rep_at _ hi, node_at (by omega)]
  have hz : (rep zs (p * (q + 1)))[i + p * (j + (q + 1) * k)]? = some (node zs k) := by
    rw [show i + p * (j + (q + 1) * k) = i + p * j + p * (q + 1) * k by ring, rep_at _ (lt_mul hi hj), node_at (by omega)]
  rw [colsX3, along_at (pts3_at (moved_at hs ha) (same_at hy) (same_at hz)) hs, ← sum_rule]
  have : (List.replicate qx.length (node ys j)).zip (List.replicate qx.length (node zs k)) =
      List.replicate (qx.map fun t => node xs i + (node xs (i + 1) - node xs i) / 2 * (t + 1)).length
        (node ys j, node zs k) := by simp
  rw [this, zip_replicate_right, zipWith_map, zipWith_map]

include px py pz in
lemma alongY3_at (g : K × K × K → K) (qy wy : List K) {i j k : ℕ} (hi : i < p + 1) (hj : j < q) (hk : k < r + 1) :
    (along g wy (colsY3 p q r xs ys zs qy) (sizeY3 p r ys))[i + (p + 1) * (j + q * k)]? =
      some (rule qy wy (fun y => g (node xs i, y, node zs k)) (node ys j) (node ys (j + 1))) := by
  have hjk := lt_mul hj hk
  have e : i + (p + 1) * (j + q * k) = i + (p + 1) * j + (p + 1) * q * k := by ring
  have hs : (sizeY3 p r ys)[i + (p + 1) * (j + q * k)]? = some (node ys (j + 1) - node ys j) := by
    have hl : (rep (sizes ys) (p + 1)).length = (p + 1) * q := by
      rw [rep_length, sizes_length, py, Nat.mul_comm, Nat.add_sub_cancel]
    have := tile_at (rep (sizes ys) (p + 1)) (i := i + (p + 1) * j) (by rw [hl]; exact lt_mul hi hj) hk
    rw [hl] at this
    rw [sizeY3, e, this, rep_at _ hi, sizes_at (by omega)]
  have ha : (tile (rep ys.dropLast (p + 1)) (r + 1))[i + (p + 1) * (j + q * k)]? = some (node ys j) := by
    have hl : (rep ys.dropLast (p + 1)).length = (p + 1) * q := by
      rw [rep_length, List.length_dropLast, py, Nat.mul_comm, Nat.add_sub_cancel]
    have := tile_at (rep ys.dropLast (p + 1)) (i := i + (p + 1) * j) (by rw [hl]; exact lt_mul hi hj) hk
    rw [hl] at this
    rw [e, this, rep_at _ hi, dropLast_at (by omega)]
  have hx : (tile xs (q * (r + 1)))[i + (p + 1) * (j + q * k)]? = some (node xs i) := by
    have := tile_at xs (i := i) (by omega) hjk
    rw [px] at this
    rw [this, node_at (by omega)]
  have hz : (rep zs (q * (p + 1)))[i + (p + 1) * (j + q * k)]? = some (node zs k) := by
    rw [e, Nat.mul_comm q, rep_at _ (lt_mul hi hj), node_at (by omega)]
  rw [colsY3, along_at (pts3_at (same_at hx) (moved_at hs ha) (same_at hz)) hs, ← sum_rule]
  generalize hL : (qy.map fun t => node ys j + (node ys (j + 1) - node ys j) / 2 * (t + 1)) = L
  have hl : qy.length = L.length := by rw [← hL]; simp
  rw [hl, zip_replicate_right]
  have : (List.replicate L.length (node xs i)).zip (L.map fun b => (b, node zs k)) =
      L.map fun b => (node xs i, b, node zs k) := by
    rw [show L.length = (L.map fun b => (b, node zs k)).length by simp, zip_replicate_left, List.map_map]
    rfl
  rw [this, zipWith_map, ← hL, zipWith_map]

include px py pz in
lemma alongZ3_at (g : K × K × K → K) (qz wz : List K) {i j k : ℕ} (hi : i < p + 1) (hj : j < q + 1) (hk : k < r) :
    (along g wz (colsZ3 p q r xs ys zs qz) (sizeZ3 p q zs))[i + (p + 1) * (j + (q + 1) * k)]? =
      some (rule qz wz (fun z => g (node xs i, node ys j, z)) (node zs k) (node zs (k + 1))) := by
  have hjk := lt_mul hj hk
  have e : i + (p + 1) * (j + (q + 1) * k) = i + (p + 1) * j + (p + 1) * (q + 1) * k := by ring
  have hs : (sizeZ3 p q zs)[i + (p + 1) * (j + (q + 1) * k)]? = some (node zs (k + 1) - node zs k) := by
    rw [sizeZ3, rep_rep, e, rep_at _ (lt_mul hi hj), sizes_at (by omega)]
  have ha : (rep zs.dropLast ((p + 1) * (q + 1)))[i + (p + 1) * (j + (q + 1) * k)]? = some (node zs k) := by
    rw [e, rep_at _ (lt_mul hi hj), dropLast_at (by omega)]
  have hx : (tile xs ((q + 1) * r))[i + (p + 1) * (j + (q + 1) * k)]? = some (node xs i) := by
    have := tile_at xs (i := i) (by omega) hjk
    rw [px] at this
    rw [this, node_at (by omega)]
  have hy : (tile (rep ys (p + 1)) r)[i + (p + 1) * (j + (q + 1) * k)]? = some (node ys j) := by
    have hl : (rep ys (p + 1)).length = (p + 1) * (q + 1) := by rw [rep_length, py, Nat.mul_comm]
    have := tile_at (rep ys (p + 1)) (i := i + (p + 1) * j) (by rw [hl]; exact lt_mul hi hj) hk
    rw [hl] at this
    rw [e, this, rep_at _ hi, node_at (by omega)]
  rw [colsZ3, along_at (pts3_at (same_at hx) (same_at hy) (moved_at hs ha)) hs, ← sum_rule]
  generalize hL : (qz.map fun t => node zs k + (node zs (k + 1) - node zs k) / 2 * (t + 1)) = L
  have hl : qz.length = L.length := by rw [← hL]; simp
  rw [hl, zip_replicate_left]
  have : (List.replicate L.length (node xs i)).zip (L.map fun b => (node ys j, b)) =
      L.map fun b => (node xs i, node ys j, b) := by
    rw [show L.length = (L.map fun b => (node ys j, b)).length by simp, zip_replicate_left, List.map_map]
    rfl
  rw [this, zipWith_map, ← hL, zipWith_map]

variable (Φ : K → K → K → K × K × K) (J : K → K → K → ℕ → ℕ → K) (v : K × K × K → K × K × K) (f : K × K × K → K)
  (qx wx qy wy qz wz : List K)

include px py pz in
lemma lengths31 (g0 g1 g2 : K × K × K → K) :
    (along g0 wx (colsX3 p q r xs ys zs qx) (sizeX3 q r xs)).length = p * (q + 1) * (r + 1) ∧
    (along g1 wy (colsY3 p q r xs ys zs qy) (sizeY3 p r ys)).length = (p + 1) * q * (r + 1) ∧
    (along g2 wz (colsZ3 p q r xs ys zs qz) (sizeZ3 p q zs)).length = (p + 1) * (q + 1) * r := by
  refine ⟨?_, ?_, ?_⟩ <;>
  · simp [along, colsX3, sizeX3, colsY3, sizeY3, colsZ3, sizeZ3, pts3, moved, same, tile_length, rep_length, sizes_length,
      px, py, pz, Nat.mul_comm, Nat.mul_left_comm]

include px py pz in
lemma red31_at0 {i j k : ℕ} (hi : i < p) (hj : j < q + 1) (hk : k < r + 1) :
    dof (red31 Φ J v p q r xs ys zs qx wx qy wy qz wz) (snum (ln31 p q r) (0, i, j, k)) =
      rule qx wx (fun x => column Φ J v 0 (x, node ys j, node zs k)) (node xs i) (node xs (i + 1)) := by
  apply dof_of
  obtain ⟨l0, l1, l2⟩ := lengths31 px py pz qx wx qy wy qz wz (column Φ J v 0) (column Φ J v 1) (column Φ J v 2)
  have e : snum (ln31 p q r) (0, i, j, k) = i + p * (j + (q + 1) * k) := by simp [snum, ln31, Comp.num]
  have hlt : i + p * (j + (q + 1) * k) < p * (q + 1) * (r + 1) := by rw [Nat.mul_assoc]; exact lt_mul hi (lt_mul hj hk)
  rw [e, red31, List.getElem?_append_left (by rw [List.length_append, l0]; omega),
    List.getElem?_append_left (by rw [l0]; exact hlt), alongX3_at px py pz _ _ _ hi hj hk]

include px py pz in
lemma red31_at1 {i j k : ℕ} (hi : i < p + 1) (hj : j < q) (hk : k < r + 1) :
    dof (red31 Φ J v p q r xs ys zs qx wx qy wy qz wz) (snum (ln31 p q r) (1, i, j, k)) =
      rule qy wy (fun y => column Φ J v 1 (node xs i, y, node zs k)) (node ys j) (node ys (j + 1)) := by
  apply dof_of
  obtain ⟨l0, l1, l2⟩ := lengths31 px py pz qx wx qy wy qz wz (column Φ J v 0) (column Φ J v 1) (column Φ J v 2)
  have e : snum (ln31 p q r) (1, i, j, k) = p * (q + 1) * (r + 1) + (i + (p + 1) * (j + q * k)) := by
    simp [snum, ln31, Comp.num]
  have hlt : i + (p + 1) * (j + q * k) < (p + 1) * q * (r + 1) := by rw [Nat.mul_assoc]; exact lt_mul hi (lt_mul hj hk)
  rw [e, red31, List.getElem?_append_left (by rw [List.length_append, l0, l1]; omega),
    List.getElem?_append_right (by rw [l0]; omega), l0, Nat.add_sub_cancel_left, alongY3_at px py pz _ _ _ hi hj hk]

include px py pz in
lemma red31_at2 {i j k : ℕ} (hi : i < p + 1) (hj : j < q + 1) (hk : k < r) :
    dof (red31 Φ J v p q r xs ys zs qx wx qy wy qz wz) (snum (ln31 p q r) (2, i, j, k)) =
      rule qz wz (fun z => column Φ J v 2 (node xs i, node ys j, z)) (node zs k) (node zs (k + 1)) := by
  apply dof_of
  obtain ⟨l0, l1, l2⟩ := lengths31 px py pz qx wx qy wy qz wz (column Φ J v 0) (column Φ J v 1) (column Φ J v 2)
  have e : snum (ln31 p q r) (2, i, j, k) =
      p * (q + 1) * (r + 1) + (p + 1) * q * (r + 1) + (i + (p + 1) * (j + (q + 1) * k)) := by
    simp [snum, ln31, Comp.num]
  rw [e, red31, List.getElem?_append_right (by rw [List.length_append, l0, l1]; omega), List.length_append, l0, l1,
    Nat.add_sub_cancel_left, alongZ3_at px py pz _ _ _ hi hj hk]

include px py pz in
lemma red31_length : (red31 Φ J v p q r xs ys zs qx wx qy wy qz wz).length = nd31 p q r := by
  obtain ⟨l0, l1, l2⟩ := lengths31 px py pz qx wx qy wy qz wz (column Φ J v 0) (column Φ J v 1) (column Φ J v 2)
  rw [red31, List.length_append, List.length_append, l0, l1, l2, nd31]

lemma over_eq (g : K → K → K) (xs ys : List K) (i j : ℕ) (q1 w1 q2 w2 : List K) :
    over (fun a b => g (inCell xs i a) (inCell ys j b)) q1 w1 q2 w2 (len xs i * len ys j) =
      rule2 q1 w1 q2 w2 g (node xs i) (node xs (i + 1)) (node ys j) (node ys (j + 1)) := by
  rw [← sum_rule2, over, len_eq, len_eq]
  simp only [inCell_eq]
  congr 1
  rw [quarter]; ring

lemma lengths32 (g0 g1 g2 : ℕ → ℕ → ℕ → K) :
    ((List.range r).flatMap fun k => (List.range q).flatMap fun j => (List.range (p + 1)).map fun i => g0 i j k).length =
      (p + 1) * q * r ∧
    ((List.range r).flatMap fun k => (List.range (q + 1)).flatMap fun j => (List.range p).map fun i => g1 i j k).length =
      p * (q + 1) * r ∧
    ((List.range (r + 1)).flatMap fun k => (List.range q).flatMap fun j => (List.range p).map fun i => g2 i j k).length =
      p * q * (r + 1) := ⟨loop3_length _ _ _ _, loop3_length _ _ _ _, loop3_length _ _ _ _⟩

lemma red32_at0 {i j k : ℕ} (hi : i < p + 1) (hj : j < q) (hk : k < r) :
    dof (red32 Φ J v p q r xs ys zs qx wx qy wy qz wz) (snum (ln32 p q r) (0, i, j, k)) =
      rule2 qy wy qz wz (fun y z => faceX Φ J v (node xs i) y z) (node ys j) (node ys (j + 1)) (node zs k) (node zs (k + 1)) := by
  apply dof_of
  have e : snum (ln32 p q r) (0, i, j, k) = i + (p + 1) * (j + q * k) := by simp [snum, ln32, Comp.num]
  have hlt : i + (p + 1) * (j + q * k) < (p + 1) * q * r := by rw [Nat.mul_assoc]; exact lt_mul hi (lt_mul hj hk)
  rw [e, red32, List.getElem?_append_left (by rw [List.length_append, (loop3_length _ _ _ _)]; omega),
    List.getElem?_append_left (by rw [loop3_length]; exact hlt), loop3_at (fun i j k => _) hi hj hk, mul_comm (len zs k)]
  exact congrArg some (over_eq (fun y z => faceX Φ J v (node xs i) y z) ys zs j k qy wy qz wz)

lemma red32_at1 {i j k : ℕ} (hi : i < p) (hj : j < q + 1) (hk : k < r) :
    dof (red32 Φ J v p q r xs ys zs qx wx qy wy qz wz) (snum (ln32 p q r) (1, i, j, k)) =
      rule2 qx wx qz wz (fun x z => faceY Φ J v x (node ys j) z) (node xs i) (node xs (i + 1)) (node zs k) (node zs (k + 1)) := by
  apply dof_of
  have e : snum (ln32 p q r) (1, i, j, k) = (p + 1) * q * r + (i + p * (j + (q + 1) * k)) := by
    simp [snum, ln32, Comp.num]
  have hlt : i + p * (j + (q + 1) * k) < p * (q + 1) * r := by rw [Nat.mul_assoc]; exact lt_mul hi (lt_mul hj hk)
  rw [e, red32, List.getElem?_append_left (by rw [List.length_append, loop3_length, loop3_length]; omega),
    List.getElem?_append_right (by rw [loop3_length]; omega), loop3_length, Nat.add_sub_cancel_left,
    loop3_at (fun i j k => _) hi hj hk, mul_comm (len zs k)]
  exact congrArg some (over_eq (fun x z => faceY Φ J v x (node ys j) z) xs zs i k qx wx qz wz)

lemma red32_at2 {i j k : ℕ} (hi : i < p) (hj : j < q) (hk : k < r + 1) :
    dof (red32 Φ J v p q r xs ys zs qx wx qy wy qz wz) (snum (ln32 p q r) (2, i, j, k)) =
      rule2 qx wx qy wy (fun x y => faceZ Φ J v x y (node zs k)) (node xs i) (node xs (i + 1)) (node ys j) (node ys (j + 1)) := by
  apply dof_of
  have e : snum (ln32 p q r) (2, i, j, k) = (p + 1) * q * r + p * (q + 1) * r + (i + p * (j + q * k)) := by
    simp [snum, ln32, Comp.num]
  rw [e, red32, List.getElem?_append_right (by rw [List.length_append, loop3_length, loop3_length]; omega),
    List.length_append, loop3_length, loop3_length, Nat.add_sub_cancel_left,
    loop3_at (fun i j k => _) hi hj hk, mul_comm (len ys j)]
  exact congrArg some (over_eq (fun x y => faceZ Φ J v x y (node zs k)) xs ys i j qx wx qy wy)

lemma red32_length : (red32 Φ J v p q r xs ys zs qx wx qy wy qz wz).length = nd32 p q r := by
  rw [red32, List.length_append, List.length_append, loop3_length, loop3_length, loop3_length, nd32]

lemma red33_at {i j k : ℕ} (hi : i < p) (hj : j < q) (hk : k < r) :
    dof (red33 Φ J f p q r xs ys zs qx wx qy wy qz wz) (snum (ln33 p q r) (0, i, j, k)) =
      rule3 qx wx qy wy qz wz (fun x y z => f (Φ x y z) * jac3 (J x y z))
        (node xs i) (node xs (i + 1)) (node ys j) (node ys (j + 1)) (node zs k) (node zs (k + 1)) := by
  have e : snum (ln33 p q r) (0, i, j, k) = i + p * (j + q * k) := by simp [snum, ln33, Comp.num]
  rw [e, ← sum_rule3]
  apply dof_of
  unfold red33
  rw [loop3_at (fun i j k => _) hi hj hk]
  congr 1
  rw [len_eq, len_eq, len_eq]
  congr 1
  · congr 1
    refine zipWith_ext fun s _ ws _ => ?_
    congr 1
    refine zipWith_ext fun t _ wt _ => ?_
    congr 1
    refine zipWith_ext fun u _ wu _ => ?_
    simp only [inCell_eq]
    ring
  · rw [eighth]; ring

lemma red33_length : (red33 Φ J f p q r xs ys zs qx wx qy wy qz wz).length = nd33 p q r := loop3_length _ _ _ _

end three

end Phyem.Reduce
