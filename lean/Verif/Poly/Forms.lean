import Verif.Poly.Tensor

/-!
The reconstructions as sums over the local numbering. (Twelve instances of one statement.)
-/

namespace Phyem.Poly

open Finset Phyem.Incidence Phyem.Numbering

variable {K : Type} [Field K]

theorem rec30_0 (xs ys zs : List K) {p q r : ℕ} (px : xs.length = p + 1)
    (py : ys.length = q + 1) (pz : zs.length = r + 1) (c : ℕ → K) (x y z : K) :
    (rec30 xs ys zs c x y z) =
      T3 (fun i => lagrange xs i x) (fun j => lagrange ys j y) (fun k => lagrange zs k z)
        xs.length ys.length zs.length (fun i j k => c (snum (ln30 p q r) (0, i, j, k))) := by
  unfold rec30
  try dsimp only
  rw [kron3_T3]
  simp only [nodes_length, edges_length]
  refine T3_congr (fun a ha => nodes_getD _ _ ha)
    (fun a ha => nodes_getD _ _ ha)
    (fun a ha => nodes_getD _ _ ha) (fun _ _ _ _ _ _ => ?_)
  simp [snum, ln30, Comp.num, px, py, pz]

theorem rec31_0 (xs ys zs : List K) {p q r : ℕ} (px : xs.length = p + 1)
    (py : ys.length = q + 1) (pz : zs.length = r + 1) (c : ℕ → K) (x y z : K) :
    (rec31 xs ys zs c x y z).1 =
      T3 (fun i => edge xs i x) (fun j => lagrange ys j y) (fun k => lagrange zs k z)
        (xs.length - 1) ys.length zs.length (fun i j k => c (snum (ln31 p q r) (0, i, j, k))) := by
  unfold rec31
  try dsimp only
  rw [kron3_T3]
  simp only [nodes_length, edges_length]
  refine T3_congr (fun a ha => edges_getD _ _ ha)
    (fun a ha => nodes_getD _ _ ha)
    (fun a ha => nodes_getD _ _ ha) (fun _ _ _ _ _ _ => ?_)
  simp [snum, ln31, Comp.num, px, py, pz]

theorem rec31_1 (xs ys zs : List K) {p q r : ℕ} (px : xs.length = p + 1)
    (py : ys.length = q + 1) (pz : zs.length = r + 1) (c : ℕ → K) (x y z : K) :
    (rec31 xs ys zs c x y z).2.1 =
      T3 (fun i => lagrange xs i x) (fun j => edge ys j y) (fun k => lagrange zs k z)
        xs.length (ys.length - 1) zs.length (fun i j k => c (snum (ln31 p q r) (1, i, j, k))) := by
  unfold rec31
  try dsimp only
  rw [kron3_T3]
  simp only [nodes_length, edges_length]
  refine T3_congr (fun a ha => nodes_getD _ _ ha)
    (fun a ha => edges_getD _ _ ha)
    (fun a ha => nodes_getD _ _ ha) (fun _ _ _ _ _ _ => ?_)
  simp [snum, ln31, Comp.num, px, py, pz]

theorem rec31_2 (xs ys zs : List K) {p q r : ℕ} (px : xs.length = p + 1)
    (py : ys.length = q + 1) (pz : zs.length = r + 1) (c : ℕ → K) (x y z : K) :
    (rec31 xs ys zs c x y z).2.2 =
      T3 (fun i => lagrange xs i x) (fun j => lagrange ys j y) (fun k => edge zs k z)
        xs.length ys.length (zs.length - 1) (fun i j k => c (snum (ln31 p q r) (2, i, j, k))) := by
  unfold rec31
  try dsimp only
  rw [kron3_T3]
  simp only [nodes_length, edges_length]
  refine T3_congr (fun a ha => nodes_getD _ _ ha)
    (fun a ha => nodes_getD _ _ ha)
    (fun a ha => edges_getD _ _ ha) (fun _ _ _ _ _ _ => ?_)
  simp [snum, ln31, Comp.num, px, py, pz]

theorem rec32_0 (xs ys zs : List K) {p q r : ℕ} (px : xs.length = p + 1)
    (py : ys.length = q + 1) (pz : zs.length = r + 1) (c : ℕ → K) (x y z : K) :
    (rec32 xs ys zs c x y z).1 =
      T3 (fun i => lagrange xs i x) (fun j => edge ys j y) (fun k => edge zs k z)
        xs.length (ys.length - 1) (zs.length - 1) (fun i j k => c (snum (ln32 p q r) (0, i, j, k))) := by
  unfold rec32
  try dsimp only
  rw [kron3_T3]
  simp only [nodes_length, edges_length]
  refine T3_congr (fun a ha => nodes_getD _ _ ha)
    (fun a ha => edges_getD _ _ ha)
    (fun a ha => edges_getD _ _ ha) (fun _ _ _ _ _ _ => ?_)
  simp [snum, ln32, Comp.num, px, py, pz]

theorem rec32_1 (xs ys zs : List K) {p q r : ℕ} (px : xs.length = p + 1)
    (py : ys.length = q + 1) (pz : zs.length = r + 1) (c : ℕ → K) (x y z : K) :
    (rec32 xs ys zs c x y z).2.1 =
      T3 (fun i => edge xs i x) (fun j => lagrange ys j y) (fun k => edge zs k z)
        (xs.length - 1) ys.length (zs.length - 1) (fun i j k => c (snum (ln32 p q r) (1, i, j, k))) := by
  unfold rec32
  try dsimp only
  rw [kron3_T3]
  simp only [nodes_length, edges_length]
  refine T3_congr (fun a ha => edges_getD _ _ ha)
    (fun a ha => nodes_getD _ _ ha)
    (fun a ha => edges_getD _ _ ha) (fun _ _ _ _ _ _ => ?_)
  simp [snum, ln32, Comp.num, px, py, pz]

theorem rec32_2 (xs ys zs : List K) {p q r : ℕ} (px : xs.length = p + 1)
    (py : ys.length = q + 1) (pz : zs.length = r + 1) (c : ℕ → K) (x y z : K) :
    (rec32 xs ys zs c x y z).2.2 =
      T3 (fun i => edge xs i x) (fun j => edge ys j y) (fun k => lagrange zs k z)
        (xs.length - 1) (ys.length - 1) zs.length (fun i j k => c (snum (ln32 p q r) (2, i, j, k))) := by
  unfold rec32
  try dsimp only
  rw [kron3_T3]
  simp only [nodes_length, edges_length]
  refine T3_congr (fun a ha => edges_getD _ _ ha)
    (fun a ha => edges_getD _ _ ha)
    (fun a ha => nodes_getD _ _ ha) (fun _ _ _ _ _ _ => ?_)
  simp [snum, ln32, Comp.num, px, py, pz]

theorem rec33_0 (xs ys zs : List K) {p q r : ℕ} (px : xs.length = p + 1)
    (py : ys.length = q + 1) (pz : zs.length = r + 1) (c : ℕ → K) (x y z : K) :
    (rec33 xs ys zs c x y z) =
      T3 (fun i => edge xs i x) (fun j => edge ys j y) (fun k => edge zs k z)
        (xs.length - 1) (ys.length - 1) (zs.length - 1) (fun i j k => c (snum (ln33 p q r) (0, i, j, k))) := by
  unfold rec33
  try dsimp only
  rw [kron3_T3]
  simp only [nodes_length, edges_length]
  refine T3_congr (fun a ha => edges_getD _ _ ha)
    (fun a ha => edges_getD _ _ ha)
    (fun a ha => edges_getD _ _ ha) (fun _ _ _ _ _ _ => ?_)
  simp [snum, ln33, Comp.num, px, py, pz]

theorem rec20_0 (xs ys : List K) {p q : ℕ} (px : xs.length = p + 1)
    (py : ys.length = q + 1) (c : ℕ → K) (x y : K) :
    (rec20 xs ys c x y) =
      T2 (fun i => lagrange xs i x) (fun j => lagrange ys j y)
        xs.length ys.length (fun i j => c (snum (ln20 p q) (0, i, j, 0))) := by
  unfold rec20
  try dsimp only
  rw [kron_T2]
  simp only [nodes_length, edges_length]
  refine T2_congr (fun a ha => nodes_getD _ _ ha)
    (fun a ha => nodes_getD _ _ ha) (fun _ _ _ _ => ?_)
  simp [snum, ln20, Comp.num, px, py]

theorem rec21i_0 (xs ys : List K) {p q : ℕ} (px : xs.length = p + 1)
    (py : ys.length = q + 1) (c : ℕ → K) (x y : K) :
    (rec21i xs ys c x y).1 =
      T2 (fun i => edge xs i x) (fun j => lagrange ys j y)
        (xs.length - 1) ys.length (fun i j => c (snum (ln21i p q) (0, i, j, 0))) := by
  unfold rec21i
  try dsimp only
  rw [kron_T2]
  simp only [nodes_length, edges_length]
  refine T2_congr (fun a ha => edges_getD _ _ ha)
    (fun a ha => nodes_getD _ _ ha) (fun _ _ _ _ => ?_)
  simp [snum, ln21i, Comp.num, px, py, n21i]

theorem rec21i_1 (xs ys : List K) {p q : ℕ} (px : xs.length = p + 1)
    (py : ys.length = q + 1) (c : ℕ → K) (x y : K) :
    (rec21i xs ys c x y).2 =
      T2 (fun i => lagrange xs i x) (fun j => edge ys j y)
        xs.length (ys.length - 1) (fun i j => c (snum (ln21i p q) (1, i, j, 0))) := by
  unfold rec21i
  try dsimp only
  rw [kron_T2]
  simp only [nodes_length, edges_length]
  refine T2_congr (fun a ha => nodes_getD _ _ ha)
    (fun a ha => edges_getD _ _ ha) (fun _ _ _ _ => ?_)
  simp [snum, ln21i, Comp.num, px, py, n21i]

theorem rec21o_0 (xs ys : List K) {p q : ℕ} (px : xs.length = p + 1)
    (py : ys.length = q + 1) (c : ℕ → K) (x y : K) :
    (rec21o xs ys c x y).1 =
      T2 (fun i => lagrange xs i x) (fun j => edge ys j y)
        xs.length (ys.length - 1) (fun i j => c (snum (ln21o p q) (0, i, j, 0))) := by
  unfold rec21o
  try dsimp only
  rw [kron_T2]
  simp only [nodes_length, edges_length]
  refine T2_congr (fun a ha => nodes_getD _ _ ha)
    (fun a ha => edges_getD _ _ ha) (fun _ _ _ _ => ?_)
  simp [snum, ln21o, Comp.num, px, py, n21o]

theorem rec21o_1 (xs ys : List K) {p q : ℕ} (px : xs.length = p + 1)
    (py : ys.length = q + 1) (c : ℕ → K) (x y : K) :
    (rec21o xs ys c x y).2 =
      T2 (fun i => edge xs i x) (fun j => lagrange ys j y)
        (xs.length - 1) ys.length (fun i j => c (snum (ln21o p q) (1, i, j, 0))) := by
  unfold rec21o
  try dsimp only
  rw [kron_T2]
  simp only [nodes_length, edges_length]
  refine T2_congr (fun a ha => edges_getD _ _ ha)
    (fun a ha => nodes_getD _ _ ha) (fun _ _ _ _ => ?_)
  simp [snum, ln21o, Comp.num, px, py, n21o]

theorem rec22_0 (xs ys : List K) {p q : ℕ} (px : xs.length = p + 1)
    (py : ys.length = q + 1) (c : ℕ → K) (x y : K) :
    (rec22 xs ys c x y) =
      T2 (fun i => edge xs i x) (fun j => edge ys j y)
        (xs.length - 1) (ys.length - 1) (fun i j => c (snum (ln22 p q) (0, i, j, 0))) := by
  unfold rec22
  try dsimp only
  rw [kron_T2]
  simp only [nodes_length, edges_length]
  refine T2_congr (fun a ha => edges_getD _ _ ha)
    (fun a ha => edges_getD _ _ ha) (fun _ _ _ _ => ?_)
  simp [snum, ln22, Comp.num, px, py]

end Phyem.Poly
