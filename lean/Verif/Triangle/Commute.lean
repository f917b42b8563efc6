import Verif.Triangle.Props
import Verif.Poly.Commute

/-!
C86, the continuous part: basis functions and reconstruction on triangles, on the reference square.
-/

namespace Phyem.Triangle

open Phyem.Numbering Phyem.Incidence Finset Poly

section
variable {K : Type} [Field K]

theorem sum_list_range {M : Type*} [AddCommMonoid M] (f : ℕ → M) (n : ℕ) :
    ((List.range n).map f).sum = ∑ i ∈ range n, f i := sum_range_list f n

theorem sum_flatMap_range (f : ℕ → ℕ → K) (n m : ℕ) :
    (((List.range n).flatMap fun j => (List.range m).map fun i => f j i)).sum =
      ∑ j ∈ range n, ∑ i ∈ range m, f j i := by
  induction n with
  | zero => simp
  | succ n ih =>
    rw [List.range_succ, List.flatMap_append, List.sum_append, ih, Finset.sum_range_succ]
    simp [sum_range_list]

theorem dot_cons (a : K) (l : List K) (o : ℕ) (c : ℕ → K) : dot (a :: l) o c = a * c o + dot l (o + 1) c := by
  unfold dot
  rw [List.length_cons, List.range_succ_eq_map]
  simp only [List.map_cons, List.map_map, List.sum_cons, List.getD_cons_zero, Nat.add_zero]
  congr 2
  apply List.map_congr_left
  intro i _
  simp [Nat.add_assoc, Nat.add_comm 1]

theorem dot_append (l m : List K) (o : ℕ) (c : ℕ → K) : dot (l ++ m) o c = dot l o c + dot m (o + l.length) c := by
  induction l generalizing o with
  | nil => simp [dot]
  | cons a l ih =>
    rw [List.cons_append, dot_cons, dot_cons, ih, List.length_cons, show o + 1 + l.length = o + (l.length + 1) by omega]
    ring

theorem dot_range (f : ℕ → K) (n o : ℕ) (c : ℕ → K) :
    dot ((List.range n).map f) o c = ∑ i ∈ range n, f i * c (o + i) := by
  unfold dot
  rw [sum_range_list]
  simp only [List.length_map, List.length_range]
  refine sum_congr rfl fun i hi => ?_
  rw [mem_range] at hi
  congr 1
  simp [List.getD_eq_getElem?_getD, hi]

theorem dot_flatMap (f : ℕ → ℕ → K) (n m o : ℕ) (c : ℕ → K) :
    dot ((List.range n).flatMap fun j => (List.range m).map fun i => f j i) o c =
      ∑ j ∈ range n, ∑ i ∈ range m, f j i * c (o + (i + m * j)) := by
  induction n with
  | zero => simp [dot]
  | succ n ih =>
    rw [List.range_succ, List.flatMap_append, dot_append, ih, Finset.sum_range_succ]
    congr 1
    simp only [List.flatMap_cons, List.flatMap_nil, List.append_nil]
    rw [dot_range]
    refine sum_congr rfl fun i _ => ?_
    congr 2
    have : ((List.range n).flatMap fun j => (List.range m).map fun i => f j i).length = n * m := by
      simp [List.length_flatMap]
    rw [this, mul_comm]
    omega

/-- The reconstruction of a 0-form on a triangle: all nodes of the collapsed side have the same coefficient. -/
theorem recT0_eq (xs ys : List K) {p q : ℕ} (px : xs.length = p + 1) (py : ys.length = q + 1) (c : ℕ → K) (x y : K) :
    recT0 xs ys c x y =
      T2 (fun i => lagrange xs i x) (fun j => lagrange ys j y) xs.length ys.length
        (fun i j => c (sn0 p q i j)) := by
  have hg : ∀ i j, i < p + 1 → j < q + 1 →
      (kron (nodes ys y) (nodes xs x)).getD (i + xs.length * j) 0 = lagrange ys j y * lagrange xs i x := by
    intro i j hi hj
    have := kron_getD (nodes ys y) (nodes xs x) j i (by rw [nodes_length]; omega) (by rw [nodes_length]; omega)
    rw [nodes_length] at this
    rw [this, nodes_getD _ _ (by omega), nodes_getD _ _ (by omega)]
  unfold recT0 bfT0
  simp only
  rw [dot_cons, List.map_flatMap]
  simp only [List.map_map, Function.comp_def]
  rw [dot_flatMap, sum_range_list]
  unfold T2
  rw [Finset.sum_mul, ← Finset.sum_add_distrib]
  refine sum_congr rfl fun j hj => ?_
  rw [mem_range] at hj
  rw [px, Finset.sum_range_succ', add_comm, Nat.add_sub_cancel]
  congr 1
  · refine sum_congr rfl fun i hi => ?_
    rw [mem_range] at hi
    have := hg (i + 1) j (by omega) (by omega)
    rw [px] at this
    rw [this]
    simp [sn0, at0, snum, lnT0, Comp.num]
  · have := hg 0 j (by omega) (by omega)
    rw [px, Nat.zero_add] at this
    rw [this]
    simp [sn0, at0, snum, lnT0, Comp.num]

theorem T2_tail (X Y : ℕ → K) (a b : ℕ) (c : ℕ → ℕ → K) :
    T2 (fun i => X (i + 1)) Y a b c = T2 X Y (a + 1) b (fun i j => if i = 0 then 0 else c (i - 1) j) := by
  unfold T2
  refine sum_congr rfl fun j _ => ?_
  rw [Finset.sum_range_succ']
  simp

theorem nodes_tail_getD (xs : List K) (x : K) {i : ℕ} (h : i + 1 < xs.length) :
    (nodes xs x).tail.getD i 0 = lagrange xs (i + 1) x := by
  rw [← nodes_getD xs x h]
  simp [List.getD_eq_getElem?_getD]

theorem nodes_tail_length (xs : List K) (x : K) : (nodes xs x).tail.length = xs.length - 1 := by
  simp [nodes_length]

theorem recT1i_0 (xs ys : List K) {p q : ℕ} (px : xs.length = p + 1) (c : ℕ → K) (x y : K) :
    (recT1i xs ys c x y).1 =
      T2 (fun i => edge xs i x) (fun j => lagrange ys j y) (xs.length - 1) ys.length (xiI p q c) := by
  simp only [recT1i, bfT1i, List.getD_cons_zero]
  rw [kron_T2]
  simp only [nodes_length, edges_length]
  refine T2_congr (fun a ha => edges_getD _ _ ha) (fun a ha => nodes_getD _ _ ha) (fun _ _ _ _ => ?_)
  simp [xiI, snum, lnT1i, Comp.num, px]

theorem recT1i_1 (xs ys : List K) {p q : ℕ} (px : xs.length = p + 1) (py : ys.length = q + 1) (c : ℕ → K) (x y : K) :
    (recT1i xs ys c x y).2 =
      T2 (fun i => lagrange xs i x) (fun j => edge ys j y) xs.length (ys.length - 1) (etI p q c) := by
  have hd : recT1i xs ys c x y = (dot (kron (nodes ys y) (edges xs x)) 0 c,
      dot (kron (edges ys y) (nodes xs x).tail) ((xs.length - 1) * ys.length) c) := rfl
  rw [hd]
  dsimp only
  rw [kron_T2]
  simp only [nodes_tail_length, edges_length]
  rw [px, Nat.add_sub_cancel]
  refine (T2_congr (fun a ha => nodes_tail_getD xs x (i := a) (by omega)) (fun a ha => edges_getD _ _ ha)
    (fun _ _ _ _ => rfl)).trans ?_
  refine (T2_tail (fun i => lagrange xs i x) _ p _ _).trans ?_
  refine T2_congr (fun _ _ => rfl) (fun _ _ => rfl) (fun i _ j _ => ?_)
  simp only [etI]
  split_ifs
  · rfl
  · simp [snum, lnT1i, Comp.num, py]

theorem recT1o_0 (xs ys : List K) {p q : ℕ} (px : xs.length = p + 1) (c : ℕ → K) (x y : K) :
    (recT1o xs ys c x y).1 =
      T2 (fun i => lagrange xs i x) (fun j => edge ys j y) xs.length (ys.length - 1) (etO p q c) := by
  have hd : recT1o xs ys c x y = (dot (kron (edges ys y) (nodes xs x).tail) 0 c,
      dot (kron (nodes ys y) (edges xs x)) ((xs.length - 1) * (ys.length - 1)) c) := rfl
  rw [hd]
  dsimp only
  rw [kron_T2]
  simp only [nodes_tail_length, edges_length]
  rw [px, Nat.add_sub_cancel]
  refine (T2_congr (fun a ha => nodes_tail_getD xs x (i := a) (by omega)) (fun a ha => edges_getD _ _ ha)
    (fun _ _ _ _ => rfl)).trans ?_
  refine (T2_tail (fun i => lagrange xs i x) _ p _ _).trans ?_
  refine T2_congr (fun _ _ => rfl) (fun _ _ => rfl) (fun i _ j _ => ?_)
  simp only [etO]
  split_ifs
  · rfl
  · simp [snum, lnT1o, Comp.num]

theorem recT1o_1 (xs ys : List K) {p q : ℕ} (px : xs.length = p + 1) (py : ys.length = q + 1) (c : ℕ → K) (x y : K) :
    (recT1o xs ys c x y).2 =
      T2 (fun i => edge xs i x) (fun j => lagrange ys j y) (xs.length - 1) ys.length (xiO p q c) := by
  have hd : recT1o xs ys c x y = (dot (kron (edges ys y) (nodes xs x).tail) 0 c,
      dot (kron (nodes ys y) (edges xs x)) ((xs.length - 1) * (ys.length - 1)) c) := rfl
  rw [hd]
  dsimp only
  rw [kron_T2]
  simp only [nodes_length, edges_length]
  refine T2_congr (fun a ha => edges_getD _ _ ha) (fun a ha => nodes_getD _ _ ha) (fun _ _ _ _ => ?_)
  simp [xiO, snum, lnT1o, Comp.num, px, py]

end

/-! ### The reconstruction commutes with the derivative -/

section
variable {K : Type} [NontriviallyNormedField K] {xs ys : List K} (hx : xs.Nodup) (hy : ys.Nodup) {p q : ℕ}
  (px : xs.length = p + 1) (py : ys.length = q + 1) (c : ℕ → K) (x y : K)

include hx hy px py

/-- C86, inner 0-forms: the gradient. -/
theorem grad :
    HasDerivAt (fun t => recT0 xs ys c t y) (recT1i xs ys (app (nT0 p q) (ET0i p q) c) x y).1 x ∧
    HasDerivAt (fun t => recT0 xs ys c x t) (recT1i xs ys (app (nT0 p q) (ET0i p q) c) x y).2 y := by
  obtain ⟨h1, h2, -⟩ := inner_differences p q c
  rw [recT1i_0 (q := q) xs ys px, recT1i_1 xs ys px py]
  simp_rw [recT0_eq xs ys px py]
  constructor
  · refine (dX2 hx _ _ _ x).congr_deriv (T2_congr (fun _ _ => rfl) (fun _ _ => rfl) ?_)
    intro i hi j hj
    rw [h1 i j (by omega) (by omega)]
  · refine (dY2 hy _ _ _ y).congr_deriv (T2_congr (fun _ _ => rfl) (fun _ _ => rfl) ?_)
    intro i hi j hj
    rw [h2 i j (by omega) (by omega)]

/-- C86, inner 1-forms `(u, v)`: the rotation `∂v/∂xi - ∂u/∂eta`. -/
theorem rot :
    ∃ vx uy, HasDerivAt (fun t => (recT1i xs ys c t y).2) vx x ∧
      HasDerivAt (fun t => (recT1i xs ys c x t).1) uy y ∧
      rec22 xs ys (app (nT1 p q) (ET1i p q) c) x y = vx - uy := by
  obtain ⟨-, -, h3⟩ := inner_differences p q c
  simp_rw [recT1i_0 (q := q) xs ys px, recT1i_1 xs ys px py]
  refine ⟨_, _, dX2 hx _ _ _ x, dY2 hy _ _ _ y, ?_⟩
  rw [rec22_0 xs ys px py, ← T2_sub]
  refine T2_congr (fun _ _ => rfl) (fun _ _ => rfl) ?_
  intro i hi j hj
  rw [h3 i j (by omega) (by omega)]

/-- C86, outer 0-forms: the curl `(∂/∂eta, -∂/∂xi)`. -/
theorem curl :
    HasDerivAt (fun t => recT0 xs ys c x t) (recT1o xs ys (app (nT0 p q) (ET0o p q) c) x y).1 y ∧
    HasDerivAt (fun t => recT0 xs ys c t y) (-(recT1o xs ys (app (nT0 p q) (ET0o p q) c) x y).2) x := by
  obtain ⟨h1, h2, -⟩ := outer_differences p q c
  rw [recT1o_0 (q := q) xs ys px, recT1o_1 xs ys px py, ← T2_neg]
  simp_rw [recT0_eq xs ys px py]
  constructor
  · refine (dY2 hy _ _ _ y).congr_deriv (T2_congr (fun _ _ => rfl) (fun _ _ => rfl) ?_)
    intro i hi j hj
    rw [h1 i j (by omega) (by omega)]
  · refine (dX2 hx _ _ _ x).congr_deriv (T2_congr (fun _ _ => rfl) (fun _ _ => rfl) ?_)
    intro i hi j hj
    rw [h2 i j (by omega) (by omega), neg_neg]

/-- C86, outer 1-forms `(u, v)`: the divergence `∂u/∂xi + ∂v/∂eta`. -/
theorem div :
    ∃ ux vy, HasDerivAt (fun t => (recT1o xs ys c t y).1) ux x ∧
      HasDerivAt (fun t => (recT1o xs ys c x t).2) vy y ∧
      rec22 xs ys (app (nT1 p q) (ET1o p q) c) x y = ux + vy := by
  obtain ⟨-, -, h3⟩ := outer_differences p q c
  simp_rw [recT1o_0 (q := q) xs ys px, recT1o_1 xs ys px py]
  refine ⟨_, _, dX2 hx _ _ _ x, dY2 hy _ _ _ y, ?_⟩
  rw [rec22_0 xs ys px py, ← T2_add]
  refine T2_congr (fun _ _ => rfl) (fun _ _ => rfl) ?_
  intro i hi j hj
  rw [h3 i j (by omega) (by omega)]

end

/-! ### The collapsed side and duality -/

section
variable {xs ys : List ℝ} (hx : xs.Nodup) (hy : ys.Nodup) {p q : ℕ}
  (px : xs.length = p + 1) (py : ys.length = q + 1) (c : ℕ → ℝ)

include hx hy px py

/-- C86: a reconstructed 0-form is one value on the collapsed side, so it is a function on the triangle; the component of a
1-form along (inner) or across (outer) the collapsed side vanishes there. -/
theorem collapsed (y : ℝ) :
    recT0 xs ys c (node xs 0) y = c 0 ∧ (recT1i xs ys c (node xs 0) y).2 = 0 ∧
      (recT1o xs ys c (node xs 0) y).1 = 0 := by
  have hl : ∀ i < xs.length, lagrange xs i (node xs 0) = unit 0 i := fun i hi => lagrange_node hx hi (by omega)
  have h0 : ∀ (Y : ℕ → ℝ) (b : ℕ) (d : ℕ → ℕ → ℝ),
      T2 (fun i => lagrange xs i (node xs 0)) Y xs.length b d = ∑ j ∈ range b, Y j * d 0 j := by
    intro Y b d
    unfold T2
    refine sum_congr rfl fun j _ => ?_
    rw [← sum_unit (show 0 < xs.length by omega) (fun i => Y j * d i j)]
    refine sum_congr rfl fun i hi => ?_
    dsimp only
    rw [hl i (mem_range.1 hi)]
    ring
  rw [recT0_eq xs ys px py, recT1i_1 xs ys px py, recT1o_0 (q := q) xs ys px, h0, h0, h0]
  refine ⟨?_, ?_, ?_⟩
  · have e : ∀ j, sn0 p q 0 j = 0 := fun j => by simp [sn0, at0, snum, lnT0, Comp.num]
    simp only [e]
    rw [← Finset.sum_mul]
    have := lagrange_partition_of_unity hy (by rintro rfl; simp at py) y
    rw [sum_range_list] at this
    rw [this, one_mul]
  · simp [etI]
  · simp [etO]

/-- C86, 0-forms: the value at a node is the coefficient. -/
theorem dofs0 (i j : ℕ) (hi : i < p + 1) (hj : j < q + 1) :
    recT0 xs ys c (node xs i) (node ys j) = c (sn0 p q i j) := by
  rw [recT0_eq xs ys px py]
  exact (T2_congr (fun a ha => lagrange_node hx ha (by omega)) (fun a ha => lagrange_node hy ha (by omega))
    (fun _ _ _ _ => rfl)).trans (T2_unit (by omega) (by omega) _)

/-- C86, inner 1-forms: the integral of the tangential component along an edge is the coefficient. -/
theorem dofs1i :
    (∀ i j, i < p → j < q + 1 →
      (∫ x in (node xs i)..(node xs (i + 1)), (recT1i xs ys c x (node ys j)).1) =
        c (snum (lnT1i p q) (0, i, j, 0))) ∧
    (∀ i j, i < p → j < q →
      (∫ y in (node ys j)..(node ys (j + 1)), (recT1i xs ys c (node xs (i + 1)) y).2) =
        c (snum (lnT1i p q) (1, i, j, 0))) := by
  refine ⟨?_, ?_⟩ <;> intro i j hi hj
  · simp_rw [recT1i_0 (q := q) xs ys px c]
    rw [iX2 hx (by omega : i < xs.length - 1) _ _ _]
    exact (T2_congr (fun _ _ => rfl) (fun a ha => lagrange_node hy ha (by omega)) (fun _ _ _ _ => rfl)).trans
      (T2_unit (by omega) (by omega) _)
  · simp_rw [recT1i_1 xs ys px py c]
    rw [iY2 hy (by omega : j < ys.length - 1) _ _ _]
    exact (T2_congr (fun a ha => lagrange_node hx ha (by omega)) (fun _ _ => rfl) (fun _ _ _ _ => rfl)).trans
      (T2_unit (l := i + 1) (by omega) (by omega) _)

/-- C86, outer 1-forms: the integral of the normal component along an edge is the coefficient. -/
theorem dofs1o :
    (∀ i j, i < p → j < q →
      (∫ y in (node ys j)..(node ys (j + 1)), (recT1o xs ys c (node xs (i + 1)) y).1) =
        c (snum (lnT1o p q) (0, i, j, 0))) ∧
    (∀ i j, i < p → j < q + 1 →
      (∫ x in (node xs i)..(node xs (i + 1)), (recT1o xs ys c x (node ys j)).2) =
        c (snum (lnT1o p q) (1, i, j, 0))) := by
  refine ⟨?_, ?_⟩ <;> intro i j hi hj
  · simp_rw [recT1o_0 (q := q) xs ys px c]
    rw [iY2 hy (by omega : j < ys.length - 1) _ _ _]
    exact (T2_congr (fun a ha => lagrange_node hx ha (by omega)) (fun _ _ => rfl) (fun _ _ _ _ => rfl)).trans
      (T2_unit (l := i + 1) (by omega) (by omega) _)
  · simp_rw [recT1o_1 xs ys px py c]
    rw [iX2 hx (by omega : i < xs.length - 1) _ _ _]
    exact (T2_congr (fun _ _ => rfl) (fun a ha => lagrange_node hy ha (by omega)) (fun _ _ _ _ => rfl)).trans
      (T2_unit (by omega) (by omega) _)

end

/-- The hypotheses are met: two intervals along `xi`, one along `eta`. -/
example : (([-1, 0, 1] : List ℚ).Nodup ∧ ([-1, 1] : List ℚ).Nodup) ∧
    recT0 [-1, 0, 1] [-1, 1] (fun n => (n : ℚ)) 0 (1 / 2) = 5 / 2 := by
  constructor
  · decide
  · norm_num [recT0, bfT0, dot, kron, nodes, lagrange, node, List.range_succ]

end Phyem.Triangle
