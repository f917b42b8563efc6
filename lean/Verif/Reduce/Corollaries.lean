import Verif.Reduce.RoundTrip

/-!
C116 with quadrature that is exact: the reduction of the derivative is the incidence matrix applied to the reduction,
without an error, when the integrands are polynomials that the quadrature integrates exactly.
-/

namespace Phyem.Reduce

open Set Numbering Incidence Poly Polynomial

/-- `g` is, on the reference square, a polynomial of degree at most `n` in each variable. -/
def PolyOn2 (n : ℕ) (g : ℝ → ℝ → ℝ) : Prop :=
  ∃ a : ℕ → ℕ → ℝ, ∀ x ∈ I, ∀ y ∈ I, g x y = ∑ k ∈ Finset.range (n + 1), ∑ l ∈ Finset.range (n + 1), y ^ l * a k l * x ^ k

/-- `g` is, on the reference cube, a polynomial of degree at most `n` in each variable. -/
def PolyOn3 (n : ℕ) (g : ℝ → ℝ → ℝ → ℝ) : Prop :=
  ∃ a : ℕ → ℕ → ℕ → ℝ, ∀ x ∈ I, ∀ y ∈ I, ∀ z ∈ I, g x y z =
    ∑ k ∈ Finset.range (n + 1), ∑ l ∈ Finset.range (n + 1), ∑ m ∈ Finset.range (n + 1), z ^ m * a k l m * y ^ l * x ^ k

section
variable {n : ℕ} {qx wx qy wy qz wz : List ℝ}

lemma rule_pow {qs ws : List ℝ} (h : ExactTo n qs ws) {k : ℕ} (hk : k ≤ n) (a b : ℝ) :
    rule qs ws (fun x => x ^ k) a b = ∫ x in a..b, x ^ k := by
  have := rule_poly h (X ^ k) (by rw [natDegree_X_pow]; exact hk) a b
  simpa using this

lemma rule_pows {qs ws : List ℝ} (h : ExactTo n qs ws) (c : ℕ → ℝ) (a b : ℝ) :
    rule qs ws (fun x => ∑ k ∈ Finset.range (n + 1), x ^ k * c k) a b = ∫ x in a..b, ∑ k ∈ Finset.range (n + 1), x ^ k * c k := by
  rw [rule_sum, intervalIntegral.integral_finsetSum]
  · refine Finset.sum_congr rfl fun k hk => ?_
    rw [rule_mul_const, rule_pow h (by rw [Finset.mem_range] at hk; omega), intervalIntegral.integral_mul_const]
  · intro k _
    exact ((continuous_pow k).mul continuous_const).intervalIntegrable _ _

lemma int_pows (c : ℕ → ℝ) (a b : ℝ) :
    ∫ x in a..b, ∑ k ∈ Finset.range (n + 1), x ^ k * c k = ∑ k ∈ Finset.range (n + 1), (∫ x in a..b, x ^ k) * c k := by
  rw [intervalIntegral.integral_finsetSum]
  · exact Finset.sum_congr rfl fun k _ => intervalIntegral.integral_mul_const _ _
  · intro k _
    exact ((continuous_pow k).mul continuous_const).intervalIntegrable _ _

lemma rule2_pows (hX : ExactTo n qx wx) (hY : ExactTo n qy wy) (c : ℕ → ℕ → ℝ) (a b d e : ℝ) :
    rule2 qx wx qy wy (fun x y => ∑ k ∈ Finset.range (n + 1), ∑ l ∈ Finset.range (n + 1), y ^ l * c k l * x ^ k) a b d e =
      ∫ x in a..b, ∫ y in d..e, ∑ k ∈ Finset.range (n + 1), ∑ l ∈ Finset.range (n + 1), y ^ l * c k l * x ^ k := by
  have s : ∀ x y : ℝ, (∑ k ∈ Finset.range (n + 1), ∑ l ∈ Finset.range (n + 1), y ^ l * c k l * x ^ k) =
      ∑ l ∈ Finset.range (n + 1), y ^ l * ∑ k ∈ Finset.range (n + 1), c k l * x ^ k := fun x y => by
    rw [Finset.sum_comm]
    exact Finset.sum_congr rfl fun l _ => by rw [Finset.mul_sum]; exact Finset.sum_congr rfl fun k _ => by ring
  have t : ∀ x : ℝ, (∑ l ∈ Finset.range (n + 1), (∫ y in d..e, y ^ l) * ∑ k ∈ Finset.range (n + 1), c k l * x ^ k) =
      ∑ k ∈ Finset.range (n + 1), x ^ k * ∑ l ∈ Finset.range (n + 1), (∫ y in d..e, y ^ l) * c k l := fun x => by
    simp_rw [Finset.mul_sum]
    rw [Finset.sum_comm]
    exact Finset.sum_congr rfl fun l _ => Finset.sum_congr rfl fun k _ => by ring
  unfold rule2
  simp_rw [s, rule_pows hY, int_pows, t, rule_pows hX]

/-- The error of the product rule vanishes for polynomials. -/
lemma err2_zero (hX : ExactTo n qx wx) (hY : ExactTo n qy wy) (hqx : ∀ t ∈ qx, t ∈ I) (hqy : ∀ t ∈ qy, t ∈ I)
    {g : ℝ → ℝ → ℝ} (hg : PolyOn2 n g) {a b c d : ℝ} (ha : a ∈ I) (hb : b ∈ I) (hc : c ∈ I) (hd : d ∈ I) :
    err2 qx wx qy wy g a b c d = 0 := by
  obtain ⟨A, e⟩ := hg
  rw [err2, rule2_congr hqx hqy e ha hb hc hd, rule2_pows hX hY, abs_eq_zero, sub_eq_zero]
  refine intervalIntegral.integral_congr fun x hx => ?_
  exact intervalIntegral.integral_congr fun y hy => (e x (sub_I ha hb hx) y (sub_I hc hd hy)).symm

lemma rule3_pows (hX : ExactTo n qx wx) (hY : ExactTo n qy wy) (hZ : ExactTo n qz wz) (c : ℕ → ℕ → ℕ → ℝ) (a b d e f g : ℝ) :
    rule3 qx wx qy wy qz wz (fun x y z => ∑ k ∈ Finset.range (n + 1), ∑ l ∈ Finset.range (n + 1), ∑ m ∈ Finset.range (n + 1),
      z ^ m * c k l m * y ^ l * x ^ k) a b d e f g =
      ∫ x in a..b, ∫ y in d..e, ∫ z in f..g, ∑ k ∈ Finset.range (n + 1), ∑ l ∈ Finset.range (n + 1),
        ∑ m ∈ Finset.range (n + 1), z ^ m * c k l m * y ^ l * x ^ k := by
  have s : ∀ x y z : ℝ, (∑ k ∈ Finset.range (n + 1), ∑ l ∈ Finset.range (n + 1), ∑ m ∈ Finset.range (n + 1),
      z ^ m * c k l m * y ^ l * x ^ k) = ∑ m ∈ Finset.range (n + 1), z ^ m *
      ∑ k ∈ Finset.range (n + 1), ∑ l ∈ Finset.range (n + 1), c k l m * y ^ l * x ^ k := fun x y z => by
    simp_rw [Finset.mul_sum]
    rw [Finset.sum_congr rfl fun k _ => Finset.sum_comm, Finset.sum_comm]
    exact Finset.sum_congr rfl fun l _ => Finset.sum_congr rfl fun k _ => Finset.sum_congr rfl fun m _ => by ring
  have t : ∀ x y : ℝ, (∑ m ∈ Finset.range (n + 1), (∫ z in f..g, z ^ m) *
      ∑ k ∈ Finset.range (n + 1), ∑ l ∈ Finset.range (n + 1), c k l m * y ^ l * x ^ k) =
      ∑ k ∈ Finset.range (n + 1), ∑ l ∈ Finset.range (n + 1),
        y ^ l * (∑ m ∈ Finset.range (n + 1), (∫ z in f..g, z ^ m) * c k l m) * x ^ k := fun x y => by
    simp_rw [Finset.mul_sum, Finset.sum_mul]
    rw [Finset.sum_comm]
    refine Finset.sum_congr rfl fun k _ => ?_
    rw [Finset.sum_comm]
    exact Finset.sum_congr rfl fun l _ => Finset.sum_congr rfl fun k _ => by ring
  have r2 := rule2_pows hX hY (fun k l => ∑ m ∈ Finset.range (n + 1), (∫ z in f..g, z ^ m) * c k l m) a b d e
  unfold rule2 at r2
  unfold rule3
  simp_rw [s, rule_pows hZ, int_pows, t]
  exact r2

/-- The error of the product rule on a box vanishes for polynomials. -/
lemma err3_zero (hX : ExactTo n qx wx) (hY : ExactTo n qy wy) (hZ : ExactTo n qz wz) (hqx : ∀ t ∈ qx, t ∈ I)
    (hqy : ∀ t ∈ qy, t ∈ I) (hqz : ∀ t ∈ qz, t ∈ I) {g : ℝ → ℝ → ℝ → ℝ} (hg : PolyOn3 n g) {a b c d u w : ℝ} (ha : a ∈ I)
    (hb : b ∈ I) (hc : c ∈ I) (hd : d ∈ I) (hu : u ∈ I) (hw : w ∈ I) : err3 qx wx qy wy qz wz g a b c d u w = 0 := by
  obtain ⟨A, e⟩ := hg
  rw [err3, rule3_congr hqx hqy hqz e ha hb hc hd hu hw, rule3_pows hX hY hZ, abs_eq_zero, sub_eq_zero]
  refine intervalIntegral.integral_congr fun x hx => ?_
  refine intervalIntegral.integral_congr fun y hy => ?_
  exact intervalIntegral.integral_congr fun z hz => (e x (sub_I ha hb hx) y (sub_I hc hd hy) z (sub_I hu hw hz)).symm

end

/-- **C116, what the numbers of 0-forms are**: the values at the nodes. -/
theorem reduce0 {Φ1 f1 : ℝ → ℝ} {Φ2 : ℝ → ℝ → ℝ × ℝ} {f2 : ℝ × ℝ → ℝ} {Φ3 : ℝ → ℝ → ℝ → ℝ × ℝ × ℝ} {f3 : ℝ × ℝ × ℝ → ℝ}
    {p q r : ℕ} {xs ys zs : List ℝ} (hx : Nodes p xs) (hy : Nodes q ys) (hz : Nodes r zs) :
    (∀ i < p + 1, dof (red10 Φ1 f1 xs) i = f1 (Φ1 (node xs i))) ∧
    (∀ i < p + 1, ∀ j < q + 1, dof (red20 Φ2 f2 xs ys) (snum (ln20 p q) (0, i, j, 0)) = f2 (Φ2 (node xs i) (node ys j))) ∧
    (∀ i < p + 1, ∀ j < q + 1, ∀ k < r + 1, dof (red30 Φ3 f3 xs ys zs) (snum (ln30 p q r) (0, i, j, k)) =
      f3 (Φ3 (node xs i) (node ys j) (node zs k))) ∧
    (red10 Φ1 f1 xs).length = nd10 p ∧ (red20 Φ2 f2 xs ys).length = nd20 p q ∧ (red30 Φ3 f3 xs ys zs).length = nd30 p q r :=
  ⟨fun _ hi => red10_at hx.len Φ1 f1 hi, fun _ hi _ hj => red20_at hx.len hy.len Φ2 f2 hi hj,
    fun _ hi _ hj _ hk => red30_at hx.len hy.len hz.len Φ3 f3 hi hj hk, by simp [red10, hx.len, nd10],
    red20_length hx.len hy.len Φ2 f2, red30_length hx.len hy.len hz.len Φ3 f3⟩

/-- **C116, what the numbers of 1-forms on a line are**: the integrals over the cells. -/
theorem reduce11 {Φ D : ℝ → ℝ} {p : ℕ} {xs qs ws : List ℝ} (hE : Elem1 Φ D) (hx : Nodes p xs) (hq : ∀ t ∈ qs, t ∈ I)
    (f : ℝ → ℝ) : ∀ i < p, dof (red11 Φ D f xs qs ws) i =
      rule qs ws (fun x => f (Φ x) * deriv Φ x) (node xs i) (node xs (i + 1)) := fun i hi => by
  rw [red11_at hx.len Φ D f qs ws hi]
  exact rule_congr hq (fun x hI => by rw [hE.jac x hI]) (node_in hx (by omega)) (node_in hx (by omega))

lemma eq_of_err {a b : ℝ} (h : |a - b| ≤ 0) : a = b := sub_eq_zero.1 (abs_eq_zero.1 (le_antisymm h (abs_nonneg _)))

section one
variable {Φ D f : ℝ → ℝ} {p n : ℕ} {xs qs ws : List ℝ}

/-- **C116, derivative on a line, exactly**. -/
theorem deriv1_exact (hE : Elem1 Φ D) (hf : ∀ x ∈ I, ContDiffAt ℝ 1 f (Φ x)) (hx : Nodes p xs) (hq : ∀ t ∈ qs, t ∈ I)
    (he : ExactTo n qs ws) (e0 : PolyOn n fun x => deriv f (Φ x) * deriv Φ x) :
    ∀ i < p, dof (red11 Φ D (deriv f) xs qs ws) i = app (nd10 p) (E10 p) (dof (red10 Φ f xs)) i := fun i hi =>
  eq_of_err (deriv1_commutes hE hf hx hq (fun k hk =>
    (err_zero he hq e0 (node_in hx (by omega)) (node_in hx (by omega))).le) i hi)

end one

section two
variable {Φ : ℝ → ℝ → ℝ × ℝ} {J : ℝ → ℝ → ℕ → ℕ → ℝ} {f : ℝ × ℝ → ℝ} {v : ℝ × ℝ → ℝ × ℝ} {p q n : ℕ}
  {xs ys qx wx qy wy : List ℝ}

/-- **C116, gradient in the plane, exactly**. -/
theorem grad2_exact (hE : Elem2 Φ J) (hf : SmoothOn2 Φ f) (hx : Nodes p xs) (hy : Nodes q ys) (hqx : ∀ t ∈ qx, t ∈ I)
    (hqy : ∀ t ∈ qy, t ∈ I) (hX : ExactTo n qx wx) (hY : ExactTo n qy wy)
    (e0 : ∀ y ∈ I, PolyOn n fun x => dot2 (grad2 f (Φ x y)) (tan2 Φ x y (1, 0)))
    (e1 : ∀ x ∈ I, PolyOn n fun y => dot2 (grad2 f (Φ x y)) (tan2 Φ x y (0, 1))) :
    ∀ m < nd21 p q, dof (red21i Φ J (grad2 f) p q xs ys qx wx qy wy) m =
      app (nd20 p q) (E20i p q) (dof (red20 Φ f xs ys)) m := fun m hm =>
  eq_of_err (grad2_commutes hE hf hx hy hqx hqy
    (fun _ hi _ hj => (err_zero hX hqx (e0 _ (node_in hy hj)) (node_in hx (by omega)) (node_in hx (by omega))).le)
    (fun _ hi _ hj => (err_zero hY hqy (e1 _ (node_in hx hi)) (node_in hy (by omega)) (node_in hy (by omega))).le) m hm)

/-- **C116, curl of a scalar in the plane, exactly**. -/
theorem curl2_exact (hE : Elem2 Φ J) (hf : SmoothOn2 Φ f) (hx : Nodes p xs) (hy : Nodes q ys) (hqx : ∀ t ∈ qx, t ∈ I)
    (hqy : ∀ t ∈ qy, t ∈ I) (hX : ExactTo n qx wx) (hY : ExactTo n qy wy)
    (e0 : ∀ x ∈ I, PolyOn n fun y => cross2 (curl2 f (Φ x y)) (tan2 Φ x y (0, 1)))
    (e1 : ∀ y ∈ I, PolyOn n fun x => -cross2 (curl2 f (Φ x y)) (tan2 Φ x y (1, 0))) :
    ∀ m < nd21 p q, dof (red21o Φ J (curl2 f) p q xs ys qx wx qy wy) m =
      app (nd20 p q) (E20o p q) (dof (red20 Φ f xs ys)) m := fun m hm =>
  eq_of_err (curl2_commutes hE hf hx hy hqx hqy
    (fun _ hi _ hj => (err_zero hY hqy (e0 _ (node_in hx hi)) (node_in hy (by omega)) (node_in hy (by omega))).le)
    (fun _ hi _ hj => (err_zero hX hqx (e1 _ (node_in hy hj)) (node_in hx (by omega)) (node_in hx (by omega))).le) m hm)

/-- **C116, rotation in the plane, exactly**. -/
theorem rot2_exact (hE : Elem2 Φ J) (hv : SmoothOn2 Φ v) (hx : Nodes p xs) (hy : Nodes q ys) (hqx : ∀ t ∈ qx, t ∈ I)
    (hqy : ∀ t ∈ qy, t ∈ I) (hX : ExactTo n qx wx) (hY : ExactTo n qy wy)
    (e0 : ∀ y ∈ I, PolyOn n fun x => dot2 (v (Φ x y)) (tan2 Φ x y (1, 0)))
    (e1 : ∀ x ∈ I, PolyOn n fun y => dot2 (v (Φ x y)) (tan2 Φ x y (0, 1)))
    (e2 : PolyOn2 n fun x y => rot2 v (Φ x y) * cross2 (tan2 Φ x y (1, 0)) (tan2 Φ x y (0, 1))) :
    ∀ m < nd22 p q, dof (red22 Φ J (rot2 v) p q xs ys qx wx qy wy) m =
      app (nd21 p q) (E21i p q) (dof (red21i Φ J v p q xs ys qx wx qy wy)) m := fun m hm =>
  eq_of_err ((rot2_commutes hE hv hx hy hqx hqy
    (fun _ hi _ hj => (err_zero hX hqx (e0 _ (node_in hy hj)) (node_in hx (by omega)) (node_in hx (by omega))).le)
    (fun _ hi _ hj => (err_zero hY hqy (e1 _ (node_in hx hi)) (node_in hy (by omega)) (node_in hy (by omega))).le)
    (fun _ hi _ hj => (err2_zero hX hY hqx hqy e2 (node_in hx (by omega)) (node_in hx (by omega)) (node_in hy (by omega))
      (node_in hy (by omega))).le) m hm).trans (by norm_num))

/-- **C116, divergence in the plane, exactly**. -/
theorem div2_exact (hE : Elem2 Φ J) (hv : SmoothOn2 Φ v) (hx : Nodes p xs) (hy : Nodes q ys) (hqx : ∀ t ∈ qx, t ∈ I)
    (hqy : ∀ t ∈ qy, t ∈ I) (hX : ExactTo n qx wx) (hY : ExactTo n qy wy)
    (e0 : ∀ x ∈ I, PolyOn n fun y => cross2 (v (Φ x y)) (tan2 Φ x y (0, 1)))
    (e1 : ∀ y ∈ I, PolyOn n fun x => -cross2 (v (Φ x y)) (tan2 Φ x y (1, 0)))
    (e2 : PolyOn2 n fun x y => div2 v (Φ x y) * cross2 (tan2 Φ x y (1, 0)) (tan2 Φ x y (0, 1))) :
    ∀ m < nd22 p q, dof (red22 Φ J (div2 v) p q xs ys qx wx qy wy) m =
      app (nd21 p q) (E21o p q) (dof (red21o Φ J v p q xs ys qx wx qy wy)) m := fun m hm =>
  eq_of_err ((div2_commutes hE hv hx hy hqx hqy
    (fun _ hi _ hj => (err_zero hY hqy (e0 _ (node_in hx hi)) (node_in hy (by omega)) (node_in hy (by omega))).le)
    (fun _ hi _ hj => (err_zero hX hqx (e1 _ (node_in hy hj)) (node_in hx (by omega)) (node_in hx (by omega))).le)
    (fun _ hi _ hj => (err2_zero hX hY hqx hqy e2 (node_in hx (by omega)) (node_in hx (by omega)) (node_in hy (by omega))
      (node_in hy (by omega))).le) m hm).trans (by norm_num))

end two

section three
variable {Φ : ℝ → ℝ → ℝ → ℝ × ℝ × ℝ} {J : ℝ → ℝ → ℝ → ℕ → ℕ → ℝ} {f : ℝ × ℝ × ℝ → ℝ} {v : ℝ × ℝ × ℝ → ℝ × ℝ × ℝ}
  {p q r n : ℕ} {xs ys zs qx wx qy wy qz wz : List ℝ}

/-- **C116, gradient in space, exactly**. -/
theorem grad3_exact (hE : Elem3 Φ J) (hf : SmoothOn3 Φ f) (hx : Nodes p xs) (hy : Nodes q ys) (hz : Nodes r zs)
    (hqx : ∀ t ∈ qx, t ∈ I) (hqy : ∀ t ∈ qy, t ∈ I) (hqz : ∀ t ∈ qz, t ∈ I)
    (hX : ExactTo n qx wx) (hY : ExactTo n qy wy) (hZ : ExactTo n qz wz)
    (e0 : ∀ y ∈ I, ∀ z ∈ I, PolyOn n fun x => dot3 (grad3 f (Φ x y z)) (tan3 Φ x y z (1, 0, 0)))
    (e1 : ∀ x ∈ I, ∀ z ∈ I, PolyOn n fun y => dot3 (grad3 f (Φ x y z)) (tan3 Φ x y z (0, 1, 0)))
    (e2 : ∀ x ∈ I, ∀ y ∈ I, PolyOn n fun z => dot3 (grad3 f (Φ x y z)) (tan3 Φ x y z (0, 0, 1))) :
    ∀ m < nd31 p q r, dof (red31 Φ J (grad3 f) p q r xs ys zs qx wx qy wy qz wz) m =
      app (nd30 p q r) (E30 p q r) (dof (red30 Φ f xs ys zs)) m := fun m hm =>
  eq_of_err (grad3_commutes hE hf hx hy hz hqx hqy hqz
    (fun _ hi _ hj _ hk => (err_zero hX hqx (e0 _ (node_in hy hj) _ (node_in hz hk)) (node_in hx (by omega))
      (node_in hx (by omega))).le)
    (fun _ hi _ hj _ hk => (err_zero hY hqy (e1 _ (node_in hx hi) _ (node_in hz hk)) (node_in hy (by omega))
      (node_in hy (by omega))).le)
    (fun _ hi _ hj _ hk => (err_zero hZ hqz (e2 _ (node_in hx hi) _ (node_in hy hj)) (node_in hz (by omega))
      (node_in hz (by omega))).le) m hm)

/-- **C116, curl in space, exactly**. -/
theorem curl3_exact (hE : Elem3 Φ J) (hv : SmoothOn3 Φ v) (hx : Nodes p xs) (hy : Nodes q ys) (hz : Nodes r zs)
    (hqx : ∀ t ∈ qx, t ∈ I) (hqy : ∀ t ∈ qy, t ∈ I) (hqz : ∀ t ∈ qz, t ∈ I)
    (hX : ExactTo n qx wx) (hY : ExactTo n qy wy) (hZ : ExactTo n qz wz)
    (e0 : ∀ y ∈ I, ∀ z ∈ I, PolyOn n fun x => dot3 (v (Φ x y z)) (tan3 Φ x y z (1, 0, 0)))
    (e1 : ∀ x ∈ I, ∀ z ∈ I, PolyOn n fun y => dot3 (v (Φ x y z)) (tan3 Φ x y z (0, 1, 0)))
    (e2 : ∀ x ∈ I, ∀ y ∈ I, PolyOn n fun z => dot3 (v (Φ x y z)) (tan3 Φ x y z (0, 0, 1)))
    (d0 : ∀ x ∈ I, PolyOn2 n fun y z => dot3 (curl3 v (Φ x y z)) (cross3 (tan3 Φ x y z (0, 1, 0)) (tan3 Φ x y z (0, 0, 1))))
    (d1 : ∀ y ∈ I, PolyOn2 n fun x z => dot3 (curl3 v (Φ x y z)) (cross3 (tan3 Φ x y z (0, 0, 1)) (tan3 Φ x y z (1, 0, 0))))
    (d2 : ∀ z ∈ I, PolyOn2 n fun x y => dot3 (curl3 v (Φ x y z)) (cross3 (tan3 Φ x y z (1, 0, 0)) (tan3 Φ x y z (0, 1, 0)))) :
    ∀ m < nd32 p q r, dof (red32 Φ J (curl3 v) p q r xs ys zs qx wx qy wy qz wz) m =
      app (nd31 p q r) (E31 p q r) (dof (red31 Φ J v p q r xs ys zs qx wx qy wy qz wz)) m := fun m hm =>
  eq_of_err ((curl3_commutes hE hv hx hy hz hqx hqy hqz
    (fun _ hi _ hj _ hk => (err_zero hX hqx (e0 _ (node_in hy hj) _ (node_in hz hk)) (node_in hx (by omega))
      (node_in hx (by omega))).le)
    (fun _ hi _ hj _ hk => (err_zero hY hqy (e1 _ (node_in hx hi) _ (node_in hz hk)) (node_in hy (by omega))
      (node_in hy (by omega))).le)
    (fun _ hi _ hj _ hk => (err_zero hZ hqz (e2 _ (node_in hx hi) _ (node_in hy hj)) (node_in hz (by omega))
      (node_in hz (by omega))).le)
    (fun _ hi _ hj _ hk => (err2_zero hY hZ hqy hqz (d0 _ (node_in hx hi)) (node_in hy (by omega)) (node_in hy (by omega))
      (node_in hz (by omega)) (node_in hz (by omega))).le)
    (fun _ hi _ hj _ hk => (err2_zero hX hZ hqx hqz (d1 _ (node_in hy hj)) (node_in hx (by omega)) (node_in hx (by omega))
      (node_in hz (by omega)) (node_in hz (by omega))).le)
    (fun _ hi _ hj _ hk => (err2_zero hX hY hqx hqy (d2 _ (node_in hz hk)) (node_in hx (by omega)) (node_in hx (by omega))
      (node_in hy (by omega)) (node_in hy (by omega))).le) m hm).trans (by norm_num))

/-- **C116, divergence in space, exactly**. -/
theorem div3_exact (hE : Elem3 Φ J) (hv : SmoothOn3 Φ v) (hx : Nodes p xs) (hy : Nodes q ys) (hz : Nodes r zs)
    (hqx : ∀ t ∈ qx, t ∈ I) (hqy : ∀ t ∈ qy, t ∈ I) (hqz : ∀ t ∈ qz, t ∈ I)
    (hX : ExactTo n qx wx) (hY : ExactTo n qy wy) (hZ : ExactTo n qz wz)
    (d0 : ∀ x ∈ I, PolyOn2 n fun y z => dot3 (v (Φ x y z)) (cross3 (tan3 Φ x y z (0, 1, 0)) (tan3 Φ x y z (0, 0, 1))))
    (d1 : ∀ y ∈ I, PolyOn2 n fun x z => dot3 (v (Φ x y z)) (cross3 (tan3 Φ x y z (0, 0, 1)) (tan3 Φ x y z (1, 0, 0))))
    (d2 : ∀ z ∈ I, PolyOn2 n fun x y => dot3 (v (Φ x y z)) (cross3 (tan3 Φ x y z (1, 0, 0)) (tan3 Φ x y z (0, 1, 0))))
    (c0 : PolyOn3 n fun x y z => div3 v (Φ x y z) *
      dot3 (tan3 Φ x y z (1, 0, 0)) (cross3 (tan3 Φ x y z (0, 1, 0)) (tan3 Φ x y z (0, 0, 1)))) :
    ∀ m < nd33 p q r, dof (red33 Φ J (div3 v) p q r xs ys zs qx wx qy wy qz wz) m =
      app (nd32 p q r) (E32 p q r) (dof (red32 Φ J v p q r xs ys zs qx wx qy wy qz wz)) m := fun m hm =>
  eq_of_err ((div3_commutes hE hv hx hy hz hqx hqy hqz
    (fun _ hi _ hj _ hk => (err2_zero hY hZ hqy hqz (d0 _ (node_in hx hi)) (node_in hy (by omega)) (node_in hy (by omega))
      (node_in hz (by omega)) (node_in hz (by omega))).le)
    (fun _ hi _ hj _ hk => (err2_zero hX hZ hqx hqz (d1 _ (node_in hy hj)) (node_in hx (by omega)) (node_in hx (by omega))
      (node_in hz (by omega)) (node_in hz (by omega))).le)
    (fun _ hi _ hj _ hk => (err2_zero hX hY hqx hqy (d2 _ (node_in hz hk)) (node_in hx (by omega)) (node_in hx (by omega))
      (node_in hy (by omega)) (node_in hy (by omega))).le)
    (fun _ hi _ hj _ hk => (err3_zero hX hY hZ hqx hqy hqz c0 (node_in hx (by omega)) (node_in hx (by omega))
      (node_in hy (by omega)) (node_in hy (by omega)) (node_in hz (by omega)) (node_in hz (by omega))).le) m hm).trans
        (by norm_num))

end three

end Phyem.Reduce
