import Verif.Reduce.Corollaries

/-! Concrete cases of C116 and C117: Gauss quadrature with two points, curved elements, polynomial fields. -/

namespace Phyem.Reduce

open Set Numbering Incidence Poly Polynomial

/-- The two points of Gauss. -/
noncomputable def gp : List ℝ := [-√(1 / 3), √(1 / 3)]

def gw : List ℝ := [1, 1]

lemma gauss_in : ∀ t ∈ gp, t ∈ I := by
  have h1 : √(1 / 3 : ℝ) ≤ 1 := Real.sqrt_le_one.2 (by norm_num)
  have h0 := Real.sqrt_nonneg (1 / 3 : ℝ)
  intro t ht
  simp only [gp, List.mem_cons, List.not_mem_nil, or_false] at ht
  rcases ht with rfl | rfl <;> constructor <;> linarith

lemma gauss_exact : ExactTo 3 gp gw := by
  intro k hk
  have h : √(1 / 3 : ℝ) * √(1 / 3) = 1 / 3 := Real.mul_self_sqrt (by norm_num)
  rw [integral_pow]
  simp only [gp, gw]
  generalize √(1 / 3 : ℝ) = s at h ⊢
  simp only [List.zipWith_cons_cons, List.zipWith_nil_left, List.sum_cons, List.sum_nil]
  interval_cases k
  · norm_num
  · norm_num
  · linear_combination (exp := 1) 2 * h
  · ring

lemma nodes3 : Nodes 2 [-1, 0, 1] where
  len := rfl
  inside := by simp [I]

lemma nodup3 : ([-1, 0, 1] : List ℝ).Nodup := by norm_num

lemma part2x {F : Type} [NormedAddCommGroup F] [NormedSpace ℝ F] {G : ℝ × ℝ → F} {x y : ℝ} {g : F}
    (hd : DifferentiableAt ℝ G (x, y)) (h : HasDerivAt (fun t => G (t, y)) g x) : fderiv ℝ G (x, y) (1, 0) = g :=
  (hd.hasFDerivAt.comp_hasDerivAt x (dx2 y x)).unique h

lemma part2y {F : Type} [NormedAddCommGroup F] [NormedSpace ℝ F] {G : ℝ × ℝ → F} {x y : ℝ} {g : F}
    (hd : DifferentiableAt ℝ G (x, y)) (h : HasDerivAt (fun t => G (x, t)) g y) : fderiv ℝ G (x, y) (0, 1) = g :=
  (hd.hasFDerivAt.comp_hasDerivAt y (dy2 x y)).unique h

lemma part3x {F : Type} [NormedAddCommGroup F] [NormedSpace ℝ F] {G : ℝ × ℝ × ℝ → F} {x y z : ℝ} {g : F}
    (hd : DifferentiableAt ℝ G (x, y, z)) (h : HasDerivAt (fun t => G (t, y, z)) g x) : fderiv ℝ G (x, y, z) (1, 0, 0) = g :=
  (hd.hasFDerivAt.comp_hasDerivAt x (dx3 y z x)).unique h

lemma part3y {F : Type} [NormedAddCommGroup F] [NormedSpace ℝ F] {G : ℝ × ℝ × ℝ → F} {x y z : ℝ} {g : F}
    (hd : DifferentiableAt ℝ G (x, y, z)) (h : HasDerivAt (fun t => G (x, t, z)) g y) : fderiv ℝ G (x, y, z) (0, 1, 0) = g :=
  (hd.hasFDerivAt.comp_hasDerivAt y (dy3 x z y)).unique h

lemma part3z {F : Type} [NormedAddCommGroup F] [NormedSpace ℝ F] {G : ℝ × ℝ × ℝ → F} {x y z : ℝ} {g : F}
    (hd : DifferentiableAt ℝ G (x, y, z)) (h : HasDerivAt (fun t => G (x, y, t)) g z) : fderiv ℝ G (x, y, z) (0, 0, 1) = g :=
  (hd.hasFDerivAt.comp_hasDerivAt z (dz3 x y z)).unique h

lemma cubic {g : ℝ → ℝ} (a b c d : ℝ) (h : ∀ x ∈ I, g x = a + b * x + c * x ^ 2 + d * x ^ 3) : PolyOn 3 g :=
  ⟨C a + C b * X + C c * X ^ 2 + C d * X ^ 3, by compute_degree, fun x hx => by simp [h x hx]⟩

lemma bend2_elem : Elem2 bend2 bendJ where
  smooth x _ y _ := by unfold bend2; fun_prop
  jac x _ y _ := by
    have hd : DifferentiableAt ℝ (fun P : ℝ × ℝ => bend2 P.1 P.2) (x, y) := by unfold bend2; fun_prop
    exact ⟨part2x hd (bend2_maps x y).d0, part2y hd (bend2_maps x y).d1⟩

lemma bend2_tan {x y : ℝ} (hx : x ∈ I) (hy : y ∈ I) : tan2 bend2 x y (1, 0) = (1, 0) ∧ tan2 bend2 x y (0, 1) = (2 * y, 1) := by
  unfold tan2
  rw [(bend2_elem.jac x hx y hy).1, (bend2_elem.jac x hx y hy).2]
  simp [bendJ]

/-- A scalar and a vector field. -/
def exF (P : ℝ × ℝ) : ℝ := P.1 * P.2

def exV (P : ℝ × ℝ) : ℝ × ℝ := (P.1 - P.2, P.1)

lemma exF_x (x y : ℝ) : fderiv ℝ exF (x, y) (1, 0) = y := by
  refine part2x (by unfold exF; fun_prop) ?_
  simpa [exF] using (hasDerivAt_id x).mul_const y

lemma exF_y (x y : ℝ) : fderiv ℝ exF (x, y) (0, 1) = x := by
  refine part2y (by unfold exF; fun_prop) ?_
  simpa [exF] using (hasDerivAt_id y).const_mul x

lemma exV_x (x y : ℝ) : fderiv ℝ exV (x, y) (1, 0) = (1, 1) := by
  refine part2x (by unfold exV; fun_prop) ?_
  simpa [exV] using ((hasDerivAt_id x).sub_const y).prodMk (hasDerivAt_id x)

lemma exV_y (x y : ℝ) : fderiv ℝ exV (x, y) (0, 1) = (-1, 0) := by
  refine part2y (by unfold exV; fun_prop) ?_
  simpa [exV] using ((hasDerivAt_id y).const_sub x).prodMk (hasDerivAt_const y x)

/-- The gradient of `x y` on a curved element. -/
example : ∀ m < nd21 2 2, dof (red21i bend2 bendJ (grad2 exF) 2 2 [-1, 0, 1] [-1, 0, 1] gp gw gp gw) m =
    app (nd20 2 2) (E20i 2 2) (dof (red20 bend2 exF [-1, 0, 1] [-1, 0, 1])) m := by
  refine grad2_exact bend2_elem (fun x _ y _ => by unfold exF; fun_prop) nodes3 nodes3 gauss_in gauss_in gauss_exact gauss_exact
    (fun y hy => cubic y 0 0 0 fun x hx => ?_) (fun x hx => cubic x 0 3 0 fun y hy => ?_)
  all_goals rw [grad2, bend2, exF_x, exF_y]
  · rw [(bend2_tan hx hy).1, dot2]; dsimp only; ring
  · rw [(bend2_tan hx hy).2, dot2]; dsimp only; ring

/-- The curl of `x y` on a curved element. -/
example : ∀ m < nd21 2 2, dof (red21o bend2 bendJ (curl2 exF) 2 2 [-1, 0, 1] [-1, 0, 1] gp gw gp gw) m =
    app (nd20 2 2) (E20o 2 2) (dof (red20 bend2 exF [-1, 0, 1] [-1, 0, 1])) m := by
  refine curl2_exact bend2_elem (fun x _ y _ => by unfold exF; fun_prop) nodes3 nodes3 gauss_in gauss_in gauss_exact gauss_exact
    (fun x hx => cubic x 0 3 0 fun y hy => ?_) (fun y hy => cubic (-y) 0 0 0 fun x hx => ?_)
  all_goals rw [curl2, bend2, exF_x, exF_y]
  · rw [(bend2_tan hx hy).2, cross2]; dsimp only; ring
  · rw [(bend2_tan hx hy).1, cross2]; dsimp only; ring

/-- The rotation of a field on a curved element. -/
example : ∀ m < nd22 2 2, dof (red22 bend2 bendJ (rot2 exV) 2 2 [-1, 0, 1] [-1, 0, 1] gp gw gp gw) m =
    app (nd21 2 2) (E21i 2 2) (dof (red21i bend2 bendJ exV 2 2 [-1, 0, 1] [-1, 0, 1] gp gw gp gw)) m := by
  refine rot2_exact bend2_elem (fun x _ y _ => by unfold exV; fun_prop) nodes3 nodes3 gauss_in gauss_in gauss_exact gauss_exact
    (fun y hy => cubic (y ^ 2 - y) 1 0 0 fun x hx => ?_) (fun x hx => cubic x (2 * x) (-1) 2 fun y hy => ?_)
    ⟨fun k l => if k = 0 ∧ l = 0 then 2 else 0, fun x hx y hy => ?_⟩
  · rw [(bend2_tan hx hy).1, dot2, bend2, exV]; dsimp only; ring
  · rw [(bend2_tan hx hy).2, dot2, bend2, exV]; dsimp only; ring
  · dsimp only
    rw [(bend2_tan hx hy).1, (bend2_tan hx hy).2, rot2, bend2, exV_x, exV_y]
    simp [Finset.sum_range_succ, cross2]
    norm_num

/-- The divergence of a field on a curved element. -/
example : ∀ m < nd22 2 2, dof (red22 bend2 bendJ (div2 exV) 2 2 [-1, 0, 1] [-1, 0, 1] gp gw gp gw) m =
    app (nd21 2 2) (E21o 2 2) (dof (red21o bend2 bendJ exV 2 2 [-1, 0, 1] [-1, 0, 1] gp gw gp gw)) m := by
  refine div2_exact bend2_elem (fun x _ y _ => by unfold exV; fun_prop) nodes3 nodes3 gauss_in gauss_in gauss_exact gauss_exact
    (fun x hx => cubic x (-1 - 2 * x) 1 (-2) fun y hy => ?_) (fun y hy => cubic (y ^ 2) 1 0 0 fun x hx => ?_)
    ⟨fun k l => if k = 0 ∧ l = 0 then 1 else 0, fun x hx y hy => ?_⟩
  · rw [(bend2_tan hx hy).2, cross2, bend2, exV]; dsimp only; ring
  · rw [(bend2_tan hx hy).1, cross2, bend2, exV]; dsimp only; ring
  · dsimp only
    rw [(bend2_tan hx hy).1, (bend2_tan hx hy).2, div2, bend2, exV_x, exV_y]
    simp [Finset.sum_range_succ, cross2]

lemma bend3_elem : Elem3 bend3 bendJ3 where
  smooth x _ y _ z _ := by unfold bend3; fun_prop
  jac x _ y _ z _ := by
    have hd : DifferentiableAt ℝ (fun P : ℝ × ℝ × ℝ => bend3 P.1 P.2.1 P.2.2) (x, y, z) := by unfold bend3; fun_prop
    exact ⟨part3x hd (bend3_maps x y z).d0, part3y hd (bend3_maps x y z).d1, part3z hd (bend3_maps x y z).d2⟩

lemma bend3_tan {x y z : ℝ} (hx : x ∈ I) (hy : y ∈ I) (hz : z ∈ I) : tan3 bend3 x y z (1, 0, 0) = (1, 0, 0) ∧
    tan3 bend3 x y z (0, 1, 0) = (z, 1, 0) ∧ tan3 bend3 x y z (0, 0, 1) = (y, 0, 1) := by
  unfold tan3
  obtain ⟨h0, h1, h2⟩ := bend3_elem.jac x hx y hy z hz
  rw [h0, h1, h2]
  simp [bendJ3]

def exF3 (P : ℝ × ℝ × ℝ) : ℝ := P.1 * P.2.1

def exV3 (P : ℝ × ℝ × ℝ) : ℝ × ℝ × ℝ := (-P.2.1, P.1, P.2.2)

lemma exF3_d (x y z : ℝ) : fderiv ℝ exF3 (x, y, z) (1, 0, 0) = y ∧ fderiv ℝ exF3 (x, y, z) (0, 1, 0) = x ∧
    fderiv ℝ exF3 (x, y, z) (0, 0, 1) = 0 := by
  have hd : DifferentiableAt ℝ exF3 (x, y, z) := by unfold exF3; fun_prop
  refine ⟨part3x hd ?_, part3y hd ?_, part3z hd ?_⟩
  · simpa [exF3] using (hasDerivAt_id x).mul_const y
  · simpa [exF3] using (hasDerivAt_id y).const_mul x
  · exact hasDerivAt_const z (x * y)

lemma exV3_d (x y z : ℝ) : fderiv ℝ exV3 (x, y, z) (1, 0, 0) = (0, 1, 0) ∧ fderiv ℝ exV3 (x, y, z) (0, 1, 0) = (-1, 0, 0) ∧
    fderiv ℝ exV3 (x, y, z) (0, 0, 1) = (0, 0, 1) := by
  have hd : DifferentiableAt ℝ exV3 (x, y, z) := by unfold exV3; fun_prop
  refine ⟨part3x hd ?_, part3y hd ?_, part3z hd ?_⟩
  · exact (hasDerivAt_const x (-y)).prodMk ((hasDerivAt_id x).prodMk (hasDerivAt_const x z))
  · exact (hasDerivAt_id y).neg.prodMk ((hasDerivAt_const y x).prodMk (hasDerivAt_const y z))
  · exact (hasDerivAt_const z (-y)).prodMk ((hasDerivAt_const z x).prodMk (hasDerivAt_id z))

lemma exV3_curl (x y z : ℝ) : curl3 exV3 (x, y, z) = (0, 0, 2) := by
  obtain ⟨h0, h1, h2⟩ := exV3_d x y z
  rw [curl3, h0, h1, h2]
  norm_num

lemma exV3_div (x y z : ℝ) : div3 exV3 (x, y, z) = 1 := by
  obtain ⟨h0, h1, h2⟩ := exV3_d x y z
  rw [div3, h0, h1, h2]
  norm_num

/-- The gradient in space on a curved element. -/
example : ∀ m < nd31 2 2 2,
    dof (red31 bend3 bendJ3 (grad3 exF3) 2 2 2 [-1, 0, 1] [-1, 0, 1] [-1, 0, 1] gp gw gp gw gp gw) m =
      app (nd30 2 2 2) (E30 2 2 2) (dof (red30 bend3 exF3 [-1, 0, 1] [-1, 0, 1] [-1, 0, 1])) m := by
  refine grad3_exact bend3_elem (fun x _ y _ z _ => by unfold exF3; fun_prop) nodes3 nodes3 nodes3 gauss_in gauss_in gauss_in
    gauss_exact gauss_exact gauss_exact
    (fun y hy z hz => cubic y 0 0 0 fun x hx => ?_) (fun x hx z hz => cubic x (2 * z) 0 0 fun y hy => ?_)
    (fun x hx y hy => cubic (y ^ 2) 0 0 0 fun z hz => ?_)
  all_goals
    obtain ⟨h0, h1, h2⟩ := exF3_d (x + y * z) y z
    obtain ⟨t0, t1, t2⟩ := bend3_tan hx hy hz
    simp only [grad3, bend3, h0, h1, h2, t0, t1, t2, dot3]
    ring

/-- The curl in space on a curved element. -/
example : ∀ m < nd32 2 2 2,
    dof (red32 bend3 bendJ3 (curl3 exV3) 2 2 2 [-1, 0, 1] [-1, 0, 1] [-1, 0, 1] gp gw gp gw gp gw) m =
      app (nd31 2 2 2) (E31 2 2 2)
        (dof (red31 bend3 bendJ3 exV3 2 2 2 [-1, 0, 1] [-1, 0, 1] [-1, 0, 1] gp gw gp gw gp gw)) m := by
  refine curl3_exact bend3_elem (fun x _ y _ z _ => by unfold exV3; fun_prop) nodes3 nodes3 nodes3 gauss_in gauss_in gauss_in
    gauss_exact gauss_exact gauss_exact
    (fun y hy z hz => cubic (-y) 0 0 0 fun x hx => ?_) (fun x hx z hz => cubic x 0 0 0 fun y hy => ?_)
    (fun x hx y hy => cubic (-y ^ 2) 1 0 0 fun z hz => ?_)
    (fun x hx => ⟨fun k l => if k = 1 ∧ l = 0 then -2 else 0, fun y hy z hz => ?_⟩)
    (fun y hy => ⟨fun k l => 0, fun x hx z hz => ?_⟩)
    (fun z hz => ⟨fun k l => if k = 0 ∧ l = 0 then 2 else 0, fun x hx y hy => ?_⟩)
  all_goals
    have c := exV3_curl (x + y * z) y z
    obtain ⟨t0, t1, t2⟩ := bend3_tan hx hy hz
    simp only [bend3, c, t0, t1, t2, dot3, cross3, exV3]
    simp [Finset.sum_range_succ]
    try ring

/-- The divergence in space on a curved element. -/
example : ∀ m < nd33 2 2 2,
    dof (red33 bend3 bendJ3 (div3 exV3) 2 2 2 [-1, 0, 1] [-1, 0, 1] [-1, 0, 1] gp gw gp gw gp gw) m =
      app (nd32 2 2 2) (E32 2 2 2)
        (dof (red32 bend3 bendJ3 exV3 2 2 2 [-1, 0, 1] [-1, 0, 1] [-1, 0, 1] gp gw gp gw gp gw)) m := by
  refine div3_exact bend3_elem (fun x _ y _ z _ => by unfold exV3; fun_prop) nodes3 nodes3 nodes3 gauss_in gauss_in gauss_in
    gauss_exact gauss_exact gauss_exact
    (fun x hx => ⟨fun k l => if k = 1 ∧ l = 0 then -1 else if k = 0 ∧ l = 1 then -x else if k = 1 ∧ l = 2 then -1 else
      if k = 1 ∧ l = 1 then -1 else 0, fun y hy z hz => ?_⟩)
    (fun y hy => ⟨fun k l => if k = 1 ∧ l = 0 then 1 else if k = 0 ∧ l = 1 then y else 0, fun x hx z hz => ?_⟩)
    (fun z hz => ⟨fun k l => if k = 0 ∧ l = 0 then z else 0, fun x hx y hy => ?_⟩)
    ⟨fun k l m => if k = 0 ∧ l = 0 ∧ m = 0 then 1 else 0, fun x hx y hy z hz => ?_⟩
  all_goals
    have c := exV3_div (x + y * z) y z
    obtain ⟨t0, t1, t2⟩ := bend3_tan hx hy hz
    simp only [bend3, c, t0, t1, t2, dot3, cross3, exV3]
    simp [Finset.sum_range_succ]
    try ring

/-- The derivative on a line: `x ^ 2` on the element from 1 to 3. -/
example : ∀ i < 2, dof (red11 (fun t => t + 2) (fun _ => 1) (deriv fun x => x ^ 2) [-1, 0, 1] gp gw) i =
    app (nd10 2) (E10 2) (dof (red10 (fun t => t + 2) (fun x => x ^ 2) [-1, 0, 1])) i := by
  refine deriv1_exact ⟨fun x _ => by fun_prop, fun x _ => by simp⟩ (fun x _ => by fun_prop) nodes3 gauss_in gauss_exact
    (cubic 4 2 0 0 fun x hx => ?_)
  simp
  ring

lemma bend2_inv : Inverse2 bendJ bendI := fun x _ y _ a ha b hb => by
  interval_cases a <;> interval_cases b <;> simp [bendJ, bendI]

lemma bend3_inv : Inverse3 bendJ3 bendI3 := fun x _ y _ z _ a ha b hb => by
  interval_cases a <;> interval_cases b <;> simp [bendJ3, bendI3]

/-- The field on the curved element whose values are given as functions of the point of the reference element. -/
def unbend (u : ℝ → ℝ → ℝ × ℝ) (P : ℝ × ℝ) : ℝ × ℝ := u (P.1 - P.2 ^ 2) P.2

def unbend3 {α : Type} (u : ℝ → ℝ → ℝ → α) (P : ℝ × ℝ × ℝ) : α := u (P.1 - P.2.1 * P.2.2) P.2.1 P.2.2

/-- Every cochain of inner and of outer 1-forms on a curved element of degree 2 is the reduction of a field. -/
example (c : ℕ → ℝ) : ∀ m < nd21 2 2,
    dof (red21i bend2 bendJ (unbend fun x y => push21i (bendI x y) (rec21i [-1, 0, 1] [-1, 0, 1] c x y)) 2 2
      [-1, 0, 1] [-1, 0, 1] gp gw gp gw) m = c m ∧
    dof (red21o bend2 bendJ (unbend fun x y => push21o (bendI x y) (rec21o [-1, 0, 1] [-1, 0, 1] c x y)) 2 2
      [-1, 0, 1] [-1, 0, 1] gp gw gp gw) m = c m := fun m hm =>
  ⟨roundtrip21i nodes3 nodes3 nodup3 nodup3 gauss_in gauss_in gauss_exact gauss_exact (by norm_num) (by norm_num) bend2_inv
    (fun x _ y _ => by simp [unbend, bend2]) m hm,
   roundtrip21o nodes3 nodes3 nodup3 nodup3 gauss_in gauss_in gauss_exact gauss_exact (by norm_num) (by norm_num) bend2_inv
    (fun x _ y _ => by simp [unbend, bend2]) m hm⟩

/-- The same in space. -/
example (c : ℕ → ℝ) : (∀ m < nd31 2 2 2, dof (red31 bend3 bendJ3
      (unbend3 fun x y z => push31 (bendI3 x y z) (rec31 [-1, 0, 1] [-1, 0, 1] [-1, 0, 1] c x y z)) 2 2 2
      [-1, 0, 1] [-1, 0, 1] [-1, 0, 1] gp gw gp gw gp gw) m = c m) ∧
    (∀ m < nd32 2 2 2, dof (red32 bend3 bendJ3
      (unbend3 fun x y z => push32 (bendI3 x y z) (rec32 [-1, 0, 1] [-1, 0, 1] [-1, 0, 1] c x y z)) 2 2 2
      [-1, 0, 1] [-1, 0, 1] [-1, 0, 1] gp gw gp gw gp gw) m = c m) ∧
    (∀ m < nd33 2 2 2, dof (red33 bend3 bendJ3
      (unbend3 fun x y z => push11 1 (rec33 [-1, 0, 1] [-1, 0, 1] [-1, 0, 1] c x y z)) 2 2 2
      [-1, 0, 1] [-1, 0, 1] [-1, 0, 1] gp gw gp gw gp gw) m = c m) :=
  ⟨roundtrip31 nodes3 nodes3 nodes3 nodup3 nodup3 nodup3 gauss_in gauss_in gauss_in gauss_exact gauss_exact gauss_exact
    (by norm_num) (by norm_num) (by norm_num) bend3_inv (fun x _ y _ z _ => by simp [unbend3, bend3]),
   roundtrip32 nodes3 nodes3 nodes3 nodup3 nodup3 nodup3 gauss_in gauss_in gauss_in gauss_exact gauss_exact gauss_exact
    (by norm_num) (by norm_num) (by norm_num) bend3_inv (fun x _ y _ z _ => by simp [unbend3, bend3]),
   roundtrip33 (iD := fun _ _ _ => 1) nodes3 nodes3 nodes3 nodup3 nodup3 nodup3 gauss_in gauss_in gauss_in gauss_exact
    gauss_exact gauss_exact (by norm_num) (by norm_num) (by norm_num) (fun x _ y _ z _ => by simp [det3, bendJ3])
    (fun x _ y _ z _ => by simp [unbend3, bend3])⟩

/-- The numbers of 2-forms of a field on the curved element are what they should be: the field 1 gives the areas of the cells. -/
example : ∀ i j, i < 2 → j < 2 → dof (red22 bend2 bendJ (fun _ => 1) 2 2 [-1, 0, 1] [-1, 0, 1] gp gw gp gw)
    (snum (ln22 2 2) (0, i, j, 0)) = 1 := by
  intro i j hi hj
  rw [(reduce22 bend2_elem nodes3 nodes3 gauss_in gauss_in _).2 i j hi hj,
    rule2_congr gauss_in gauss_in (h := fun _ _ => 1) (fun x hx y hy => by
      rw [(bend2_tan hx hy).1, (bend2_tan hx hy).2]; norm_num [cross2]) (node_in nodes3 (by omega)) (node_in nodes3 (by omega))
      (node_in nodes3 (by omega)) (node_in nodes3 (by omega))]
  interval_cases i <;> interval_cases j <;> norm_num [rule2, rule, gp, gw, node]

end Phyem.Reduce
