import Verif.Funcs.Ops2

/-!
# C94 in three dimensions: operators on functions of time and space
-/

namespace Phyem.Funcs

open Set

/-! ### Helpers -/

theorem part_near3 {ε : ℝ} {a : Ax3} {f : F3 ℝ} {d : Option (F3 ℝ)} {t x y z p : ℝ}
    (h : Known3 ε a f d t x y z p) : |given3 a f d t x y z - p| ≤ ε := by
  obtain ⟨hd, h⟩ := h
  cases d with
  | some g => exact h
  | none =>
    obtain ⟨M, hM, he⟩ := h
    have e6 : (h3 : ℝ) = 1e-6 := by norm_num [h3]
    have := central_error (by norm_num) hd hM
    refine le_trans ?_ (this.trans he)
    cases a <;> simp [given3, npd3, e6, line3, coord3]

/-- The setter of the mesh changes nothing but the mesh. -/
theorem setMesh3_fields {K : Type} [Field K] [LinearOrder K] {a b : S3 K} {m : Mesh3 K}
    {draw : Nat → K} (h : a.setMesh m draw = some b) :
    b.s = a.s ∧ b.isZero = a.isZero ∧ b.dt = a.dt ∧ b.dx = a.dx ∧ b.dy = a.dy ∧ b.dz = a.dz := by
  unfold S3.setMesh at h
  split_ifs at h <;> (cases h; exact ⟨rfl, rfl, rfl, rfl, rfl, rfl⟩)

/-! ### Theorems -/

/-- **C94.** A scalar that counts as zero is the zero function, however it was made. -/
theorem make3_zero {K : Type} [Field K] [LinearOrder K] {s : DArg (F3 K) K} {steady : Bool}
    {D : Option (List (DArg (F3 K) K))} {mesh : Option (Mesh3 K)} {draw : Nat → K} {a : S3 K}
    (h : S3.make s steady D mesh draw = some a) (hz : a.isZero = true) : a.s = zero3 := by
  unfold S3.make at h
  cases hv : parseV zero3 s with
  | none => simp [hv] at h
  | some f =>
    cases hD : parseAll zero3 4 D with
    | none => simp [hv, hD] at h
    | some l =>
      rw [hv, hD] at h
      cases s with
      | none => simp [parseV] at hv
      | fn g =>
        cases mesh with
        | none =>
          cases h
          simp at hz
        | some m =>
          have := (setMesh3_fields h).2.1
          rw [hz] at this
          simp at this
      | num c =>
        have hf : f = zero3 := by
          simp only [parseV] at hv
          split_ifs at hv with hc
          cases hv
          rfl
        subst hf
        cases mesh with
        | none =>
          cases h
          rfl
        | some m => exact (setMesh3_fields h).1

/-- **C94.** The gradient of a scalar in space. -/
theorem gradient3 (a : S3 ℝ) (hz : a.isZero = true → a.s = zero3) {ε t x y z fx fy fz : ℝ}
    (h0 : 0 ≤ ε) (hx : Known3 ε .x a.s a.dx t x y z fx) (hy : Known3 ε .y a.s a.dy t x y z fy)
    (hw : Known3 ε .z a.s a.dz t x y z fz) :
    ∃ g, a.gradient.call t x y z = some g ∧ |g.1 - fx| ≤ ε ∧ |g.2.1 - fy| ≤ ε ∧ |g.2.2 - fz| ≤ ε := by
  unfold S3.gradient
  split_ifs with h
  · have e := hz h
    have dx : fx = 0 := hx.1.unique (by rw [e]; exact hasDerivAt_const _ _)
    have dy : fy = 0 := hy.1.unique (by rw [e]; exact hasDerivAt_const _ _)
    have dz : fz = 0 := hw.1.unique (by rw [e]; exact hasDerivAt_const _ _)
    exact ⟨_, rfl, by simp [dx, V3.plain, zero3, h0], by simp [dy, V3.plain, zero3, h0],
      by simp [dz, V3.plain, zero3, h0]⟩
  · exact ⟨_, rfl, part_near3 hx, part_near3 hy, part_near3 hw⟩

/-- **C94.** The time derivative of a scalar in space. -/
theorem timeDerivative3 (a : S3 ℝ) {ε t x y z ft : ℝ} (h : Known3 ε .t a.s a.dt t x y z ft) :
    |a.timeDerivative.s t x y z - ft| ≤ ε :=
  part_near3 h

/-- What is known of the Jacobian matrix `J` of a vector at a point. -/
structure V3.Known (v : V3 ℝ) (ε t x y z : ℝ) (J : Fin 3 → Fin 3 → ℝ) : Prop where
  ux : Known3 ε .x v.v0 v.dudx t x y z (J 0 0)
  uy : Known3 ε .y v.v0 v.dudy t x y z (J 0 1)
  uz : Known3 ε .z v.v0 v.dudz t x y z (J 0 2)
  vx : Known3 ε .x v.v1 v.dvdx t x y z (J 1 0)
  vy : Known3 ε .y v.v1 v.dvdy t x y z (J 1 1)
  vz : Known3 ε .z v.v1 v.dvdz t x y z (J 1 2)
  wx : Known3 ε .x v.v2 v.dwdx t x y z (J 2 0)
  wy : Known3 ε .y v.v2 v.dwdy t x y z (J 2 1)
  wz : Known3 ε .z v.v2 v.dwdz t x y z (J 2 2)

/-- **C94.** The divergence of a vector in space is the trace of its Jacobian matrix. -/
theorem divergence3 (v : V3 ℝ) {ε t x y z : ℝ} {J : Fin 3 → Fin 3 → ℝ}
    (h : v.Known ε t x y z J) :
    |v.divergence.s t x y z - (J 0 0 + J 1 1 + J 2 2)| ≤ ε + ε + ε :=
  near_add (near_add (part_near3 h.ux) (part_near3 h.vy)) (part_near3 h.wz)

/-- **C94.** The curl of a vector in space. -/
theorem curl3 (v : V3 ℝ) {ε t x y z : ℝ} {J : Fin 3 → Fin 3 → ℝ} (h : v.Known ε t x y z J) :
    ∃ g, v.curl.call t x y z = some g ∧ |g.1 - (J 2 1 - J 1 2)| ≤ ε + ε ∧
      |g.2.1 - (J 0 2 - J 2 0)| ≤ ε + ε ∧ |g.2.2 - (J 1 0 - J 0 1)| ≤ ε + ε :=
  ⟨_, rfl, near_sub (part_near3 h.wy) (part_near3 h.vz), near_sub (part_near3 h.uz)
    (part_near3 h.wx), near_sub (part_near3 h.vx) (part_near3 h.uy)⟩

/-- **C94.** The time derivative of a vector in space. -/
theorem vTimeDerivative3 (v : V3 ℝ) {ε t x y z ut vt wt : ℝ}
    (hu : Known3 ε .t v.v0 v.dudt t x y z ut) (hv : Known3 ε .t v.v1 v.dvdt t x y z vt)
    (hw : Known3 ε .t v.v2 v.dwdt t x y z wt) :
    ∃ g, v.timeDerivative.call t x y z = some g ∧ |g.1 - ut| ≤ ε ∧ |g.2.1 - vt| ≤ ε ∧
      |g.2.2 - wt| ≤ ε :=
  ⟨_, rfl, part_near3 hu, part_near3 hv, part_near3 hw⟩

/-- **C94.** The time derivative of a tensor in space. -/
theorem tTimeDerivative3 (a : T3 ℝ) {ε t x y z : ℝ} {D : Fin 3 → Fin 3 → ℝ}
    (h : ∀ i j, Known3 ε .t (a.rows i j) none t x y z (D i j)) (i j : Fin 3) :
    |a.timeDerivative.rows i j t x y z - D i j| ≤ ε :=
  part_near3 (h i j)

/-- **C94, refuted.** Convection in space is refused, of scalars and of vectors, whatever they
are. -/
theorem convection3_refuted (a : S3 ℝ) (v : V3 ℝ) (u : Obj3 ℝ) :
    a.convectionBy u = none ∧ v.convectionBy u = none := by
  cases u <;> simp [S3.convectionBy, V3.convectionBy, Obj3.className]

section Algebra

variable {K : Type} [Field K]

/-- **C94.** Sums, differences, negatives and products of scalars in space. -/
theorem algebra3_scalar (a b : S3 K) (hz : a.isZero = true → a.s = zero3) (t x y z : K) :
    (∃ r, a.add (.scalar b) = some r ∧ r.s t x y z = a.s t x y z + b.s t x y z) ∧
    (∃ r, a.sub (.scalar b) = some r ∧ r.s t x y z = a.s t x y z - b.s t x y z) ∧
    (∃ r, a.mul (.scalar b) = some r ∧ r.s t x y z = a.s t x y z * b.s t x y z) ∧
    a.neg.s t x y z = -a.s t x y z := by
  refine ⟨⟨_, rfl, rfl⟩, ⟨_, rfl, rfl⟩, ⟨_, rfl, rfl⟩, ?_⟩
  unfold S3.neg
  split_ifs with h
  · simp [hz h, zero3]
  · rfl

/-- The vector of the components of a vector at a point. -/
def V3.at (v : V3 K) (t x y z : K) : Fin 3 → K := ![v.v0 t x y z, v.v1 t x y z, v.v2 t x y z]

open Matrix in
/-- **C94.** Sums, differences, negatives, multiples, dot and cross products of vectors in
space. -/
theorem algebra3_vector (v w : V3 K) (c t x y z : K) :
    (∃ r, v.add (.vector w) = some r ∧ r.at t x y z = v.at t x y z + w.at t x y z) ∧
    (∃ r, v.sub (.vector w) = some r ∧ r.at t x y z = v.at t x y z - w.at t x y z) ∧
    v.neg.at t x y z = -v.at t x y z ∧
    (∃ r, v.mul (.num c) = some r ∧ r.at t x y z = c • v.at t x y z) ∧
    (∃ r, v.dot (.vector w) = some r ∧ r.s t x y z = v.at t x y z ⬝ᵥ w.at t x y z) ∧
    (∃ r, v.cross (.vector w) = some r ∧
      r.at t x y z = crossProduct (v.at t x y z) (w.at t x y z)) := by
  refine ⟨⟨_, rfl, ?_⟩, ⟨_, rfl, ?_⟩, ?_, ⟨_, rfl, ?_⟩, ⟨_, rfl, ?_⟩, ⟨_, rfl, ?_⟩⟩
  · simp [V3.at, V3.plain, add3]
  · simp [V3.at, V3.plain, sub3]
  · simp [V3.at, V3.plain, V3.neg, neg3]
  · simp [V3.at, V3.plain, smul3]
  · simp [V3.at, S3.plain, sum3, mul3, add_assoc]
  · simp [V3.at, V3.plain, sub3, mul3, cross_apply]

/-- **C94.** Evaluating a vector in space gives its components when they are not linked. -/
theorem call3 (v : V3 K) (h : v.linked = none) (t x y z : K) :
    v.call t x y z = some (v.at t x y z 0, v.at t x y z 1, v.at t x y z 2) := by
  simp [V3.call, h, V3.at]

/-- **C94, refuted.** A vector in space with linked components cannot be evaluated. -/
theorem linked3_refuted (v : V3 K) (l : K → K → K → K → K × K × K) (h : v.linked = some l)
    (t x y z : K) : v.call t x y z = none := by
  simp [V3.call, h]

/-- **C94.** Operands of the wrong kind are refused in space. -/
theorem refused3 (a : S3 K) (v : V3 K) (b : T3 K) (c : K) :
    a.add (.num c) = none ∧ a.add (.vector v) = none ∧ a.add (.tensor b) = none ∧
    a.sub (.num c) = none ∧ a.sub (.vector v) = none ∧ a.sub (.tensor b) = none ∧
    a.mul (.num c) = none ∧ a.mul (.vector v) = none ∧ a.mul (.tensor b) = none ∧
    v.add (.num c) = none ∧ v.add (.scalar a) = none ∧ v.add (.tensor b) = none ∧
    v.sub (.num c) = none ∧ v.sub (.scalar a) = none ∧ v.sub (.tensor b) = none ∧
    v.mul (.scalar a) = none ∧ v.mul (.vector v) = none ∧ v.mul (.tensor b) = none ∧
    v.dot (.num c) = none ∧ v.dot (.scalar a) = none ∧ v.dot (.tensor b) = none ∧
    v.cross (.num c) = none ∧ v.cross (.scalar a) = none ∧ v.cross (.tensor b) = none :=
  ⟨rfl, rfl, rfl, rfl, rfl, rfl, rfl, rfl, rfl, rfl, rfl, rfl, rfl, rfl, rfl, rfl, rfl, rfl, rfl,
    rfl, rfl, rfl, rfl, rfl⟩

end Algebra

/-- The hypotheses are met: a scalar in space with one derivative given and one that is linear. -/
example (t x y z : ℝ) :
    Known3 0 .x (fun _ x _ z => x * z) (some fun _ _ _ z => z) t x y z z ∧
      Known3 0 .z (fun _ x _ z => x * z) none t x y z x := by
  refine ⟨⟨?_, by norm_num⟩, ?_, 0, ⟨fun _ => x, fun _ => 0, fun _ => 0, ?_⟩, by norm_num⟩
  · simpa [line3, coord3] using (hasDerivAt_id x).mul_const z
  · simpa [line3, coord3] using (hasDerivAt_id z).const_mul x
  · intro u _
    exact ⟨by simpa [line3] using (hasDerivAt_id u).const_mul x, hasDerivAt_const _ _,
      hasDerivAt_const _ _, by norm_num⟩

end Phyem.Funcs
