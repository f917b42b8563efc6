import Verif.Mass.Main

/-!
C78: local mass matrices are positive definite on elements with positive Jacobian, for distinct grid nodes and a quadrature
rule with positive weights and at least as many nodes as grid nodes. Then the mass matrices, and with them the discrete Hodge
operators and projections, are invertible.
-/

namespace Phyem.Mass

open Finset

variable {K : Type} [Field K] [LinearOrder K] [IsStrictOrderedRing K]

/-! ### Specification -/

/-- A symmetric matrix with `N` rows is positive definite. -/
def PosDef (N : ℕ) (M : ℕ → ℕ → K) : Prop :=
  (∀ a, 0 ≤ form N M a a) ∧ ∀ a, form N M a a = 0 → ∀ i < N, a i = 0

/-- Grid nodes `xs` and a quadrature rule `qx` (nodes, weights) that suit each other: the grid nodes are distinct, so are the
quadrature nodes, there are enough of these, and the weights are positive. Gauss and Lobatto rules have such weights. -/
def Suits (xs : List K) (qx : List (K × K)) : Prop :=
  xs.Nodup ∧ (qx.map Prod.fst).Nodup ∧ xs.length ≤ qx.length ∧ ∀ x ∈ qx, 0 < x.2

/-! ### Helpers -/

theorem quad1_nonneg (qx : List (K × K)) (F : K → K) (hw : ∀ x ∈ qx, 0 < x.2) (h : ∀ x ∈ qx, 0 ≤ F x.1) :
    0 ≤ quad1 qx F := by
  unfold quad1
  apply List.sum_nonneg
  intro t ht
  obtain ⟨x, hx, rfl⟩ := List.mem_map.1 ht
  exact mul_nonneg (hw x hx).le (h x hx)

theorem quad1_zero (qx : List (K × K)) (F : K → K) (hw : ∀ x ∈ qx, 0 < x.2) (h : ∀ x ∈ qx, 0 ≤ F x.1)
    (h0 : quad1 qx F = 0) : ∀ x ∈ qx, F x.1 = 0 := by
  induction qx with
  | nil => intro x hx; simp at hx
  | cons y qx ih =>
    have e : quad1 (y :: qx) F = y.2 * F y.1 + quad1 qx F := by simp [quad1]
    have h1 := quad1_nonneg qx F (fun x hx => hw x (List.mem_cons_of_mem _ hx)) fun x hx => h x (List.mem_cons_of_mem _ hx)
    have hy := hw y List.mem_cons_self
    have h2 := mul_nonneg hy.le (h y List.mem_cons_self)
    rw [e] at h0
    have h3 : y.2 * F y.1 = 0 := by linarith
    have h4 : quad1 qx F = 0 := by linarith
    intro x hx
    rcases List.mem_cons.1 hx with rfl | hx
    · exact (mul_eq_zero.1 h3).resolve_left hy.ne'
    · exact ih (fun x hx => hw x (List.mem_cons_of_mem _ hx)) (fun x hx => h x (List.mem_cons_of_mem _ hx)) h4 x hx

theorem quad2_nonneg (qx qy : List (K × K)) (F : K → K → K) (hx : ∀ x ∈ qx, 0 < x.2) (hy : ∀ y ∈ qy, 0 < y.2)
    (h : ∀ x ∈ qx, ∀ y ∈ qy, 0 ≤ F x.1 y.1) : 0 ≤ quad2 qx qy F :=
  quad1_nonneg _ _ hy fun y y' => quad1_nonneg _ _ hx fun x x' => h x x' y y'

theorem quad2_zero (qx qy : List (K × K)) (F : K → K → K) (hx : ∀ x ∈ qx, 0 < x.2) (hy : ∀ y ∈ qy, 0 < y.2)
    (h : ∀ x ∈ qx, ∀ y ∈ qy, 0 ≤ F x.1 y.1) (h0 : quad2 qx qy F = 0) : ∀ x ∈ qx, ∀ y ∈ qy, F x.1 y.1 = 0 := by
  intro x x' y y'
  have h1 := quad1_zero qy _ hy (fun y y' => quad1_nonneg _ _ hx fun x x' => h x x' y y') h0 y y'
  exact quad1_zero qx _ hx (fun x x' => h x x' y y') h1 x x'

theorem quad3_nonneg (qx qy qz : List (K × K)) (F : K → K → K → K) (hx : ∀ x ∈ qx, 0 < x.2) (hy : ∀ y ∈ qy, 0 < y.2)
    (hz : ∀ z ∈ qz, 0 < z.2) (h : ∀ x ∈ qx, ∀ y ∈ qy, ∀ z ∈ qz, 0 ≤ F x.1 y.1 z.1) : 0 ≤ quad3 qx qy qz F :=
  quad1_nonneg _ _ hz fun z z' => quad2_nonneg _ _ _ hx hy fun x x' y y' => h x x' y y' z z'

theorem quad3_zero (qx qy qz : List (K × K)) (F : K → K → K → K) (hx : ∀ x ∈ qx, 0 < x.2) (hy : ∀ y ∈ qy, 0 < y.2)
    (hz : ∀ z ∈ qz, 0 < z.2) (h : ∀ x ∈ qx, ∀ y ∈ qy, ∀ z ∈ qz, 0 ≤ F x.1 y.1 z.1) (h0 : quad3 qx qy qz F = 0) :
    ∀ x ∈ qx, ∀ y ∈ qy, ∀ z ∈ qz, F x.1 y.1 z.1 = 0 := by
  intro x x' y y' z z'
  have h1 := quad1_zero qz _ hz (fun z z' => quad2_nonneg _ _ _ hx hy fun x x' y y' => h x x' y y' z z') h0 z z'
  exact quad2_zero qx qy _ hx hy (fun x x' y y' => h x x' y y' z z') h1 x x' y y'

theorem Suits.nodes {xs : List K} {qx : List (K × K)} (h : Suits xs qx) :
    Uni (fun x : K × K => Poly.nodes xs x.1) xs.length qx := by
  have := uni_nodes h.1 h.2.1 (by simpa using h.2.2.1)
  refine ⟨fun x => this.1 x.1, fun c hc => this.2 c fun x hx => ?_⟩
  obtain ⟨x', hx', rfl⟩ := List.mem_map.1 hx
  exact hc x' hx'

theorem Suits.edges {xs : List K} {qx : List (K × K)} (h : Suits xs qx) :
    Uni (fun x : K × K => Poly.edges xs x.1) (xs.length - 1) qx := by
  have := uni_edges h.1 h.2.1 (by simpa using h.2.2.1)
  refine ⟨fun x => this.1 x.1, fun c hc => this.2 c fun x hx => ?_⟩
  obtain ⟨x', hx', rfl⟩ := List.mem_map.1 hx
  exact hc x' hx'

theorem uni2 {I J : Type} {F : I → List K} {G : J → List K} {n m : ℕ} {P : List I} {Q : List J}
    (hF : Uni F n P) (hG : Uni G m Q) (o : ℕ) (c : ℕ → K)
    (h : ∀ x ∈ P, ∀ y ∈ Q, Poly.dot (Poly.kron (G y) (F x)) o c = 0) : ∀ i < m * n, c (o + i) = 0 :=
  (uni_kron hF hG).zero o c fun p hp => h p.1 (List.mem_product.1 hp).1 p.2 (List.mem_product.1 hp).2

theorem uni3 {I J L : Type} {F : I → List K} {G : J → List K} {H : L → List K} {n m k : ℕ} {P : List I} {Q : List J}
    {R : List L} (hF : Uni F n P) (hG : Uni G m Q) (hH : Uni H k R) (o : ℕ) (c : ℕ → K)
    (h : ∀ x ∈ P, ∀ y ∈ Q, ∀ z ∈ R, Poly.dot (Poly.kron (Poly.kron (H z) (G y)) (F x)) o c = 0) :
    ∀ i < k * m * n, c (o + i) = 0 :=
  uni2 hF (uni_kron hG hH) o c fun x hx p hp =>
    h x hx p.1 (List.mem_product.1 hp).1 p.2 (List.mem_product.1 hp).2

theorem sq2 {u v : K} (h : u * u + v * v = 0) : u = 0 ∧ v = 0 := by
  have h1 := mul_self_nonneg u
  have h2 := mul_self_nonneg v
  exact ⟨mul_self_eq_zero.1 (by linarith), mul_self_eq_zero.1 (by linarith)⟩

theorem sq3 {u v w : K} (h : u * u + v * v + w * w = 0) : u = 0 ∧ v = 0 ∧ w = 0 := by
  have h1 := mul_self_nonneg u
  have h2 := mul_self_nonneg v
  have h3 := mul_self_nonneg w
  exact ⟨mul_self_eq_zero.1 (by linarith), mul_self_eq_zero.1 (by linarith), mul_self_eq_zero.1 (by linarith)⟩

theorem dot2_nonneg (u : K × K) : 0 ≤ dot2 u u := add_nonneg (mul_self_nonneg _) (mul_self_nonneg _)
theorem dot3_nonneg (u : K × K × K) : 0 ≤ dot3 u u :=
  add_nonneg (add_nonneg (mul_self_nonneg _) (mul_self_nonneg _)) (mul_self_nonneg _)

omit [LinearOrder K] [IsStrictOrderedRing K] in
theorem det_inv_ne (n : ℕ) (hn : n = 1 ∨ n = 2 ∨ n = 3) (jm : ℕ → ℕ → K) (h : Det n jm ≠ 0) : Det n (Inv n jm) ≠ 0 := by
  obtain ⟨l, hl, h1, _⟩ := Metric.inverse_is_inverse n hn jm h
  have e : Inv n jm = Metric.rows l := by unfold Inv; rw [hl]; rfl
  intro h0
  have := congrArg Matrix.det h1
  rw [Matrix.det_mul, ← e] at this
  unfold Det at h0
  rw [h0, zero_mul, Matrix.det_one] at this
  exact zero_ne_one this

omit [LinearOrder K] [IsStrictOrderedRing K] in
theorem Det2 (A : ℕ → ℕ → K) : Det 2 A = A 0 0 * A 1 1 - A 0 1 * A 1 0 := by
  unfold Det
  have := Metric.jacobian_is_det 2 (by simp) A
  exact (Option.some.inj this).symm

omit [LinearOrder K] [IsStrictOrderedRing K] in
theorem Det3 (A : ℕ → ℕ → K) : Det 3 A = A 0 0 * A 1 1 * A 2 2 + A 0 1 * A 1 2 * A 2 0
      + A 0 2 * A 1 0 * A 2 1 - A 0 0 * A 1 2 * A 2 1 - A 0 1 * A 1 0 * A 2 2 - A 0 2 * A 1 1 * A 2 0 := by
  unfold Det
  have := Metric.jacobian_is_det 3 (by simp) A
  exact (Option.some.inj this).symm

omit [LinearOrder K] [IsStrictOrderedRing K] in
theorem push21i_zero (A : ℕ → ℕ → K) (h : Det 2 A ≠ 0) (u : K × K) (h0 : Poly.push21i A u = (0, 0)) :
    u.1 = 0 ∧ u.2 = 0 := by
  rw [Det2] at h
  simp only [Poly.push21i, Prod.mk.injEq] at h0
  obtain ⟨h1, h2⟩ := h0
  constructor
  · apply (mul_eq_zero.1 (?_ : (A 0 0 * A 1 1 - A 0 1 * A 1 0) * u.1 = 0)).resolve_left h
    linear_combination A 1 1 * h1 - A 1 0 * h2
  · apply (mul_eq_zero.1 (?_ : (A 0 0 * A 1 1 - A 0 1 * A 1 0) * u.2 = 0)).resolve_left h
    linear_combination A 0 0 * h2 - A 0 1 * h1

omit [LinearOrder K] [IsStrictOrderedRing K] in
theorem push21o_zero (A : ℕ → ℕ → K) (h : Det 2 A ≠ 0) (u : K × K) (h0 : Poly.push21o A u = (0, 0)) :
    u.1 = 0 ∧ u.2 = 0 := by
  rw [Det2] at h
  simp only [Poly.push21o, Prod.mk.injEq] at h0
  obtain ⟨h1, h2⟩ := h0
  constructor
  · apply (mul_eq_zero.1 (?_ : (A 0 0 * A 1 1 - A 0 1 * A 1 0) * u.1 = 0)).resolve_left h
    linear_combination A 0 0 * h1 + A 0 1 * h2
  · apply (mul_eq_zero.1 (?_ : (A 0 0 * A 1 1 - A 0 1 * A 1 0) * u.2 = 0)).resolve_left h
    linear_combination A 1 0 * h1 + A 1 1 * h2

omit [LinearOrder K] [IsStrictOrderedRing K] in
theorem push31_zero (A : ℕ → ℕ → K) (h : Det 3 A ≠ 0) (u : K × K × K) (h0 : Poly.push31 A u = (0, 0, 0)) :
    u.1 = 0 ∧ u.2.1 = 0 ∧ u.2.2 = 0 := by
  have hD := Det3 A
  simp only [Poly.push31, Prod.mk.injEq] at h0
  obtain ⟨h1, h2, h3⟩ := h0
  refine ⟨?_, ?_, ?_⟩
  · apply (mul_eq_zero.1 (?_ : Det 3 A * u.1 = 0)).resolve_left h
    rw [hD]
    linear_combination (A 1 1 * A 2 2 - A 1 2 * A 2 1) * h1 + (A 1 2 * A 2 0 - A 1 0 * A 2 2) * h2
      + (A 1 0 * A 2 1 - A 1 1 * A 2 0) * h3
  · apply (mul_eq_zero.1 (?_ : Det 3 A * u.2.1 = 0)).resolve_left h
    rw [hD]
    linear_combination (A 2 1 * A 0 2 - A 2 2 * A 0 1) * h1 + (A 2 2 * A 0 0 - A 2 0 * A 0 2) * h2
      + (A 2 0 * A 0 1 - A 2 1 * A 0 0) * h3
  · apply (mul_eq_zero.1 (?_ : Det 3 A * u.2.2 = 0)).resolve_left h
    rw [hD]
    linear_combination (A 0 1 * A 1 2 - A 0 2 * A 1 1) * h1 + (A 0 2 * A 1 0 - A 0 0 * A 1 2) * h2
      + (A 0 0 * A 1 1 - A 0 1 * A 1 0) * h3

omit [LinearOrder K] [IsStrictOrderedRing K] in
theorem push32_zero (A : ℕ → ℕ → K) (h : Det 3 A ≠ 0) (u : K × K × K) (h0 : Poly.push32 A u = (0, 0, 0)) :
    u.1 = 0 ∧ u.2.1 = 0 ∧ u.2.2 = 0 := by
  have hD := Det3 A
  simp only [Poly.push32, Prod.mk.injEq] at h0
  obtain ⟨h1, h2, h3⟩ := h0
  refine ⟨?_, ?_, ?_⟩
  · apply (mul_eq_zero.1 (?_ : Det 3 A * u.1 = 0)).resolve_left h
    rw [hD]
    linear_combination A 0 0 * h1 + A 0 1 * h2 + A 0 2 * h3
  · apply (mul_eq_zero.1 (?_ : Det 3 A * u.2.1 = 0)).resolve_left h
    rw [hD]
    linear_combination A 1 0 * h1 + A 1 1 * h2 + A 1 2 * h3
  · apply (mul_eq_zero.1 (?_ : Det 3 A * u.2.2 = 0)).resolve_left h
    rw [hD]
    linear_combination A 2 0 * h1 + A 2 1 * h2 + A 2 2 * h3

theorem dot2_zero {d : K} (h : 0 < d) {u : K × K} (h0 : d * dot2 u u = 0) : u = (0, 0) := by
  obtain ⟨h1, h2⟩ := sq2 ((mul_eq_zero.1 h0).resolve_left h.ne')
  exact Prod.ext h1 h2

theorem dot3_zero {d : K} (h : 0 < d) {u : K × K × K} (h0 : d * dot3 u u = 0) : u = (0, 0, 0) := by
  obtain ⟨h1, h2, h3⟩ := sq3 ((mul_eq_zero.1 h0).resolve_left h.ne')
  exact Prod.ext h1 (Prod.ext h2 h3)

/-! ### Positive definiteness -/

theorem mass10_posDef (xs : List K) (qx : List (K × K)) (jm : K → ℕ → ℕ → K) (hx : Suits xs qx)
    (hJ : ∀ x ∈ qx, 0 < Det 1 (jm x.1)) :
    PosDef xs.length (mass0 1 (grid1 qx jm fun x => [Poly.nodes xs x])) := by
  have nn : ∀ a : ℕ → K, ∀ x ∈ qx, 0 ≤ Det 1 (jm x.1) * (Poly.rec10 xs a x.1 * Poly.rec10 xs a x.1) :=
    fun a x hx => mul_nonneg (hJ x hx).le (mul_self_nonneg _)
  refine ⟨fun a => ?_, fun a h0 i hi => ?_⟩
  · rw [mass10_inner_product]; exact quad1_nonneg _ _ hx.2.2.2 (nn a)
  · rw [mass10_inner_product] at h0
    have h1 := quad1_zero _ _ hx.2.2.2 (nn a) h0
    have := hx.nodes.zero 0 a (fun x x' => mul_self_eq_zero.1 ((mul_eq_zero.1 (h1 x x')).resolve_left (hJ x x').ne')) i hi
    rwa [zero_add] at this

theorem mass11_posDef (xs : List K) (qx : List (K × K)) (jm : K → ℕ → ℕ → K) (hx : Suits xs qx)
    (hJ : ∀ x ∈ qx, 0 < Det 1 (jm x.1)) :
    PosDef (xs.length - 1) (massTop 1 (grid1 qx jm fun x => [Poly.edges xs x])) := by
  have hJ' := fun x x' => (hJ x x').ne'
  have nn : ∀ a : ℕ → K, ∀ x ∈ qx, 0 ≤ Det 1 (jm x.1) * (Poly.rec11 xs a x.1 * (Det 1 (jm x.1))⁻¹ *
      (Poly.rec11 xs a x.1 * (Det 1 (jm x.1))⁻¹)) :=
    fun a x hx => mul_nonneg (hJ x hx).le (mul_self_nonneg _)
  refine ⟨fun a => ?_, fun a h0 i hi => ?_⟩
  · rw [mass11_inner_product _ _ _ hJ']; exact quad1_nonneg _ _ hx.2.2.2 (nn a)
  · rw [mass11_inner_product _ _ _ hJ'] at h0
    have h1 := quad1_zero _ _ hx.2.2.2 (nn a) h0
    have := hx.edges.zero 0 a (fun x x' => (mul_eq_zero.1 (mul_self_eq_zero.1
      ((mul_eq_zero.1 (h1 x x')).resolve_left (hJ x x').ne'))).resolve_right (inv_ne_zero (hJ x x').ne')) i hi
    rwa [zero_add] at this

theorem mass20_posDef (xs ys : List K) (qx qy : List (K × K)) (jm : K → K → ℕ → ℕ → K) (hx : Suits xs qx)
    (hy : Suits ys qy) (hJ : ∀ x ∈ qx, ∀ y ∈ qy, 0 < Det 2 (jm x.1 y.1)) :
    PosDef (xs.length * ys.length) (mass0 2 (grid2 qx qy jm (bf20 xs ys))) := by
  have nn : ∀ a : ℕ → K, ∀ x ∈ qx, ∀ y ∈ qy, 0 ≤ Det 2 (jm x.1 y.1) *
      (Poly.rec20 xs ys a x.1 y.1 * Poly.rec20 xs ys a x.1 y.1) :=
    fun a x hx y hy => mul_nonneg (hJ x hx y hy).le (mul_self_nonneg _)
  refine ⟨fun a => ?_, fun a h0 i hi => ?_⟩
  · rw [mass20_inner_product]; exact quad2_nonneg _ _ _ hx.2.2.2 hy.2.2.2 (nn a)
  · rw [mass20_inner_product] at h0
    have h1 := quad2_zero _ _ _ hx.2.2.2 hy.2.2.2 (nn a) h0
    have := uni2 hx.nodes hy.nodes 0 a (fun x x' y y' => mul_self_eq_zero.1
      ((mul_eq_zero.1 (h1 x x' y y')).resolve_left (hJ x x' y y').ne')) i (by rwa [mul_comm])
    rwa [zero_add] at this

theorem mass22_posDef (xs ys : List K) (qx qy : List (K × K)) (jm : K → K → ℕ → ℕ → K) (hx : Suits xs qx)
    (hy : Suits ys qy) (hJ : ∀ x ∈ qx, ∀ y ∈ qy, 0 < Det 2 (jm x.1 y.1)) :
    PosDef ((xs.length - 1) * (ys.length - 1)) (massTop 2 (grid2 qx qy jm (bf22 xs ys))) := by
  have hJ' := fun x x' y y' => (hJ x x' y y').ne'
  have nn : ∀ a : ℕ → K, ∀ x ∈ qx, ∀ y ∈ qy, 0 ≤ Det 2 (jm x.1 y.1) *
      (Poly.rec22 xs ys a x.1 y.1 * (Det 2 (jm x.1 y.1))⁻¹ * (Poly.rec22 xs ys a x.1 y.1 * (Det 2 (jm x.1 y.1))⁻¹)) :=
    fun a x hx y hy => mul_nonneg (hJ x hx y hy).le (mul_self_nonneg _)
  refine ⟨fun a => ?_, fun a h0 i hi => ?_⟩
  · rw [mass22_inner_product _ _ _ _ _ hJ']; exact quad2_nonneg _ _ _ hx.2.2.2 hy.2.2.2 (nn a)
  · rw [mass22_inner_product _ _ _ _ _ hJ'] at h0
    have h1 := quad2_zero _ _ _ hx.2.2.2 hy.2.2.2 (nn a) h0
    have := uni2 hx.edges hy.edges 0 a (fun x x' y y' => (mul_eq_zero.1 (mul_self_eq_zero.1
      ((mul_eq_zero.1 (h1 x x' y y')).resolve_left (hJ x x' y y').ne'))).resolve_right
        (inv_ne_zero (hJ x x' y y').ne')) i (by rwa [mul_comm])
    rwa [zero_add] at this

theorem mass21i_posDef (diag : Bool) (xs ys : List K) (qx qy : List (K × K)) (jm : K → K → ℕ → ℕ → K)
    (hx : Suits xs qx) (hy : Suits ys qy) (hJ : ∀ x ∈ qx, ∀ y ∈ qy, 0 < Det 2 (jm x.1 y.1))
    (hd : diag = true → ∀ x ∈ qx, ∀ y ∈ qy, jm x.1 y.1 0 1 = 0 ∧ jm x.1 y.1 1 0 = 0) :
    PosDef (N21 xs ys) (mass21i diag (grid2 qx qy jm (bf21i xs ys)) (Poly.n21i xs ys)) := by
  have nn : ∀ a : ℕ → K, ∀ x ∈ qx, ∀ y ∈ qy, 0 ≤ Det 2 (jm x.1 y.1) *
      dot2 (Poly.push21i (Inv 2 (jm x.1 y.1)) (Poly.rec21i xs ys a x.1 y.1))
          (Poly.push21i (Inv 2 (jm x.1 y.1)) (Poly.rec21i xs ys a x.1 y.1)) :=
    fun a x hx y hy => mul_nonneg (hJ x hx y hy).le (dot2_nonneg _)
  refine ⟨fun a => ?_, fun a h0 i hi => ?_⟩
  · rw [mass21i_inner_product _ _ _ _ _ _ hd]; exact quad2_nonneg _ _ _ hx.2.2.2 hy.2.2.2 (nn a)
  · rw [mass21i_inner_product _ _ _ _ _ _ hd] at h0
    have h1 := quad2_zero _ _ _ hx.2.2.2 hy.2.2.2 (nn a) h0
    have h2 := fun x x' y y' => push21i_zero _ (det_inv_ne 2 (by simp) _ (hJ x x' y y').ne') _
      (dot2_zero (hJ x x' y y') (h1 x x' y y'))
    have u0 := uni2 hx.edges hy.nodes 0 a (fun x x' y y' => (h2 x x' y y').1)
    have u1 := uni2 hx.nodes hy.edges (Poly.n21i xs ys) a (fun x x' y y' => (h2 x x' y y').2)
    unfold N21 at hi
    by_cases hn : i < Poly.n21i xs ys
    · have := u0 i (by rw [mul_comm]; exact hn)
      rwa [zero_add] at this
    · have := u1 (i - Poly.n21i xs ys) (by rw [mul_comm (ys.length - 1)]; unfold Poly.n21i at hn ⊢; omega)
      rwa [Nat.add_sub_cancel' (Nat.le_of_not_lt hn)] at this

theorem mass21o_posDef (diag : Bool) (xs ys : List K) (qx qy : List (K × K)) (jm : K → K → ℕ → ℕ → K)
    (hx : Suits xs qx) (hy : Suits ys qy) (hJ : ∀ x ∈ qx, ∀ y ∈ qy, 0 < Det 2 (jm x.1 y.1))
    (hd : diag = true → ∀ x ∈ qx, ∀ y ∈ qy, jm x.1 y.1 0 1 = 0 ∧ jm x.1 y.1 1 0 = 0) :
    PosDef (N21 xs ys) (mass21o diag (grid2 qx qy jm (bf21o xs ys)) (Poly.n21o xs ys)) := by
  have nn : ∀ a : ℕ → K, ∀ x ∈ qx, ∀ y ∈ qy, 0 ≤ Det 2 (jm x.1 y.1) *
      dot2 (Poly.push21o (Inv 2 (jm x.1 y.1)) (Poly.rec21o xs ys a x.1 y.1))
          (Poly.push21o (Inv 2 (jm x.1 y.1)) (Poly.rec21o xs ys a x.1 y.1)) :=
    fun a x hx y hy => mul_nonneg (hJ x hx y hy).le (dot2_nonneg _)
  refine ⟨fun a => ?_, fun a h0 i hi => ?_⟩
  · rw [mass21o_inner_product _ _ _ _ _ _ hd]; exact quad2_nonneg _ _ _ hx.2.2.2 hy.2.2.2 (nn a)
  · rw [mass21o_inner_product _ _ _ _ _ _ hd] at h0
    have h1 := quad2_zero _ _ _ hx.2.2.2 hy.2.2.2 (nn a) h0
    have h2 := fun x x' y y' => push21o_zero _ (det_inv_ne 2 (by simp) _ (hJ x x' y y').ne') _
      (dot2_zero (hJ x x' y y') (h1 x x' y y'))
    have u0 := uni2 hx.nodes hy.edges 0 a (fun x x' y y' => (h2 x x' y y').1)
    have u1 := uni2 hx.edges hy.nodes (Poly.n21o xs ys) a (fun x x' y y' => (h2 x x' y y').2)
    unfold N21 at hi
    by_cases hn : i < Poly.n21o xs ys
    · have := u0 i (by rw [mul_comm]; exact hn)
      rwa [zero_add] at this
    · have := u1 (i - Poly.n21o xs ys) (by rw [mul_comm ys.length]; unfold Poly.n21o at hn ⊢; omega)
      rwa [Nat.add_sub_cancel' (Nat.le_of_not_lt hn)] at this

theorem mass30_posDef (xs ys zs : List K) (qx qy qz : List (K × K)) (jm : K → K → K → ℕ → ℕ → K) (hx : Suits xs qx)
    (hy : Suits ys qy) (hz : Suits zs qz) (hJ : ∀ x ∈ qx, ∀ y ∈ qy, ∀ z ∈ qz, 0 < Det 3 (jm x.1 y.1 z.1)) :
    PosDef (xs.length * ys.length * zs.length) (mass0 3 (grid3 qx qy qz jm (bf30 xs ys zs))) := by
  have nn : ∀ a : ℕ → K, ∀ x ∈ qx, ∀ y ∈ qy, ∀ z ∈ qz, 0 ≤ Det 3 (jm x.1 y.1 z.1) *
      (Poly.rec30 xs ys zs a x.1 y.1 z.1 * Poly.rec30 xs ys zs a x.1 y.1 z.1) :=
    fun a x hx y hy z hz => mul_nonneg (hJ x hx y hy z hz).le (mul_self_nonneg _)
  refine ⟨fun a => ?_, fun a h0 i hi => ?_⟩
  · rw [mass30_inner_product]; exact quad3_nonneg _ _ _ _ hx.2.2.2 hy.2.2.2 hz.2.2.2 (nn a)
  · rw [mass30_inner_product] at h0
    have h1 := quad3_zero _ _ _ _ hx.2.2.2 hy.2.2.2 hz.2.2.2 (nn a) h0
    have := uni3 hx.nodes hy.nodes hz.nodes 0 a (fun x x' y y' z z' => mul_self_eq_zero.1
      ((mul_eq_zero.1 (h1 x x' y y' z z')).resolve_left (hJ x x' y y' z z').ne')) i
      (by rw [mul_comm, mul_comm zs.length, ← mul_assoc]; exact hi)
    rwa [zero_add] at this

theorem mass33_posDef (xs ys zs : List K) (qx qy qz : List (K × K)) (jm : K → K → K → ℕ → ℕ → K) (hx : Suits xs qx)
    (hy : Suits ys qy) (hz : Suits zs qz) (hJ : ∀ x ∈ qx, ∀ y ∈ qy, ∀ z ∈ qz, 0 < Det 3 (jm x.1 y.1 z.1)) :
    PosDef ((xs.length - 1) * (ys.length - 1) * (zs.length - 1)) (massTop 3 (grid3 qx qy qz jm (bf33 xs ys zs))) := by
  have hJ' := fun x x' y y' z z' => (hJ x x' y y' z z').ne'
  have nn : ∀ a : ℕ → K, ∀ x ∈ qx, ∀ y ∈ qy, ∀ z ∈ qz, 0 ≤ Det 3 (jm x.1 y.1 z.1) *
      (Poly.rec33 xs ys zs a x.1 y.1 z.1 * (Det 3 (jm x.1 y.1 z.1))⁻¹ *
        (Poly.rec33 xs ys zs a x.1 y.1 z.1 * (Det 3 (jm x.1 y.1 z.1))⁻¹)) :=
    fun a x hx y hy z hz => mul_nonneg (hJ x hx y hy z hz).le (mul_self_nonneg _)
  refine ⟨fun a => ?_, fun a h0 i hi => ?_⟩
  · rw [mass33_inner_product _ _ _ _ _ _ _ hJ']; exact quad3_nonneg _ _ _ _ hx.2.2.2 hy.2.2.2 hz.2.2.2 (nn a)
  · rw [mass33_inner_product _ _ _ _ _ _ _ hJ'] at h0
    have h1 := quad3_zero _ _ _ _ hx.2.2.2 hy.2.2.2 hz.2.2.2 (nn a) h0
    have := uni3 hx.edges hy.edges hz.edges 0 a (fun x x' y y' z z' => (mul_eq_zero.1 (mul_self_eq_zero.1
      ((mul_eq_zero.1 (h1 x x' y y' z z')).resolve_left (hJ x x' y y' z z').ne'))).resolve_right
        (inv_ne_zero (hJ x x' y y' z z').ne')) i
      (by rw [mul_comm, mul_comm (zs.length - 1), ← mul_assoc]; exact hi)
    rwa [zero_add] at this

theorem mass31_posDef (diag : Bool) (xs ys zs : List K) (qx qy qz : List (K × K)) (jm : K → K → K → ℕ → ℕ → K)
    (hx : Suits xs qx) (hy : Suits ys qy) (hz : Suits zs qz)
    (hJ : ∀ x ∈ qx, ∀ y ∈ qy, ∀ z ∈ qz, 0 < Det 3 (jm x.1 y.1 z.1))
    (hd : diag = true → ∀ x ∈ qx, ∀ y ∈ qy, ∀ z ∈ qz, Diag3 (jm x.1 y.1 z.1)) :
    PosDef (N31 xs ys zs)
      (mass31 diag (grid3 qx qy qz jm (bf31 xs ys zs)) (n310 xs ys zs) (n311 xs ys zs)) := by
  have nn : ∀ a : ℕ → K, ∀ x ∈ qx, ∀ y ∈ qy, ∀ z ∈ qz, 0 ≤ Det 3 (jm x.1 y.1 z.1) *
      dot3 (Poly.push31 (Inv 3 (jm x.1 y.1 z.1)) (Poly.rec31 xs ys zs a x.1 y.1 z.1))
        (Poly.push31 (Inv 3 (jm x.1 y.1 z.1)) (Poly.rec31 xs ys zs a x.1 y.1 z.1)) :=
    fun a x hx y hy z hz => mul_nonneg (hJ x hx y hy z hz).le (dot3_nonneg _)
  refine ⟨fun a => ?_, fun a h0 i hi => ?_⟩
  · rw [mass31_inner_product _ _ _ _ _ _ _ _ hd]; exact quad3_nonneg _ _ _ _ hx.2.2.2 hy.2.2.2 hz.2.2.2 (nn a)
  · rw [mass31_inner_product _ _ _ _ _ _ _ _ hd] at h0
    have h1 := quad3_zero _ _ _ _ hx.2.2.2 hy.2.2.2 hz.2.2.2 (nn a) h0
    have h2 := fun x x' y y' z z' => push31_zero _ (det_inv_ne 3 (by simp) _ (hJ x x' y y' z z').ne') _
      (dot3_zero (hJ x x' y y' z z') (h1 x x' y y' z z'))
    have u0 := uni3 hx.edges hy.nodes hz.nodes 0 a (fun x x' y y' z z' => (h2 x x' y y' z z').1)
    have u1 := uni3 hx.nodes hy.edges hz.nodes (n310 xs ys zs) a (fun x x' y y' z z' => (h2 x x' y y' z z').2.1)
    have u2 := uni3 hx.nodes hy.nodes hz.edges (n310 xs ys zs + n311 xs ys zs) a
      (fun x x' y y' z z' => (h2 x x' y y' z z').2.2)
    have e0 : zs.length * ys.length * (xs.length - 1) = n310 xs ys zs := by unfold n310; ring
    have e1 : zs.length * (ys.length - 1) * xs.length = n311 xs ys zs := by unfold n311; ring
    have e2 : (zs.length - 1) * ys.length * xs.length = n312 xs ys zs := by unfold n312; ring
    rw [e0] at u0; rw [e1] at u1; rw [e2] at u2
    unfold N31 at hi
    by_cases hn : i < n310 xs ys zs
    · have := u0 i hn
      rwa [zero_add] at this
    · by_cases hm : i < n310 xs ys zs + n311 xs ys zs
      · have := u1 (i - n310 xs ys zs) (by omega)
        rwa [Nat.add_sub_cancel' (Nat.le_of_not_lt hn)] at this
      · have := u2 (i - (n310 xs ys zs + n311 xs ys zs)) (by omega)
        rwa [Nat.add_sub_cancel' (Nat.le_of_not_lt hm)] at this

theorem mass32_posDef (diag : Bool) (xs ys zs : List K) (qx qy qz : List (K × K)) (jm : K → K → K → ℕ → ℕ → K)
    (hx : Suits xs qx) (hy : Suits ys qy) (hz : Suits zs qz)
    (hJ : ∀ x ∈ qx, ∀ y ∈ qy, ∀ z ∈ qz, 0 < Det 3 (jm x.1 y.1 z.1))
    (hd : diag = true → ∀ x ∈ qx, ∀ y ∈ qy, ∀ z ∈ qz, Diag3 (jm x.1 y.1 z.1)) :
    PosDef (N32 xs ys zs)
      (mass32 diag (grid3 qx qy qz jm (bf32 xs ys zs)) (n320 xs ys zs) (n321 xs ys zs)) := by
  have nn : ∀ a : ℕ → K, ∀ x ∈ qx, ∀ y ∈ qy, ∀ z ∈ qz, 0 ≤ Det 3 (jm x.1 y.1 z.1) *
      dot3 (Poly.push32 (Inv 3 (jm x.1 y.1 z.1)) (Poly.rec32 xs ys zs a x.1 y.1 z.1))
        (Poly.push32 (Inv 3 (jm x.1 y.1 z.1)) (Poly.rec32 xs ys zs a x.1 y.1 z.1)) :=
    fun a x hx y hy z hz => mul_nonneg (hJ x hx y hy z hz).le (dot3_nonneg _)
  refine ⟨fun a => ?_, fun a h0 i hi => ?_⟩
  · rw [mass32_inner_product _ _ _ _ _ _ _ _ hd]; exact quad3_nonneg _ _ _ _ hx.2.2.2 hy.2.2.2 hz.2.2.2 (nn a)
  · rw [mass32_inner_product _ _ _ _ _ _ _ _ hd] at h0
    have h1 := quad3_zero _ _ _ _ hx.2.2.2 hy.2.2.2 hz.2.2.2 (nn a) h0
    have h2 := fun x x' y y' z z' => push32_zero _ (det_inv_ne 3 (by simp) _ (hJ x x' y y' z z').ne') _
      (dot3_zero (hJ x x' y y' z z') (h1 x x' y y' z z'))
    have u0 := uni3 hx.nodes hy.edges hz.edges 0 a (fun x x' y y' z z' => (h2 x x' y y' z z').1)
    have u1 := uni3 hx.edges hy.nodes hz.edges (n320 xs ys zs) a (fun x x' y y' z z' => (h2 x x' y y' z z').2.1)
    have u2 := uni3 hx.edges hy.edges hz.nodes (n320 xs ys zs + n321 xs ys zs) a
      (fun x x' y y' z z' => (h2 x x' y y' z z').2.2)
    have e0 : (zs.length - 1) * (ys.length - 1) * xs.length = n320 xs ys zs := by unfold n320; ring
    have e1 : (zs.length - 1) * ys.length * (xs.length - 1) = n321 xs ys zs := by unfold n321; ring
    have e2 : zs.length * (ys.length - 1) * (xs.length - 1) = n322 xs ys zs := by unfold n322; ring
    rw [e0] at u0; rw [e1] at u1; rw [e2] at u2
    unfold N32 at hi
    by_cases hn : i < n320 xs ys zs
    · have := u0 i hn
      rwa [zero_add] at this
    · by_cases hm : i < n320 xs ys zs + n321 xs ys zs
      · have := u1 (i - n320 xs ys zs) (by omega)
        rwa [Nat.add_sub_cancel' (Nat.le_of_not_lt hn)] at this
      · have := u2 (i - (n320 xs ys zs + n321 xs ys zs)) (by omega)
        rwa [Nat.add_sub_cancel' (Nat.le_of_not_lt hm)] at this

/-! ### The hypotheses are met -/

/-- Gauss-like rational nodes for degree 1, and the Lobatto rule with three nodes for degree 2. -/
example : Suits ([-1, 1] : List ℚ) [(-1/2, 1), (1/2, 1)] := by
  refine ⟨by decide +kernel, by decide +kernel, by decide, ?_⟩
  intro x hx; fin_cases hx <;> norm_num

example : Suits ([-1, 0, 1] : List ℚ) [(-1, 1/3), (0, 4/3), (1, 1/3)] := by
  refine ⟨by decide +kernel, by decide +kernel, by decide, ?_⟩
  intro x hx; fin_cases hx <;> norm_num

/-- A sheared element has a Jacobian matrix with positive determinant that is not diagonal. -/
def shear (i j : ℕ) : ℚ := if i = j then 1 else if i = 0 ∧ j = 1 then 1 else 0

example : 0 < Det 3 shear ∧ ¬ Diag3 shear := by
  rw [Det3]
  constructor
  · norm_num [shear]
  · intro h
    have := h.1
    norm_num [shear] at this

/-! ### What fails -/

/-- `msehtt` leaves the blocks off the diagonal out for curvilinear hexahedra too (`MM_m3n3k1.py:94-134`); then the matrix is
not that of the inner product. -/
theorem mass31_curvilinear_refuted : ¬ ∀ (xs ys zs : List ℚ) (qx qy qz : List (ℚ × ℚ)) (jm : ℚ → ℚ → ℚ → ℕ → ℕ → ℚ),
    Suits xs qx → Suits ys qy → Suits zs qz → (∀ x ∈ qx, ∀ y ∈ qy, ∀ z ∈ qz, 0 < Det 3 (jm x.1 y.1 z.1)) →
    ∀ a b, form (N31 xs ys zs) (mass31 true (grid3 qx qy qz jm (bf31 xs ys zs)) (n310 xs ys zs) (n311 xs ys zs)) a b =
      quad3 qx qy qz fun x y z => Det 3 (jm x y z) *
        dot3 (Poly.push31 (Inv 3 (jm x y z)) (Poly.rec31 xs ys zs a x y z))
          (Poly.push31 (Inv 3 (jm x y z)) (Poly.rec31 xs ys zs b x y z)) := by
  intro h
  have hs : Suits ([-1, 1] : List ℚ) [(-1/2, 1), (1/2, 1)] := by
    refine ⟨by decide +kernel, by decide +kernel, by decide, ?_⟩
    intro x hx; fin_cases hx <;> norm_num
  have hJ : 0 < Det 3 shear := by rw [Det3]; norm_num [shear]
  have h1 := h [-1, 1] [-1, 1] [-1, 1] _ _ _ (fun _ _ _ => shear) hs hs hs (fun _ _ _ _ _ _ => hJ)
    (Poly.unit 0) (Poly.unit 4)
  rw [← mass31_inner_product false _ _ _ _ _ _ _ (by simp)] at h1
  revert h1
  decide +kernel

/-- The same for 2-forms (`MM_m3n3k2.py:94-134`). -/
theorem mass32_curvilinear_refuted : ¬ ∀ (xs ys zs : List ℚ) (qx qy qz : List (ℚ × ℚ)) (jm : ℚ → ℚ → ℚ → ℕ → ℕ → ℚ),
    Suits xs qx → Suits ys qy → Suits zs qz → (∀ x ∈ qx, ∀ y ∈ qy, ∀ z ∈ qz, 0 < Det 3 (jm x.1 y.1 z.1)) →
    ∀ a b, form (N32 xs ys zs) (mass32 true (grid3 qx qy qz jm (bf32 xs ys zs)) (n320 xs ys zs) (n321 xs ys zs)) a b =
      quad3 qx qy qz fun x y z => Det 3 (jm x y z) *
        dot3 (Poly.push32 (Inv 3 (jm x y z)) (Poly.rec32 xs ys zs a x y z))
          (Poly.push32 (Inv 3 (jm x y z)) (Poly.rec32 xs ys zs b x y z)) := by
  intro h
  have hs : Suits ([-1, 1] : List ℚ) [(-1/2, 1), (1/2, 1)] := by
    refine ⟨by decide +kernel, by decide +kernel, by decide, ?_⟩
    intro x hx; fin_cases hx <;> norm_num
  have hJ : 0 < Det 3 shear := by rw [Det3]; norm_num [shear]
  have h1 := h [-1, 1] [-1, 1] [-1, 1] _ _ _ (fun _ _ _ => shear) hs hs hs (fun _ _ _ _ _ _ => hJ)
    (Poly.unit 0) (Poly.unit 2)
  rw [← mass32_inner_product false _ _ _ _ _ _ _ (by simp)] at h1
  revert h1
  decide +kernel

end Phyem.Mass
