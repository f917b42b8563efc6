import Verif.Mass.Lemmas
import Verif.Metric.Props
import Verif.Poly.Lemmas
import Mathlib.Tactic.NormNum

/-!
C78: the local mass matrix is the matrix of the inner product of reconstructed forms, computed with the quadrature rule.
-/

namespace Phyem.Mass

open Finset

variable {K : Type} [Field K]

/-! ### Specification -/

/-- The scalar products of vectors. -/
def dot2 (u v : K × K) : K := u.1 * v.1 + u.2 * v.2
def dot3 (u v : K × K × K) : K := u.1 * v.1 + u.2.1 * v.2.1 + u.2.2 * v.2.2

/-- The quadrature rule with one-dimensional nodes and weights `q`, applied to a function on the reference element. -/
def quad1 (qx : List (K × K)) (F : K → K) : K := (qx.map fun x => x.2 * F x.1).sum
def quad2 (qx qy : List (K × K)) (F : K → K → K) : K := quad1 qy fun y => quad1 qx fun x => F x y
def quad3 (qx qy qz : List (K × K)) (F : K → K → K → K) : K := quad1 qz fun z => quad2 qx qy fun x y => F x y z

/-- The Jacobian: the determinant of the Jacobian matrix. -/
def Det (n : ℕ) (jm : ℕ → ℕ → K) : K := (Metric.toM n n jm).det

/-- The inverse Jacobian matrix (C72). -/
def Inv (n : ℕ) (jm : ℕ → ℕ → K) : ℕ → ℕ → K := Metric.rows ((Metric.inverseJM n n jm).getD [])

/-! ### Helpers -/

theorem det_eq (n : ℕ) (hn : n = 1 ∨ n = 2 ∨ n = 3) (q : Pt K) : det n q = Det n q.jm := by
  unfold det Det
  rw [Metric.jacobian_is_det n hn]; rfl

theorem quad2_points (qx qy : List (K × K)) (jm : K → K → ℕ → ℕ → K) (bf : K → K → List (List K)) (F : Pt K → K)
    (G : K → K → K) (h : ∀ x ∈ qx, ∀ y ∈ qy, F ⟨x.2 * y.2, jm x.1 y.1, bf x.1 y.1⟩ = x.2 * y.2 * G x.1 y.1) :
    ((grid2 qx qy jm bf).map F).sum = quad2 qx qy G := by
  unfold grid2 quad2 quad1
  induction qy with
  | nil => simp
  | cons y qy ih =>
    simp only [List.flatMap_cons, List.map_append, List.sum_append, List.map_cons, List.sum_cons]
    rw [ih fun x hx y' hy' => h x hx y' (List.mem_cons_of_mem _ hy')]
    congr 1
    have hy := fun x hx => h x hx y List.mem_cons_self
    clear ih h
    induction qx with
    | nil => simp
    | cons x qx ih =>
      simp only [List.map_cons, List.sum_cons]
      rw [ih fun x' hx' => hy x' (List.mem_cons_of_mem _ hx'), hy x List.mem_cons_self]
      ring

theorem quad3_points (qx qy qz : List (K × K)) (jm : K → K → K → ℕ → ℕ → K) (bf : K → K → K → List (List K))
    (F : Pt K → K) (G : K → K → K → K)
    (h : ∀ x ∈ qx, ∀ y ∈ qy, ∀ z ∈ qz, F ⟨x.2 * y.2 * z.2, jm x.1 y.1 z.1, bf x.1 y.1 z.1⟩
      = x.2 * y.2 * z.2 * G x.1 y.1 z.1) :
    ((grid3 qx qy qz jm bf).map F).sum = quad3 qx qy qz G := by
  have h2 : ∀ z ∈ qz, ((qy.flatMap fun y => qx.map fun x =>
      (⟨x.2 * y.2 * z.2, jm x.1 y.1 z.1, bf x.1 y.1 z.1⟩ : Pt K)).map F).sum
      = z.2 * quad2 qx qy fun x y => G x y z.1 := by
    intro z hz
    have hz' := fun x hx y hy => h x hx y hy z hz
    clear h
    unfold quad2 quad1
    induction qy with
    | nil => simp
    | cons y qy ih =>
      simp only [List.flatMap_cons, List.map_append, List.sum_append, List.map_cons, List.sum_cons]
      rw [ih fun x hx y' hy' => hz' x hx y' (List.mem_cons_of_mem _ hy'), mul_add]
      congr 1
      have hy := fun x hx => hz' x hx y List.mem_cons_self
      clear ih hz'
      induction qx with
      | nil => simp
      | cons x qx ih =>
        simp only [List.map_cons, List.sum_cons]
        rw [ih fun x' hx' => hy x' (List.mem_cons_of_mem _ hx'), hy x List.mem_cons_self]
        ring
  clear h
  unfold grid3 quad3
  conv_rhs => unfold quad1
  induction qz with
  | nil => simp
  | cons z qz ih =>
    simp only [List.flatMap_cons, List.map_append, List.sum_append, List.map_cons, List.sum_cons]
    rw [ih fun z' hz' => h2 z' (List.mem_cons_of_mem _ hz'), h2 z List.mem_cons_self]

theorem rec_eq (q : Pt K) (r n o : ℕ) (c : ℕ → K) (bf : List K) (h : q.bf.getD r [] = bf) (hl : bf.length = n) :
    rec q r n o c = Poly.dot bf o c := by
  subst hl
  unfold rec comp Poly.dot
  rw [h]; rfl

theorem nodes_length (xs : List K) (x : K) : (Poly.nodes xs x).length = xs.length := by simp [Poly.nodes]
theorem edges_length (xs : List K) (x : K) : (Poly.edges xs x).length = xs.length - 1 := by simp [Poly.edges]

/-- The inverse metric matrix in terms of the inverse Jacobian matrix. -/
theorem g2 (q : Pt K) :
    g 2 q 0 0 = Inv 2 q.jm 0 0 * Inv 2 q.jm 0 0 + Inv 2 q.jm 0 1 * Inv 2 q.jm 0 1 ∧
    g 2 q 0 1 = Inv 2 q.jm 0 0 * Inv 2 q.jm 1 0 + Inv 2 q.jm 0 1 * Inv 2 q.jm 1 1 ∧
    g 2 q 1 0 = Inv 2 q.jm 0 0 * Inv 2 q.jm 1 0 + Inv 2 q.jm 0 1 * Inv 2 q.jm 1 1 ∧
    g 2 q 1 1 = Inv 2 q.jm 1 0 * Inv 2 q.jm 1 0 + Inv 2 q.jm 1 1 * Inv 2 q.jm 1 1 := ⟨rfl, rfl, rfl, rfl⟩

def gsum3 (i j : ℕ → K) : K := i 0 * j 0 + i 1 * j 1 + i 2 * j 2

theorem g3 (q : Pt K) :
    g 3 q 0 0 = gsum3 (Inv 3 q.jm 0) (Inv 3 q.jm 0) ∧ g 3 q 0 1 = gsum3 (Inv 3 q.jm 0) (Inv 3 q.jm 1) ∧
    g 3 q 0 2 = gsum3 (Inv 3 q.jm 0) (Inv 3 q.jm 2) ∧ g 3 q 1 0 = gsum3 (Inv 3 q.jm 0) (Inv 3 q.jm 1) ∧
    g 3 q 1 1 = gsum3 (Inv 3 q.jm 1) (Inv 3 q.jm 1) ∧ g 3 q 1 2 = gsum3 (Inv 3 q.jm 1) (Inv 3 q.jm 2) ∧
    g 3 q 2 0 = gsum3 (Inv 3 q.jm 0) (Inv 3 q.jm 2) ∧ g 3 q 2 1 = gsum3 (Inv 3 q.jm 1) (Inv 3 q.jm 2) ∧
    g 3 q 2 2 = gsum3 (Inv 3 q.jm 2) (Inv 3 q.jm 2) := ⟨rfl, rfl, rfl, rfl, rfl, rfl, rfl, rfl, rfl⟩

/-- A diagonal Jacobian matrix has a diagonal inverse. -/
theorem inv2_diag (jm : ℕ → ℕ → K) (h1 : jm 0 1 = 0) (h2 : jm 1 0 = 0) : Inv 2 jm 0 1 = 0 ∧ Inv 2 jm 1 0 = 0 := by
  have e1 : Inv 2 jm 0 1 = -(1 / (jm 0 0 * jm 1 1 - jm 0 1 * jm 1 0)) * jm 0 1 := rfl
  have e2 : Inv 2 jm 1 0 = -(1 / (jm 0 0 * jm 1 1 - jm 0 1 * jm 1 0)) * jm 1 0 := rfl
  rw [e1, e2, h1, h2]; simp

/-- The Jacobian matrix is diagonal. -/
def Diag3 (jm : ℕ → ℕ → K) : Prop :=
  jm 0 1 = 0 ∧ jm 0 2 = 0 ∧ jm 1 0 = 0 ∧ jm 1 2 = 0 ∧ jm 2 0 = 0 ∧ jm 2 1 = 0

theorem inv3_diag (jm : ℕ → ℕ → K) (h : Diag3 jm) : Diag3 (Inv 3 jm) := by
  obtain ⟨h1, h2, h3, h4, h5, h6⟩ := h
  refine ⟨?_, ?_, ?_, ?_, ?_, ?_⟩ <;>
    simp [Inv, Metric.inverseJM, Metric.rows, h1, h2, h3, h4, h5, h6]

/-! ### Points -/

theorem mass21i_points (diag : Bool) (pts : List (Pt K)) (n0 n1 : ℕ)
    (hd : diag = true → ∀ q ∈ pts, q.jm 0 1 = 0 ∧ q.jm 1 0 = 0) (a b : ℕ → K) :
    form (n0 + n1) (mass21i diag pts n0) a b = (pts.map fun q => q.w * (Det 2 q.jm *
      dot2 (Poly.push21i (Inv 2 q.jm) (rec q 0 n0 0 a, rec q 1 n1 n0 a))
        (Poly.push21i (Inv 2 q.jm) (rec q 0 n0 0 b, rec q 1 n1 n0 b)))).sum := by
  unfold mass21i
  rw [form_block2]
  cases diag with
  | false =>
    simp only [and_self, if_true, Bool.false_eq_true, if_false, one_ne_zero, zero_ne_one, and_false, false_and]
    rw [form_einsum, form_einsum, form_einsum_t, form_einsum, ← List.sum_map_add, ← List.sum_map_add,
      ← List.sum_map_add]
    congr 1
    apply List.map_congr_left
    intro q _
    obtain ⟨e1, e2, e3, e4⟩ := g2 q
    simp only [det_eq 2 (by simp), e1, e2, e3, e4, dot2, Poly.push21i]
    ring
  | true =>
    simp only [and_self, if_true, one_ne_zero, zero_ne_one, and_false, false_and, if_false, mul_zero, zero_mul,
      sum_const_zero, add_zero]
    rw [form_einsum, form_einsum, ← List.sum_map_add]
    congr 1
    apply List.map_congr_left
    intro q hq
    obtain ⟨e1, e2, e3, e4⟩ := g2 q
    obtain ⟨d1, d2⟩ := hd rfl q hq
    obtain ⟨i1, i2⟩ := inv2_diag q.jm d1 d2
    simp only [det_eq 2 (by simp), e1, e2, e3, e4, dot2, Poly.push21i, i1, i2]
    ring

theorem mass21o_points (diag : Bool) (pts : List (Pt K)) (n0 n1 : ℕ)
    (hd : diag = true → ∀ q ∈ pts, q.jm 0 1 = 0 ∧ q.jm 1 0 = 0) (a b : ℕ → K) :
    form (n0 + n1) (mass21o diag pts n0) a b = (pts.map fun q => q.w * (Det 2 q.jm *
      dot2 (Poly.push21o (Inv 2 q.jm) (rec q 0 n0 0 a, rec q 1 n1 n0 a))
        (Poly.push21o (Inv 2 q.jm) (rec q 0 n0 0 b, rec q 1 n1 n0 b)))).sum := by
  unfold mass21o
  rw [form_block2]
  cases diag with
  | false =>
    simp only [and_self, if_true, Bool.false_eq_true, if_false, one_ne_zero, zero_ne_one, and_false, false_and,
      neg_einsum]
    rw [form_einsum, form_einsum, form_einsum_t, form_einsum, ← List.sum_map_add, ← List.sum_map_add,
      ← List.sum_map_add]
    congr 1
    apply List.map_congr_left
    intro q _
    obtain ⟨e1, e2, e3, e4⟩ := g2 q
    simp only [det_eq 2 (by simp), e1, e2, e3, e4, dot2, Poly.push21o]
    ring
  | true =>
    simp only [and_self, if_true, one_ne_zero, zero_ne_one, and_false, false_and, if_false, mul_zero, zero_mul,
      sum_const_zero, add_zero]
    rw [form_einsum, form_einsum, ← List.sum_map_add]
    congr 1
    apply List.map_congr_left
    intro q hq
    obtain ⟨e1, e2, e3, e4⟩ := g2 q
    obtain ⟨d1, d2⟩ := hd rfl q hq
    obtain ⟨i1, i2⟩ := inv2_diag q.jm d1 d2
    simp only [det_eq 2 (by simp), e1, e2, e3, e4, dot2, Poly.push21o, i1, i2]
    ring

theorem mass31_points (diag : Bool) (pts : List (Pt K)) (n0 n1 n2 : ℕ)
    (hd : diag = true → ∀ q ∈ pts, Diag3 q.jm) (a b : ℕ → K) :
    form (n0 + n1 + n2) (mass31 diag pts n0 n1) a b = (pts.map fun q => q.w * (Det 3 q.jm *
      dot3 (Poly.push31 (Inv 3 q.jm) (rec q 0 n0 0 a, rec q 1 n1 n0 a, rec q 2 n2 (n0 + n1) a))
        (Poly.push31 (Inv 3 q.jm) (rec q 0 n0 0 b, rec q 1 n1 n0 b, rec q 2 n2 (n0 + n1) b)))).sum := by
  unfold mass31
  rw [form_block3]
  cases diag with
  | false =>
    simp only [if_true, Bool.false_eq_true, if_false, one_ne_zero, zero_ne_one, OfNat.ofNat_ne_zero,
      OfNat.zero_ne_ofNat, OfNat.one_ne_ofNat, OfNat.ofNat_ne_one, Nat.lt_irrefl, Nat.zero_lt_one, Nat.one_lt_ofNat,
      Nat.ofNat_pos, Nat.not_lt_zero, Nat.not_ofNat_lt_one]
    rw [form_einsum, form_einsum, form_einsum, form_einsum_t, form_einsum, form_einsum, form_einsum_t, form_einsum_t,
      form_einsum]
    simp only [← List.sum_map_add]
    congr 1
    apply List.map_congr_left
    intro q _
    obtain ⟨e1, e2, e3, e4, e5, e6, e7, e8, e9⟩ := g3 q
    simp only [det_eq 3 (by simp), e1, e2, e3, e5, e6, e9, dot3, Poly.push31, gsum3]
    ring
  | true =>
    simp only [if_true, if_false, one_ne_zero, zero_ne_one, OfNat.ofNat_ne_zero,
      OfNat.zero_ne_ofNat, OfNat.one_ne_ofNat, OfNat.ofNat_ne_one, mul_zero, zero_mul,
      sum_const_zero, add_zero]
    rw [form_einsum, form_einsum, form_einsum]
    simp only [← List.sum_map_add]
    congr 1
    apply List.map_congr_left
    intro q hq
    obtain ⟨e1, e2, e3, e4, e5, e6, e7, e8, e9⟩ := g3 q
    obtain ⟨i1, i2, i3, i4, i5, i6⟩ := inv3_diag q.jm (hd rfl q hq)
    simp only [det_eq 3 (by simp), e1, e5, e9, dot3, Poly.push31, gsum3, i1, i2, i3, i4, i5, i6]
    ring

theorem mass32_points (diag : Bool) (pts : List (Pt K)) (n0 n1 n2 : ℕ)
    (hd : diag = true → ∀ q ∈ pts, Diag3 q.jm) (a b : ℕ → K) :
    form (n0 + n1 + n2) (mass32 diag pts n0 n1) a b = (pts.map fun q => q.w * (Det 3 q.jm *
      dot3 (Poly.push32 (Inv 3 q.jm) (rec q 0 n0 0 a, rec q 1 n1 n0 a, rec q 2 n2 (n0 + n1) a))
        (Poly.push32 (Inv 3 q.jm) (rec q 0 n0 0 b, rec q 1 n1 n0 b, rec q 2 n2 (n0 + n1) b)))).sum := by
  unfold mass32
  rw [form_block3]
  cases diag with
  | false =>
    simp only [if_true, Bool.false_eq_true, if_false, one_ne_zero, zero_ne_one, OfNat.ofNat_ne_zero,
      OfNat.zero_ne_ofNat, OfNat.one_ne_ofNat, OfNat.ofNat_ne_one, Nat.lt_irrefl, Nat.zero_lt_one, Nat.one_lt_ofNat,
      Nat.ofNat_pos, Nat.not_lt_zero, Nat.not_ofNat_lt_one]
    rw [form_einsum, form_einsum, form_einsum, form_einsum_t, form_einsum, form_einsum, form_einsum_t, form_einsum_t,
      form_einsum]
    simp only [← List.sum_map_add]
    congr 1
    apply List.map_congr_left
    intro q _
    obtain ⟨e1, e2, e3, e4, e5, e6, e7, e8, e9⟩ := g3 q
    simp only [det_eq 3 (by simp), e1, e2, e3, e4, e5, e6, e7, e8, e9, dot3, Poly.push32, gsum3, cofDiag, cofOff,
      and_self, and_true, true_and, if_true, Bool.false_eq_true, if_false, one_ne_zero, OfNat.ofNat_ne_zero,
      OfNat.ofNat_ne_one, and_false, false_and]
    ring
  | true =>
    simp only [if_true, if_false, one_ne_zero, zero_ne_one, OfNat.ofNat_ne_zero,
      OfNat.zero_ne_ofNat, OfNat.one_ne_ofNat, OfNat.ofNat_ne_one, mul_zero, zero_mul,
      sum_const_zero, add_zero]
    rw [form_einsum, form_einsum, form_einsum]
    simp only [← List.sum_map_add]
    congr 1
    apply List.map_congr_left
    intro q hq
    obtain ⟨e1, e2, e3, e4, e5, e6, e7, e8, e9⟩ := g3 q
    obtain ⟨i1, i2, i3, i4, i5, i6⟩ := inv3_diag q.jm (hd rfl q hq)
    simp only [det_eq 3 (by simp), e1, e5, e9, dot3, Poly.push32, gsum3, i1, i2, i3, i4, i5, i6, cofDiag,
      if_true, if_false, one_ne_zero, OfNat.ofNat_ne_zero, OfNat.ofNat_ne_one]
    ring

end Phyem.Mass
