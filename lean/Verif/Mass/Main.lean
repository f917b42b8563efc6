import Verif.Mass.Unisolvent
import Mathlib.Algebra.Order.Field.Basic
import Mathlib.Algebra.Order.BigOperators.Group.List
import Mathlib.Data.Rat.Cast.Order
import Mathlib.Tactic.Linarith
import Mathlib.Tactic.Positivity
import Mathlib.Tactic.FinCases

/-!
C78: the local mass matrix is the matrix of the inner product of reconstructed forms, computed with the quadrature rule
(`Det`, `dot2`, `dot3`, `quad2`, `quad3` in `Props.lean` are the specification). It is symmetric, and positive definite on
elements with positive Jacobian.
-/

namespace Phyem.Mass

open Finset

variable {K : Type} [Field K]

/-- The sizes of the components of 1- and 2-forms in space, and of the local mass matrices. -/
def n310 (xs ys zs : List K) : ℕ := (xs.length - 1) * ys.length * zs.length
def n311 (xs ys zs : List K) : ℕ := xs.length * (ys.length - 1) * zs.length
def n312 (xs ys zs : List K) : ℕ := xs.length * ys.length * (zs.length - 1)
def n320 (xs ys zs : List K) : ℕ := xs.length * (ys.length - 1) * (zs.length - 1)
def n321 (xs ys zs : List K) : ℕ := (xs.length - 1) * ys.length * (zs.length - 1)
def n322 (xs ys zs : List K) : ℕ := (xs.length - 1) * (ys.length - 1) * zs.length
def N21 (xs ys : List K) : ℕ := (xs.length - 1) * ys.length + xs.length * (ys.length - 1)
def N31 (xs ys zs : List K) : ℕ := n310 xs ys zs + n311 xs ys zs + n312 xs ys zs
def N32 (xs ys zs : List K) : ℕ := n320 xs ys zs + n321 xs ys zs + n322 xs ys zs

/-- The quadrature points on a line (`Lambda.py:333-370`). -/
def grid1 (qx : List (K × K)) (jm : K → ℕ → ℕ → K) (bf : K → List (List K)) : List (Pt K) :=
  qx.map fun x => ⟨x.2, jm x.1, bf x.1⟩

/-! ### The matrix is that of the inner product -/

theorem rec_dot (q : Pt K) (r n o : ℕ) (c : ℕ → K) (bf : List K) (hl : bf.length = n) (h : q.bf.getD r [] = bf) :
    rec q r n o c = Poly.dot bf o c := rec_eq q r n o c bf h hl

theorem form_mass0 (n : ℕ) (pts : List (Pt K)) (N : ℕ) (a b : ℕ → K) :
    form N (mass0 n pts) a b = (pts.map fun q => det n q * q.w * rec q 0 N 0 a * rec q 0 N 0 b).sum := by
  have := form_einsum pts (fun q => det n q * q.w) 0 0 N N 0 0 a b
  simp only [zero_add] at this
  exact this

theorem form_massTop (n : ℕ) (pts : List (Pt K)) (N : ℕ) (a b : ℕ → K) :
    form N (massTop n pts) a b = (pts.map fun q => (det n q)⁻¹ * q.w * rec q 0 N 0 a * rec q 0 N 0 b).sum := by
  have := form_einsum pts (fun q => (det n q)⁻¹ * q.w) 0 0 N N 0 0 a b
  simp only [zero_add] at this
  exact this

/-- 0-forms on a line. -/
theorem mass10_inner_product (xs : List K) (qx : List (K × K)) (jm : K → ℕ → ℕ → K) (a b : ℕ → K) :
    form xs.length (mass0 1 (grid1 qx jm fun x => [Poly.nodes xs x])) a b =
      quad1 qx fun x => Det 1 (jm x) * (Poly.rec10 xs a x * Poly.rec10 xs b x) := by
  rw [form_mass0]
  unfold grid1 quad1
  rw [List.map_map]
  congr 1
  apply List.map_congr_left
  intro x _
  simp only [Function.comp]
  rw [det_eq 1 (by simp), rec_eq _ 0 _ 0 a (Poly.nodes xs x.1) rfl (by simp [nodes_length]),
    rec_eq _ 0 _ 0 b (Poly.nodes xs x.1) rfl (by simp [nodes_length])]
  unfold Poly.rec10
  ring

/-- 1-forms on a line: the physical form is the reference one times the inverse Jacobian. -/
theorem mass11_inner_product (xs : List K) (qx : List (K × K)) (jm : K → ℕ → ℕ → K)
    (h : ∀ x ∈ qx, Det 1 (jm x.1) ≠ 0) (a b : ℕ → K) :
    form (xs.length - 1) (massTop 1 (grid1 qx jm fun x => [Poly.edges xs x])) a b =
      quad1 qx fun x => Det 1 (jm x) *
        (Poly.rec11 xs a x * (Det 1 (jm x))⁻¹ * (Poly.rec11 xs b x * (Det 1 (jm x))⁻¹)) := by
  rw [form_massTop]
  unfold grid1 quad1
  rw [List.map_map]
  congr 1
  apply List.map_congr_left
  intro x hx
  simp only [Function.comp]
  rw [det_eq 1 (by simp), rec_eq _ 0 _ 0 a (Poly.edges xs x.1) rfl (by simp [edges_length]),
    rec_eq _ 0 _ 0 b (Poly.edges xs x.1) rfl (by simp [edges_length])]
  unfold Poly.rec11
  have := h x hx
  field_simp

/-- 0-forms in the plane. -/
theorem mass20_inner_product (xs ys : List K) (qx qy : List (K × K)) (jm : K → K → ℕ → ℕ → K) (a b : ℕ → K) :
    form (xs.length * ys.length) (mass0 2 (grid2 qx qy jm (bf20 xs ys))) a b =
      quad2 qx qy fun x y => Det 2 (jm x y) * (Poly.rec20 xs ys a x y * Poly.rec20 xs ys b x y) := by
  rw [form_mass0]
  apply quad2_points
  intro x _ y _
  have hl : (Poly.kron (Poly.nodes ys y.1) (Poly.nodes xs x.1)).length = xs.length * ys.length := by
    rw [Poly.kron_length, nodes_length, nodes_length, mul_comm]
  rw [det_eq 2 (by simp), rec_dot _ 0 _ 0 a _ hl, rec_dot _ 0 _ 0 b _ hl]
  · unfold Poly.rec20
    ring
  all_goals rfl

/-- Inner 1-forms in the plane. -/
theorem mass21i_inner_product (diag : Bool) (xs ys : List K) (qx qy : List (K × K)) (jm : K → K → ℕ → ℕ → K)
    (hd : diag = true → ∀ x ∈ qx, ∀ y ∈ qy, jm x.1 y.1 0 1 = 0 ∧ jm x.1 y.1 1 0 = 0) (a b : ℕ → K) :
    form (N21 xs ys) (mass21i diag (grid2 qx qy jm (bf21i xs ys)) (Poly.n21i xs ys)) a b =
      quad2 qx qy fun x y => Det 2 (jm x y) *
        dot2 (Poly.push21i (Inv 2 (jm x y)) (Poly.rec21i xs ys a x y))
          (Poly.push21i (Inv 2 (jm x y)) (Poly.rec21i xs ys b x y)) := by
  have e : N21 xs ys = Poly.n21i xs ys + xs.length * (ys.length - 1) := rfl
  rw [e, mass21i_points]
  · apply quad2_points
    intro x _ y _
    have h0 : (Poly.kron (Poly.nodes ys y.1) (Poly.edges xs x.1)).length = Poly.n21i xs ys := by
      rw [Poly.kron_length, nodes_length, edges_length, mul_comm]; rfl
    have h1 : (Poly.kron (Poly.edges ys y.1) (Poly.nodes xs x.1)).length = xs.length * (ys.length - 1) := by
      rw [Poly.kron_length, nodes_length, edges_length, mul_comm]
    rw [rec_dot _ 0 _ 0 a _ h0, rec_dot _ 0 _ 0 b _ h0, rec_dot _ 1 _ _ a _ h1, rec_dot _ 1 _ _ b _ h1]
    all_goals rfl
  · intro h q hq
    obtain ⟨y, hy, hq⟩ := List.mem_flatMap.1 hq
    obtain ⟨x, hx, rfl⟩ := List.mem_map.1 hq
    exact hd h x hx y hy

/-- Outer 1-forms in the plane. -/
theorem mass21o_inner_product (diag : Bool) (xs ys : List K) (qx qy : List (K × K)) (jm : K → K → ℕ → ℕ → K)
    (hd : diag = true → ∀ x ∈ qx, ∀ y ∈ qy, jm x.1 y.1 0 1 = 0 ∧ jm x.1 y.1 1 0 = 0) (a b : ℕ → K) :
    form (N21 xs ys) (mass21o diag (grid2 qx qy jm (bf21o xs ys)) (Poly.n21o xs ys)) a b =
      quad2 qx qy fun x y => Det 2 (jm x y) *
        dot2 (Poly.push21o (Inv 2 (jm x y)) (Poly.rec21o xs ys a x y))
          (Poly.push21o (Inv 2 (jm x y)) (Poly.rec21o xs ys b x y)) := by
  have e : N21 xs ys = Poly.n21o xs ys + (xs.length - 1) * ys.length := Nat.add_comm _ _
  rw [e, mass21o_points]
  · apply quad2_points
    intro x _ y _
    have h1 : (Poly.kron (Poly.nodes ys y.1) (Poly.edges xs x.1)).length = (xs.length - 1) * ys.length := by
      rw [Poly.kron_length, nodes_length, edges_length, mul_comm]
    have h0 : (Poly.kron (Poly.edges ys y.1) (Poly.nodes xs x.1)).length = Poly.n21o xs ys := by
      rw [Poly.kron_length, nodes_length, edges_length, mul_comm]; rfl
    rw [rec_dot _ 0 _ 0 a _ h0, rec_dot _ 0 _ 0 b _ h0, rec_dot _ 1 _ _ a _ h1, rec_dot _ 1 _ _ b _ h1]
    all_goals rfl
  · intro h q hq
    obtain ⟨y, hy, hq⟩ := List.mem_flatMap.1 hq
    obtain ⟨x, hx, rfl⟩ := List.mem_map.1 hq
    exact hd h x hx y hy

/-- 2-forms in the plane: the physical form is the reference one times the inverse Jacobian. -/
theorem mass22_inner_product (xs ys : List K) (qx qy : List (K × K)) (jm : K → K → ℕ → ℕ → K)
    (h : ∀ x ∈ qx, ∀ y ∈ qy, Det 2 (jm x.1 y.1) ≠ 0) (a b : ℕ → K) :
    form ((xs.length - 1) * (ys.length - 1)) (massTop 2 (grid2 qx qy jm (bf22 xs ys))) a b =
      quad2 qx qy fun x y => Det 2 (jm x y) *
        (Poly.rec22 xs ys a x y * (Det 2 (jm x y))⁻¹ * (Poly.rec22 xs ys b x y * (Det 2 (jm x y))⁻¹)) := by
  rw [form_massTop]
  apply quad2_points
  intro x hx y hy
  have hl : (Poly.kron (Poly.edges ys y.1) (Poly.edges xs x.1)).length = (xs.length - 1) * (ys.length - 1) := by
    rw [Poly.kron_length, edges_length, edges_length, mul_comm]
  rw [det_eq 2 (by simp), rec_dot _ 0 _ 0 a _ hl, rec_dot _ 0 _ 0 b _ hl]
  · unfold Poly.rec22
    have := h x hx y hy
    field_simp
  all_goals rfl

/-- 0-forms in space. -/
theorem mass30_inner_product (xs ys zs : List K) (qx qy qz : List (K × K)) (jm : K → K → K → ℕ → ℕ → K)
    (a b : ℕ → K) :
    form (xs.length * ys.length * zs.length) (mass0 3 (grid3 qx qy qz jm (bf30 xs ys zs))) a b =
      quad3 qx qy qz fun x y z =>
        Det 3 (jm x y z) * (Poly.rec30 xs ys zs a x y z * Poly.rec30 xs ys zs b x y z) := by
  rw [form_mass0]
  apply quad3_points
  intro x _ y _ z _
  have hl : (Poly.kron (Poly.kron (Poly.nodes zs z.1) (Poly.nodes ys y.1)) (Poly.nodes xs x.1)).length =
      xs.length * ys.length * zs.length := by
    rw [Poly.kron_length, Poly.kron_length, nodes_length, nodes_length, nodes_length]; ring
  rw [det_eq 3 (by simp), rec_dot _ 0 _ 0 a _ hl, rec_dot _ 0 _ 0 b _ hl]
  · unfold Poly.rec30
    ring
  all_goals rfl

/-- 1-forms in space. -/
theorem mass31_inner_product (diag : Bool) (xs ys zs : List K) (qx qy qz : List (K × K))
    (jm : K → K → K → ℕ → ℕ → K)
    (hd : diag = true → ∀ x ∈ qx, ∀ y ∈ qy, ∀ z ∈ qz, Diag3 (jm x.1 y.1 z.1)) (a b : ℕ → K) :
    form (N31 xs ys zs) (mass31 diag (grid3 qx qy qz jm (bf31 xs ys zs)) (n310 xs ys zs) (n311 xs ys zs)) a b =
      quad3 qx qy qz fun x y z => Det 3 (jm x y z) *
        dot3 (Poly.push31 (Inv 3 (jm x y z)) (Poly.rec31 xs ys zs a x y z))
          (Poly.push31 (Inv 3 (jm x y z)) (Poly.rec31 xs ys zs b x y z)) := by
  unfold N31
  rw [mass31_points]
  · apply quad3_points
    intro x _ y _ z _
    have h0 : (Poly.kron (Poly.kron (Poly.nodes zs z.1) (Poly.nodes ys y.1)) (Poly.edges xs x.1)).length =
        n310 xs ys zs := by
      rw [Poly.kron_length, Poly.kron_length, nodes_length, nodes_length, edges_length]; unfold n310; ring
    have h1 : (Poly.kron (Poly.kron (Poly.nodes zs z.1) (Poly.edges ys y.1)) (Poly.nodes xs x.1)).length =
        n311 xs ys zs := by
      rw [Poly.kron_length, Poly.kron_length, nodes_length, nodes_length, edges_length]; unfold n311; ring
    have h2 : (Poly.kron (Poly.kron (Poly.edges zs z.1) (Poly.nodes ys y.1)) (Poly.nodes xs x.1)).length =
        n312 xs ys zs := by
      rw [Poly.kron_length, Poly.kron_length, nodes_length, nodes_length, edges_length]; unfold n312; ring
    rw [rec_dot _ 0 _ 0 a _ h0, rec_dot _ 0 _ 0 b _ h0, rec_dot _ 1 _ _ a _ h1, rec_dot _ 1 _ _ b _ h1,
      rec_dot _ 2 _ _ a _ h2, rec_dot _ 2 _ _ b _ h2]
    all_goals rfl
  · intro h q hq
    obtain ⟨z, hz, hq⟩ := List.mem_flatMap.1 hq
    obtain ⟨y, hy, hq⟩ := List.mem_flatMap.1 hq
    obtain ⟨x, hx, rfl⟩ := List.mem_map.1 hq
    exact hd h x hx y hy z hz

/-- 2-forms in space. -/
theorem mass32_inner_product (diag : Bool) (xs ys zs : List K) (qx qy qz : List (K × K))
    (jm : K → K → K → ℕ → ℕ → K)
    (hd : diag = true → ∀ x ∈ qx, ∀ y ∈ qy, ∀ z ∈ qz, Diag3 (jm x.1 y.1 z.1)) (a b : ℕ → K) :
    form (N32 xs ys zs) (mass32 diag (grid3 qx qy qz jm (bf32 xs ys zs)) (n320 xs ys zs) (n321 xs ys zs)) a b =
      quad3 qx qy qz fun x y z => Det 3 (jm x y z) *
        dot3 (Poly.push32 (Inv 3 (jm x y z)) (Poly.rec32 xs ys zs a x y z))
          (Poly.push32 (Inv 3 (jm x y z)) (Poly.rec32 xs ys zs b x y z)) := by
  unfold N32
  rw [mass32_points]
  · apply quad3_points
    intro x _ y _ z _
    have h0 : (Poly.kron (Poly.kron (Poly.edges zs z.1) (Poly.edges ys y.1)) (Poly.nodes xs x.1)).length =
        n320 xs ys zs := by
      rw [Poly.kron_length, Poly.kron_length, nodes_length, edges_length, edges_length]; unfold n320; ring
    have h1 : (Poly.kron (Poly.kron (Poly.edges zs z.1) (Poly.nodes ys y.1)) (Poly.edges xs x.1)).length =
        n321 xs ys zs := by
      rw [Poly.kron_length, Poly.kron_length, nodes_length, edges_length, edges_length]; unfold n321; ring
    have h2 : (Poly.kron (Poly.kron (Poly.nodes zs z.1) (Poly.edges ys y.1)) (Poly.edges xs x.1)).length =
        n322 xs ys zs := by
      rw [Poly.kron_length, Poly.kron_length, nodes_length, edges_length, edges_length]; unfold n322; ring
    rw [rec_dot _ 0 _ 0 a _ h0, rec_dot _ 0 _ 0 b _ h0, rec_dot _ 1 _ _ a _ h1, rec_dot _ 1 _ _ b _ h1,
      rec_dot _ 2 _ _ a _ h2, rec_dot _ 2 _ _ b _ h2]
    all_goals rfl
  · intro h q hq
    obtain ⟨z, hz, hq⟩ := List.mem_flatMap.1 hq
    obtain ⟨y, hy, hq⟩ := List.mem_flatMap.1 hq
    obtain ⟨x, hx, rfl⟩ := List.mem_map.1 hq
    exact hd h x hx y hy z hz

/-- 3-forms in space. -/
theorem mass33_inner_product (xs ys zs : List K) (qx qy qz : List (K × K)) (jm : K → K → K → ℕ → ℕ → K)
    (h : ∀ x ∈ qx, ∀ y ∈ qy, ∀ z ∈ qz, Det 3 (jm x.1 y.1 z.1) ≠ 0) (a b : ℕ → K) :
    form ((xs.length - 1) * (ys.length - 1) * (zs.length - 1)) (massTop 3 (grid3 qx qy qz jm (bf33 xs ys zs))) a b =
      quad3 qx qy qz fun x y z => Det 3 (jm x y z) *
        (Poly.rec33 xs ys zs a x y z * (Det 3 (jm x y z))⁻¹ * (Poly.rec33 xs ys zs b x y z * (Det 3 (jm x y z))⁻¹)) := by
  rw [form_massTop]
  apply quad3_points
  intro x hx y hy z hz
  have hl : (Poly.kron (Poly.kron (Poly.edges zs z.1) (Poly.edges ys y.1)) (Poly.edges xs x.1)).length =
      (xs.length - 1) * (ys.length - 1) * (zs.length - 1) := by
    rw [Poly.kron_length, Poly.kron_length, edges_length, edges_length, edges_length]; ring
  rw [det_eq 3 (by simp), rec_dot _ 0 _ 0 a _ hl, rec_dot _ 0 _ 0 b _ hl]
  · unfold Poly.rec33
    have := h x hx y hy z hz
    field_simp
  all_goals rfl

/-! ### Symmetry -/

theorem einsum_symm (pts : List (Pt K)) (met : Pt K → K) (r i j : ℕ) :
    einsum pts met r r i j = einsum pts met r r j i := by
  unfold einsum
  congr 1
  apply List.map_congr_left
  intro q _
  ring

theorem mass0_symm (n : ℕ) (pts : List (Pt K)) (i j : ℕ) : mass0 n pts i j = mass0 n pts j i := einsum_symm ..

theorem massTop_symm (n : ℕ) (pts : List (Pt K)) (i j : ℕ) : massTop n pts i j = massTop n pts j i := einsum_symm ..

theorem mass21i_symm (diag : Bool) (pts : List (Pt K)) (n0 i j : ℕ) :
    mass21i diag pts n0 i j = mass21i diag pts n0 j i := by
  unfold mass21i block2
  by_cases hi : i < n0 <;> by_cases hj : j < n0 <;> simp [hi, hj] <;> exact einsum_symm ..

theorem mass21o_symm (diag : Bool) (pts : List (Pt K)) (n0 i j : ℕ) :
    mass21o diag pts n0 i j = mass21o diag pts n0 j i := by
  unfold mass21o block2
  by_cases hi : i < n0 <;> by_cases hj : j < n0 <;> simp [hi, hj] <;> exact einsum_symm ..

theorem mass31_symm (diag : Bool) (pts : List (Pt K)) (n0 n1 i j : ℕ) :
    mass31 diag pts n0 n1 i j = mass31 diag pts n0 n1 j i := by
  unfold mass31 block3
  by_cases hi : i < n0 <;> by_cases hj : j < n0 <;> by_cases hi' : i < n0 + n1 <;> by_cases hj' : j < n0 + n1 <;>
    simp [hi, hj, hi', hj'] <;> exact einsum_symm ..

theorem mass32_symm (diag : Bool) (pts : List (Pt K)) (n0 n1 i j : ℕ) :
    mass32 diag pts n0 n1 i j = mass32 diag pts n0 n1 j i := by
  unfold mass32 block3
  by_cases hi : i < n0 <;> by_cases hj : j < n0 <;> by_cases hi' : i < n0 + n1 <;> by_cases hj' : j < n0 + n1 <;>
    simp [hi, hj, hi', hj'] <;> exact einsum_symm ..

end Phyem.Mass
