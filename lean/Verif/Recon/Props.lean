import Verif.Recon.Lemmas
import Mathlib.Tactic.FieldSimp
import Mathlib.Tactic.NormNum

/-!
C93: reconstruction and reconstruction matrices of `msehtt` give the same values, those of the form: the values of the reference
element (`Poly.rec…`, on triangles `Triangle.rec…`), transformed with the inverse Jacobian matrix (`Poly.push…`).

`iJ` is the inverse Jacobian matrix of the element at the point, `c` the local cochain, `xs`, `ys`, `zs` the nodes.
-/

namespace Phyem.Recon

open Poly Triangle Mass

variable {K : Type} [Field K]

theorem recon20 {xs ys : List K} {p q : ℕ} (px : xs.length = p + 1) (py : ys.length = q + 1) (c : List K)
    (hc : c.length = (p + 1) * (q + 1)) (x y : K) :
    rc0 (bf20 xs ys x y) c = some [rec20 xs ys (fn c) x y] ∧
      values (rm0 (bf20 xs ys x y)) c = some [rec20 xs ys (fn c) x y] := by
  have := contract_some (bf := kron (nodes ys y) (nodes xs x)) (c := c) (by rw [len20 xs ys px py, hc])
  constructor
  · simp only [rc0, bf20, List.getD_cons_zero, this]; rfl
  · simp only [values, rm0, bf20, List.getD_cons_zero, List.mapM_cons, List.mapM_nil, this]; rfl

theorem recon30 {xs ys zs : List K} {p q r : ℕ} (px : xs.length = p + 1) (py : ys.length = q + 1) (pz : zs.length = r + 1)
    (c : List K) (hc : c.length = (p + 1) * (q + 1) * (r + 1)) (x y z : K) :
    rc0 (bf30 xs ys zs x y z) c = some [rec30 xs ys zs (fn c) x y z] ∧
      values (rm0 (bf30 xs ys zs x y z)) c = some [rec30 xs ys zs (fn c) x y z] := by
  have := contract_some (bf := kron (kron (nodes zs z) (nodes ys y)) (nodes xs x)) (c := c)
    (by simp only [kron_length, nodes_length, px, py, pz, hc]; ring)
  constructor
  · simp only [rc0, bf30, List.getD_cons_zero, this]; rfl
  · simp only [values, rm0, bf30, List.getD_cons_zero, List.mapM_cons, List.mapM_nil, this]; rfl

theorem top_parts {b c : List K} (h : b.length = c.length) (const : Bool) (iJ : K) :
    rcTop const iJ [b] c = some [dot b 0 (fn c) * iJ] ∧ values (rmTop iJ [b]) c = some [dot b 0 (fn c) * iJ] := by
  constructor
  · cases const
    · simp only [rcTop, List.getD_cons_zero, if_pos h, Bool.false_eq_true, if_false]
      have e := zip_sum (scale b iJ) c 0 (fn c) (by rw [scale_length, h]) (fun i _ => by rw [Nat.zero_add, fn])
      rw [dot_scale] at e
      rw [← e, scale, List.zipWith_map_left]
      congr 4
      funext a x
      ring
    · have e := contract_some (bf := b) (c := c.map (iJ * ·)) (by rw [List.length_map, h])
      have f : fn (c.map (iJ * ·)) = fun i => iJ * fn c i := by
        funext i
        unfold fn
        have := List.getD_map (l := c) (d := (0 : K)) (n := i) (iJ * ·)
        rwa [mul_zero] at this
      rw [f, dot_smul] at e
      simp only [rcTop, List.getD_cons_zero, if_true, e]; rfl
  · have := contract_some (bf := scale b iJ) (c := c) (by rw [scale_length, h])
    rw [dot_scale] at this
    simp only [values, rmTop, List.getD_cons_zero, List.mapM_cons, List.mapM_nil, this]; rfl

/-- `iJ`: one over the Jacobian determinant. -/
theorem recon22 {xs ys : List K} {p q : ℕ} (px : xs.length = p + 1) (py : ys.length = q + 1) (c : List K)
    (hc : c.length = p * q) (const : Bool) (iJ x y : K) :
    rcTop const iJ (bf22 xs ys x y) c = some [rec22 xs ys (fn c) x y * iJ] ∧
      values (rmTop iJ (bf22 xs ys x y)) c = some [rec22 xs ys (fn c) x y * iJ] :=
  top_parts (by rw [len22 xs ys px py, hc]) const iJ

theorem recon33 {xs ys zs : List K} {p q r : ℕ} (px : xs.length = p + 1) (py : ys.length = q + 1) (pz : zs.length = r + 1)
    (c : List K) (hc : c.length = p * q * r) (const : Bool) (iJ x y z : K) :
    rcTop const iJ (bf33 xs ys zs x y z) c = some [rec33 xs ys zs (fn c) x y z * iJ] ∧
      values (rmTop iJ (bf33 xs ys zs x y z)) c = some [rec33 xs ys zs (fn c) x y z * iJ] :=
  top_parts (by simp only [kron_length, edges_length, px, py, pz, hc, Nat.add_sub_cancel]; ring) const iJ

/-- The flags `z10`, `z01`: the entry is the number zero. -/
theorem two_inner {b0 b1 c : List K} {n0 n1 : ℕ} (h0 : b0.length = n0) (h1 : b1.length = n1) (hc : c.length = n0 + n1)
    (iJ : ℕ → ℕ → K) (z10 z01 : Bool) (hz10 : z10 = true → iJ 1 0 = 0) (hz01 : z01 = true → iJ 0 1 = 0) :
    let v := push21i iJ (dot b0 0 (fn c), dot b1 n0 (fn c))
    rc21i z10 z01 iJ n0 [b0, b1] c = some [v.1, v.2] ∧ values (rm21i iJ [b0, b1]) c = some [v.1, v.2] := by
  obtain ⟨e0, e1, e2⟩ := two_parts h0 h1 hc
  constructor
  · simp only [rc21i, List.getD_cons_zero, List.getD_cons_succ]
    rw [e0, e1]
    simp only [Option.bind_eq_bind, Option.bind_some, push21i]
    change some _ = _
    generalize dot b0 0 (fn c) = U
    generalize dot b1 n0 (fn c) = V
    clear e0 e1 e2 
    cases z10 <;> cases z01 <;> simp_all
  · simp only [values, rm21i, List.getD_cons_zero, List.getD_cons_succ, List.mapM_cons, List.mapM_nil]
    rw [e2, e2]
    rfl

theorem two_outer {b0 b1 c : List K} {n0 n1 : ℕ} (h0 : b0.length = n0) (h1 : b1.length = n1) (hc : c.length = n0 + n1)
    (iJ : ℕ → ℕ → K) (z10 z01 : Bool) (hz10 : z10 = true → iJ 1 0 = 0) (hz01 : z01 = true → iJ 0 1 = 0) :
    let v := push21o iJ (dot b0 0 (fn c), dot b1 n0 (fn c))
    rc21o z10 z01 iJ n0 [b0, b1] c = some [v.1, v.2] ∧ values (rm21o iJ [b0, b1]) c = some [v.1, v.2] := by
  obtain ⟨e0, e1, -⟩ := two_parts h0 h1 hc
  obtain ⟨-, -, e2⟩ := two_parts (b1 := b1.map (-·)) h0 (by rw [List.length_map, h1]) hc
  obtain ⟨-, -, e3⟩ := two_parts (b0 := b0.map (-·)) (by rw [List.length_map, h0]) h1 hc
  constructor
  · simp only [rc21o, List.getD_cons_zero, List.getD_cons_succ]
    rw [e0, e1]
    simp only [Option.bind_eq_bind, Option.bind_some, push21o]
    change some _ = _
    generalize dot b0 0 (fn c) = U
    generalize dot b1 n0 (fn c) = V
    clear e0 e1 e2 e3
    cases z10 <;> cases z01 <;> simp_all
  · simp only [values, rm21o, List.getD_cons_zero, List.getD_cons_succ, List.mapM_cons, List.mapM_nil]
    rw [e2, e3, dot_neg, dot_neg]
    simp only [Option.bind_eq_bind, Option.bind_some, push21o, Option.pure_def]
    congr 2
    · ring

theorem recon21i {xs ys : List K} {p q : ℕ} (px : xs.length = p + 1) (py : ys.length = q + 1) (c : List K)
    (hc : c.length = p * (q + 1) + (p + 1) * q) (iJ : ℕ → ℕ → K) (z10 z01 : Bool) (hz10 : z10 = true → iJ 1 0 = 0)
    (hz01 : z01 = true → iJ 0 1 = 0) (x y : K) :
    let v := push21i iJ (rec21i xs ys (fn c) x y)
    rc21i z10 z01 iJ (p * (q + 1)) (bf21i xs ys x y) c = some [v.1, v.2] ∧
      values (rm21i iJ (bf21i xs ys x y)) c = some [v.1, v.2] := by
  have := two_inner (len21x xs ys px py x y) (len21y xs ys px py x y) hc iJ z10 z01 hz10 hz01
  rwa [rec21i, n21i, px, py, Nat.add_sub_cancel]

theorem recon21o {xs ys : List K} {p q : ℕ} (px : xs.length = p + 1) (py : ys.length = q + 1) (c : List K)
    (hc : c.length = (p + 1) * q + p * (q + 1)) (iJ : ℕ → ℕ → K) (z10 z01 : Bool) (hz10 : z10 = true → iJ 1 0 = 0)
    (hz01 : z01 = true → iJ 0 1 = 0) (x y : K) :
    let v := push21o iJ (rec21o xs ys (fn c) x y)
    rc21o z10 z01 iJ ((p + 1) * q) (bf21o xs ys x y) c = some [v.1, v.2] ∧
      values (rm21o iJ (bf21o xs ys x y)) c = some [v.1, v.2] := by
  have := two_outer (len21y xs ys px py x y) (len21x xs ys px py x y) hc iJ z10 z01 hz10 hz01
  rwa [rec21o, n21o, px, py, Nat.add_sub_cancel]

/-- On triangles there is a reconstruction, and no reconstruction matrix. -/
theorem reconT1i {xs ys : List K} {p q : ℕ} (px : xs.length = p + 1) (py : ys.length = q + 1) (c : List K)
    (hc : c.length = p * (q + 1) + p * q) (iJ : ℕ → ℕ → K) (z10 z01 : Bool) (hz10 : z10 = true → iJ 1 0 = 0)
    (hz01 : z01 = true → iJ 0 1 = 0) (x y : K) :
    let v := push21i iJ (recT1i xs ys (fn c) x y)
    rc21i z10 z01 iJ (p * (q + 1)) (bfT1i xs ys x y) c = some [v.1, v.2] := by
  have l1 : (kron (edges ys y) (nodes xs x).tail).length = p * q := by
    rw [kron_length, edges_length, nodes_tail_length, px, py, Nat.add_sub_cancel, Nat.add_sub_cancel]; ring
  have := (two_inner (len21x xs ys px py x y) l1 hc iJ z10 z01 hz10 hz01).1
  rwa [recT1i, px, py, Nat.add_sub_cancel]

theorem reconT1o {xs ys : List K} {p q : ℕ} (px : xs.length = p + 1) (py : ys.length = q + 1) (c : List K)
    (hc : c.length = p * q + p * (q + 1)) (iJ : ℕ → ℕ → K) (z10 z01 : Bool) (hz10 : z10 = true → iJ 1 0 = 0)
    (hz01 : z01 = true → iJ 0 1 = 0) (x y : K) :
    let v := push21o iJ (recT1o xs ys (fn c) x y)
    rc21o z10 z01 iJ (p * q) (bfT1o xs ys x y) c = some [v.1, v.2] := by
  have l1 : (kron (edges ys y) (nodes xs x).tail).length = p * q := by
    rw [kron_length, edges_length, nodes_tail_length, px, py, Nat.add_sub_cancel, Nat.add_sub_cancel]; ring
  have := (two_outer l1 (len21x xs ys px py x y) hc iJ z10 z01 hz10 hz01).1
  rwa [recT1o, px, py, Nat.add_sub_cancel, Nat.add_sub_cancel]

/-- `orth`: the element is an orthogonal hexahedron. -/
theorem recon31 {xs ys zs : List K} {p q r : ℕ} (px : xs.length = p + 1) (py : ys.length = q + 1) (pz : zs.length = r + 1)
    (hr : 0 < r) (c : List K)
    (hc : c.length = p * (q + 1) * (r + 1) + (p + 1) * q * (r + 1) + (p + 1) * (q + 1) * r) (iJ : ℕ → ℕ → K)
    (orth : Bool) (hd : orth = true → ∀ a < 3, ∀ b < 3, a ≠ b → iJ a b = 0) (x y z : K) :
    let v := push31 iJ (rec31 xs ys zs (fn c) x y z)
    rc31 orth iJ (p * (q + 1) * (r + 1)) ((p + 1) * q * (r + 1)) ((p + 1) * (q + 1) * r) (bf31 xs ys zs x y z) c =
        some [v.1, v.2.1, v.2.2] ∧
      values (rm31 iJ (bf31 xs ys zs x y z)) c = some [v.1, v.2.1, v.2.2] := by
  have l0 : (kron (kron (nodes zs z) (nodes ys y)) (edges xs x)).length = p * (q + 1) * (r + 1) := by
    simp only [kron_length, nodes_length, edges_length, px, py, pz, Nat.add_sub_cancel]; ring
  have l1 : (kron (kron (nodes zs z) (edges ys y)) (nodes xs x)).length = (p + 1) * q * (r + 1) := by
    simp only [kron_length, nodes_length, edges_length, px, py, pz, Nat.add_sub_cancel]; ring
  have l2 : (kron (kron (edges zs z) (nodes ys y)) (nodes xs x)).length = (p + 1) * (q + 1) * r := by
    simp only [kron_length, nodes_length, edges_length, px, py, pz, Nat.add_sub_cancel]; ring
  obtain ⟨e0, e1⟩ := three_parts l0 l1 l2 (by positivity) hc
  simp only [rec31, px, py, pz, Nat.add_sub_cancel]
  constructor
  · simp only [rc31, bf31, e0, Option.bind_eq_bind, Option.bind_some, push31]
    cases orth
    · rfl
    · have h := hd rfl
      simp [h 1 (by omega) 0 (by omega), h 2 (by omega) 0 (by omega), h 0 (by omega) 1 (by omega),
        h 2 (by omega) 1 (by omega), h 0 (by omega) 2 (by omega), h 1 (by omega) 2 (by omega)]
  · simp only [values, rm31, bf31, List.getD_cons_zero, List.getD_cons_succ, List.mapM_cons, List.mapM_nil, e1]
    rfl

theorem recon32 {xs ys zs : List K} {p q r : ℕ} (px : xs.length = p + 1) (py : ys.length = q + 1) (pz : zs.length = r + 1)
    (hp : 0 < p) (hq : 0 < q) (c : List K)
    (hc : c.length = (p + 1) * q * r + p * (q + 1) * r + p * q * (r + 1)) (iJ : ℕ → ℕ → K)
    (orth : Bool) (hd : orth = true → ∀ a < 3, ∀ b < 3, a ≠ b → iJ a b = 0) (x y z : K) :
    let v := push32 iJ (rec32 xs ys zs (fn c) x y z)
    rc32 orth iJ ((p + 1) * q * r) (p * (q + 1) * r) (p * q * (r + 1)) (bf32 xs ys zs x y z) c =
        some [v.1, v.2.1, v.2.2] ∧
      values (rm32 iJ (bf32 xs ys zs x y z)) c = some [v.1, v.2.1, v.2.2] := by
  have l0 : (kron (kron (edges zs z) (edges ys y)) (nodes xs x)).length = (p + 1) * q * r := by
    simp only [kron_length, nodes_length, edges_length, px, py, pz, Nat.add_sub_cancel]; ring
  have l1 : (kron (kron (edges zs z) (nodes ys y)) (edges xs x)).length = p * (q + 1) * r := by
    simp only [kron_length, nodes_length, edges_length, px, py, pz, Nat.add_sub_cancel]; ring
  have l2 : (kron (kron (nodes zs z) (edges ys y)) (edges xs x)).length = p * q * (r + 1) := by
    simp only [kron_length, nodes_length, edges_length, px, py, pz, Nat.add_sub_cancel]; ring
  obtain ⟨e0, e1⟩ := three_parts l0 l1 l2 (by positivity) hc
  simp only [rec32, px, py, pz, Nat.add_sub_cancel]
  constructor
  · simp only [rc32, bf32, e0, Option.bind_eq_bind, Option.bind_some, push32]
    cases orth
    · rfl
    · have h := hd rfl
      simp [h 1 (by omega) 0 (by omega), h 2 (by omega) 0 (by omega), h 0 (by omega) 1 (by omega),
        h 2 (by omega) 1 (by omega), h 0 (by omega) 2 (by omega), h 1 (by omega) 2 (by omega), mul_assoc]
  · simp only [values, rm32, bf32, List.getD_cons_zero, List.getD_cons_succ, List.mapM_cons, List.mapM_nil, e1]
    rfl

/-! ### Cochains of a wrong length are refused -/

theorem recon21i_refuses {xs ys : List K} {p q : ℕ} (px : xs.length = p + 1) (py : ys.length = q + 1) (c : List K)
    (hc : c.length ≠ p * (q + 1) + (p + 1) * q) (iJ : ℕ → ℕ → K) (z10 z01 : Bool) (x y : K) :
    rc21i z10 z01 iJ (p * (q + 1)) (bf21i xs ys x y) c = none ∧ values (rm21i iJ (bf21i xs ys x y)) c = none := by
  have l0 := len21x xs ys px py x y
  have l1 := len21y xs ys px py x y
  constructor
  · simp only [rc21i, bf21i, List.getD_cons_zero, List.getD_cons_succ]
    by_cases h : p * (q + 1) ≤ c.length
    · rw [contract_none (bf := kron (edges ys y) (nodes xs x)) (by rw [l1, List.length_drop]; omega)]
      cases contract (kron (nodes ys y) (edges xs x)) (c.take (p * (q + 1))) <;> rfl
    · rw [contract_none (bf := kron (nodes ys y) (edges xs x)) (by rw [l0, List.length_take]; omega)]; rfl
  · simp only [values, rm21i, bf21i, List.getD_cons_zero, List.getD_cons_succ, List.mapM_cons]
    rw [contract_none (by rw [List.length_append, scale_length, scale_length, l0, l1]; omega)]; rfl

theorem recon21o_refuses {xs ys : List K} {p q : ℕ} (px : xs.length = p + 1) (py : ys.length = q + 1) (c : List K)
    (hc : c.length ≠ (p + 1) * q + p * (q + 1)) (iJ : ℕ → ℕ → K) (z10 z01 : Bool) (x y : K) :
    rc21o z10 z01 iJ ((p + 1) * q) (bf21o xs ys x y) c = none ∧ values (rm21o iJ (bf21o xs ys x y)) c = none := by
  have l0 := len21x xs ys px py x y
  have l1 := len21y xs ys px py x y
  constructor
  · simp only [rc21o, bf21o, List.getD_cons_zero, List.getD_cons_succ]
    by_cases h : (p + 1) * q ≤ c.length
    · rw [contract_none (bf := kron (nodes ys y) (edges xs x)) (by rw [l0, List.length_drop]; omega)]
      cases contract (kron (edges ys y) (nodes xs x)) (c.take ((p + 1) * q)) <;> rfl
    · rw [contract_none (bf := kron (edges ys y) (nodes xs x)) (by rw [l1, List.length_take]; omega)]; rfl
  · simp only [values, rm21o, bf21o, List.getD_cons_zero, List.getD_cons_succ, List.mapM_cons]
    rw [contract_none (by simp only [List.length_append, scale_length, List.length_map, l0, l1]; omega)]; rfl

/-- In space the reconstruction takes a cochain that is too long: the third component is read from its end. -/
theorem recon31_long_refuted :
    ∃ (xs : List ℚ) (c : List ℚ), xs.length = 2 ∧ c.length = 13 ∧
      (rc31 true (fun a b => if a = b then 1 else 0) 4 4 4 (bf31 xs xs xs 0 0 0) c).isSome = true ∧
      values (rm31 (fun a b => if a = b then 1 else 0) (bf31 xs xs xs 0 0 0)) c = none := by
  refine ⟨[-1, 1], List.replicate 13 1, rfl, rfl, by decide +kernel, by decide +kernel⟩

/-! ### What the transformations are

`iJ` is the inverse of the Jacobian matrix `J` (`J a b`: derivative of coordinate `a` in direction `b`). -/

/-- The inverse in the plane. -/
def Inv2 (iJ J : ℕ → ℕ → K) : Prop :=
  ∀ a < 2, ∀ b < 2, iJ a 0 * J 0 b + iJ a 1 * J 1 b = if a = b then 1 else 0

/-- Inner 1-forms: the value along the direction of a reference coordinate is the value of the reference element. -/
theorem inner_covariant {iJ J : ℕ → ℕ → K} (h : Inv2 iJ J) (u : K × K) :
    let v := push21i iJ u
    v.1 * J 0 0 + v.2 * J 1 0 = u.1 ∧ v.1 * J 0 1 + v.2 * J 1 1 = u.2 := by
  have h00 := h 0 (by omega) 0 (by omega)
  have h01 := h 0 (by omega) 1 (by omega)
  have h10 := h 1 (by omega) 0 (by omega)
  have h11 := h 1 (by omega) 1 (by omega)
  simp at h00 h01 h10 h11
  simp only [push21i]
  constructor
  · linear_combination u.1 * h00 + u.2 * h10
  · linear_combination u.1 * h01 + u.2 * h11

/-- Outer 1-forms: the flux across a reference direction is that of the reference element: `v × ∂Φ`. -/
theorem outer_flux {iJ J : ℕ → ℕ → K} (h : Inv2 iJ J) (u : K × K) :
    let v := push21o iJ u
    v.1 * J 1 1 - v.2 * J 0 1 = u.1 ∧ -(v.1 * J 1 0 - v.2 * J 0 0) = u.2 := by
  have h00 := h 0 (by omega) 0 (by omega)
  have h01 := h 0 (by omega) 1 (by omega)
  have h10 := h 1 (by omega) 0 (by omega)
  have h11 := h 1 (by omega) 1 (by omega)
  simp at h00 h01 h10 h11
  simp only [push21o]
  constructor
  · linear_combination u.1 * h11 - u.2 * h01
  · linear_combination - u.1 * h10 + u.2 * h00

/-! ### Concrete cases -/

/-- A sheared element with nodes at -1 and 1. -/
def exJ : ℕ → ℕ → ℚ := fun a b => ([[2, 1], [1, 1]].getD a []).getD b 0
def exI : ℕ → ℕ → ℚ := fun a b => ([[1, -1], [-1, 2]].getD a []).getD b 0

example : Inv2 exI exJ := by
  intro a ha b hb
  have ha : a = 0 ∨ a = 1 := by omega
  have hb : b = 0 ∨ b = 1 := by omega
  rcases ha with rfl | rfl <;> rcases hb with rfl | rfl <;> norm_num [exI, exJ]

example : ([-1, 1] : List ℚ).length = 1 + 1 ∧ ([1, 2, 3, 4] : List ℚ).length = 1 * (1 + 1) + (1 + 1) * 1 ∧
    values (rm21i exI (bf21i [-1, 1] [-1, 1] 0 0)) [1, 2, 3, 4] = some [-1, 11 / 4] := by
  decide +kernel

example : rc21o false false exI 2 (bf21o [-1, 1] [-1, 1] 0 0) [1, 2, 3, 4] = some [13 / 4, 5 / 2] := by decide +kernel

example : (rc31 true (fun a b => if a = b then 2 else 0) 4 4 4 (bf31 [-1, 1] [-1, 1] [-1, 1] (0 : ℚ) 0 0)
    [1, 2, 3, 4, 5, 6, 7, 8, 9, 10, 11, 12]) = some [5 / 2, 13 / 2, 21 / 2] := by decide +kernel

end Phyem.Recon
