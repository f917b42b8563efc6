import Verif.Boundary.Green
import Verif.Boundary.Flux
import Verif.Reduce.Examples
import Verif.Norms.Refute

/-!
C122 and C123: where the boundary integrals of 0-forms fail, and concrete cases.
-/

namespace Phyem.Boundary

open Finset Phyem.Poly Phyem.Geometry Phyem.Recon Phyem.Reduce Phyem.Numbering Phyem.LocalDofs Phyem.Incidence Phyem.Norms

/-- An element with two curved sides, or a square when `a` vanishes. -/
noncomputable def bent (a : ℝ) (p : ℕ) (xs : List ℝ) : El :=
  ⟨p, p, xs, xs, fun x y => (x + a * y ^ 2 / 4, y), fun _ y => [[1, a * y / 2], [0, 1]],
    fun _ y i j => if i = 0 then (if j = 0 then 1 else -(a * y / 2)) else if j = 0 then 0 else 1⟩

lemma bent_diff (a x y : ℝ) :
    HasFDerivAt (fun P : ℝ × ℝ => (P.1 + a * P.2 ^ 2 / 4, P.2)) (lin2 [[1, a * y / 2], [0, 1]]) (x, y) := by
  have h1 : HasFDerivAt (fun P : ℝ × ℝ => P.1) (ContinuousLinearMap.fst ℝ ℝ ℝ) (x, y) := hasFDerivAt_fst
  have h2 : HasFDerivAt (fun P : ℝ × ℝ => P.2) (ContinuousLinearMap.snd ℝ ℝ ℝ) (x, y) := hasFDerivAt_snd
  have h3 := (h1.add ((h2.pow 2).const_mul (a / 4))).prodMk h2
  refine (h3.congr_of_eventuallyEq (Filter.Eventually.of_forall fun P => ?_)).congr_fderiv ?_
  · simp only [Pi.add_apply, Prod.mk.injEq, and_true]
    ring
  · refine ContinuousLinearMap.ext fun u => ?_
    rw [lin2_apply]
    simp [Geometry.at2]
    ring

lemma bent_good (a : ℝ) {p : ℕ} {xs : List ℝ} (h : RefNodes p xs) : Good (bent a p xs) where
  hx := h
  hy := h
  elem := by
    constructor
    · intro x _ y _
      have : ContDiff ℝ 2 fun P : ℝ × ℝ => (P.1 + a * P.2 ^ 2 / 4, P.2) := by fun_prop
      exact this.contDiffAt
    · intro x _ y _
      have := (bent_diff a x y).fderiv
      simp only [bent]
      rw [this, lin2_apply, lin2_apply]
      simp [Geometry.at2]
  inv := by
    intro x _ y _ i hi j hj
    have : i = 0 ∨ i = 1 := by omega
    have : j = 0 ∨ j = 1 := by omega
    rcases ‹i = 0 ∨ i = 1› with rfl | rfl <;> rcases ‹j = 0 ∨ j = 1› with rfl | rfl <;> simp [bent, Geometry.at2]
  pos := by
    intro x _ y _
    have := (bent_diff a x y).fderiv
    simp only [bent, tan2]
    rw [this, lin2_apply, lin2_apply]
    simp [Geometry.at2, cross2]

lemma nodes2 : RefNodes 1 [-1, 1] := ⟨rfl, by norm_num, rfl, rfl⟩
lemma nodes3' : RefNodes 2 [-1, 0, 1] := ⟨rfl, by norm_num, rfl, rfl⟩

/-- The rule of Gauss with two points. -/
noncomputable def gauss : Rule := fun _ => (gp, gw)

lemma zip_zero (ts ws : List ℝ) : (List.zipWith (fun _ _ => (0 : ℝ)) ts ws).sum = 0 := by
  induction ts generalizing ws with
  | nil => simp
  | cons t ts ih =>
    cases ws with
    | nil => simp
    | cons w ws => simp only [List.zipWith_cons_cons, List.sum_cons, ih, add_zero]

/-- **C122, refuted at corners**: whatever rule that is exact for linear functions, there is a section of two faces of a square that meet
at a corner for which the vector returned for 0-forms is not that of the integral: the value of the first face at the corner is
overwritten by that of the second one. -/
theorem bi20_refuted (Q : Rule) (hQ : Inside Q) (hE : ∀ n, ExactTo 1 (Q n).1 (Q n).2) :
    ∃ (els : ℕ → El) (u : ℝ × ℝ → ℝ × ℝ) (sec : List (ℕ × ℕ)) (n : ℕ → ℕ → ℝ → ℝ × ℝ), sec.Nodup ∧
      (∀ ef ∈ sec, ef.2 < 4 ∧ Good (els ef.1)) ∧ (∀ ef ∈ sec, Normals (els ef.1).Φ (n ef.1)) ∧
      ∃ data, bi (fun k => face20i Q u (els k)) (fun k => (els k).num0) sec = some data ∧
        ¬ IsBI els Q n El.num0 (fun e c P m => Reduce.dot2 (u (e.Φ P.1 P.2)) m * e.v0 c P) sec data := by
  have hg : Good (bent 0 1 [-1, 1]) := bent_good 0 nodes2
  refine ⟨fun _ => bent 0 1 [-1, 1], fun _ => (1, 0), [(0, 1), (0, 3)], fun _ => (bent 0 1 [-1, 1]).n, by simp, ?_, ?_, ?_⟩
  · simp [hg]
  · simp [normals hg]
  set sq := bent 0 1 [-1, 1] with hsq
  obtain ⟨data, e1, hd⟩ := bi_eq (face := fun _ => face20i Q (fun _ => (1, 0)) sq) (num := fun _ => sq.num0)
    (l := fun _ f => (dofs20 sq.p sq.q f).getD [])
    (g := fun _ f d => (List.zipWith (fun t w => (1 * (sq.n f t).1 + 0 * (sq.n f t).2) * entry (sq.rm20 f t) 0 d * w * sq.len f t)
      (Q (max sq.p sq.q + 1)).1 (Q (max sq.p sq.q + 1)).2).sum) [(0, 1), (0, 3)] (fun ef hef => by
      obtain ⟨l, hl⟩ := Option.isSome_iff_exists.1 (zero_some (p := sq.p) (q := sq.q) (f := ef.2) (by
        simp only [List.mem_cons, List.not_mem_nil, or_false] at hef
        rcases hef with rfl | rfl <;> norm_num))
      simp only [face20i, hl, Option.map_some, Option.getD_some]
      rfl)
  refine ⟨data, e1, fun hB => ?_⟩
  have hf : facesOf [(0, 1), (0, 3)] 0 = [1, 3] := by simp [facesOf]
  obtain ⟨a, ha, la, va⟩ := (hd 0).2 (by rw [hf]; simp)
  obtain ⟨a', ha', la', va'⟩ := (hB 0).2 (by rw [hf]; simp)
  obtain rfl : a = a' := by rw [ha] at ha'; exact Option.some.inj ha'
  have z : ∀ t ∈ I, (sq.n 3 t).1 * sq.len 3 t = 0 := fun t ht => by
    have := normal_len hg (f := 3) (by norm_num) ht (1, 0)
    rw [show (sq.n 3 t).1 = Reduce.dot2 (1, 0) (sq.n 3 t) by simp [Reduce.dot2], this]
    simp [cross2, El.tang, El.M, bent, Geometry.at2, hsq]
  have o : ∀ t ∈ I, (sq.n 1 t).1 * sq.len 1 t = 1 := fun t ht => by
    have := normal_len hg (f := 1) (by norm_num) ht (1, 0)
    simpa [Reduce.dot2, cross2, El.tang, El.M, bent, Geometry.at2, hsq] using this
  have h1 := va 3 (by simp [hsq, bent, El.num0])
  have h2 := va' (unit 3)
  rw [hf] at h1 h2
  have m1 : (3 : ℕ) ∈ (dofs20 sq.p sq.q 3).getD [] := by
    simp [hsq, bent, dofs20, sliceOf, slice, ln20, atSide, Comp.num, List.range_succ]
  simp only [left, List.foldl_cons, List.foldl_nil, if_pos m1] at h1
  have e0 : a.getD 3 0 = 0 := by
    rw [h1, zip_congr (B := fun _ _ => 0) _ fun t ht w => by
      have := z t (hQ _ t ht)
      linear_combination (entry (sq.rm20 3 t) 0 3 * w) * this]
    exact zip_zero _ _
  have e2 : ∑ d ∈ range sq.num0, a.getD d 0 * unit 3 d = a.getD 3 0 := by
    rw [sum_eq_single 3]
    · simp [unit]
    · intro b _ hb; simp [unit, hb]
    · intro hn; exact absurd (mem_range.2 (by simp [hsq, bent, El.num0])) hn
  rw [e2, e0] at h2
  have v1 : ∀ t, sq.v0 (unit 3) (facePoint2 1 t) = (1 + t) / 2 := fun t => by
    have : facePoint2 1 t = (1, t) := by norm_num [facePoint2]
    rw [this, El.v0, hsq, bent, rec20, nodes_one, nodes_one]
    simp [kron, Poly.dot, List.range_succ, unit]
  have s1 : sideRule (Q (max sq.p sq.q + 1)).1 (Q (max sq.p sq.q + 1)).2 sq.Φ sq.n
      (fun P m => Reduce.dot2 (1, 0) m * sq.v0 (unit 3) P) 1 = 1 := by
    unfold sideRule
    rw [zip_congr (B := fun t w => w * ((1 : ℝ) / 2 * t ^ 0 + 1 / 2 * t ^ 1)) _ fun t ht w => by
      have := o t (hQ _ t ht)
      rw [len_eq hg (by norm_num) (hQ _ t ht)] at this
      dsimp only
      rw [v1]
      simp only [Reduce.dot2]
      linear_combination ((1 + t) / 2 * w) * this]
    have x0 := hE (max sq.p sq.q + 1) 0 (by norm_num)
    have x1 := hE (max sq.p sq.q + 1) 1 (by norm_num)
    rw [integral_pow] at x0 x1
    rw [Reduce.zip_add]
    simp_rw [mul_comm ((1 : ℝ) / 2)]
    rw [Reduce.zip_mul, Reduce.zip_mul, x0, x1]
    norm_num
  have s3 : sideRule (Q (max sq.p sq.q + 1)).1 (Q (max sq.p sq.q + 1)).2 sq.Φ sq.n
      (fun P m => Reduce.dot2 (1, 0) m * sq.v0 (unit 3) P) 3 = 0 := by
    unfold sideRule
    rw [zip_congr (B := fun _ _ => 0) _ fun t ht w => by
      have := z t (hQ _ t ht)
      rw [len_eq hg (by norm_num) (hQ _ t ht)] at this
      simp only [Reduce.dot2]
      linear_combination (sq.v0 (unit 3) (facePoint2 3 t) * w) * this]
    exact zip_zero _ _
  simp only [List.map_cons, List.map_nil, List.sum_cons, List.sum_nil] at h2
  rw [s1, s3] at h2
  norm_num at h2

/-! ### Concrete cases -/

lemma gauss_inside : Inside gauss := fun _ => gauss_in

example : ∃ data, ∃ d', ∀ n : ℕ → ℕ → ℝ → ℝ × ℝ, (∀ k, Normals (bent 1 2 [-1, 0, 1]).Φ (n k)) →
    IsBI (fun _ => bent 1 2 [-1, 0, 1]) gauss n El.num1 (fun e c P m => (e.Φ P.1 P.2).1 * Reduce.dot2 (e.v1o c P) m)
      [(0, 0), (0, 3), (2, 1)] data ∧
    IsBI (fun _ => bent 1 2 [-1, 0, 1]) gauss n El.num1 (fun e c P m => (e.Φ P.1 P.2).1 * cross2 (e.v1i c P) m)
      [(0, 0), (0, 3), (2, 1)] d' := by
  have hs : ∀ ef ∈ [(0, 0), (0, 3), (2, 1)], (ef : ℕ × ℕ).2 < 4 ∧ Good ((fun _ => bent 1 2 [-1, 0, 1]) ef.1) := by
    simp [bent_good 1 nodes3']
  have hN : ∀ ef ∈ [(0, 0), (0, 3), (2, 1)], Normals ((fun _ : ℕ => bent 1 2 [-1, 0, 1]) (ef : ℕ × ℕ).1).Φ
      ((fun _ : ℕ => (bent 1 2 [-1, 0, 1]).n) ef.1) := fun _ _ => normals (bent_good 1 nodes3')
  obtain ⟨data, e1, -⟩ := bi21o (fun _ => bent 1 2 [-1, 0, 1]) gauss gauss_inside Prod.fst [(0, 0), (0, 3), (2, 1)]
    (by simp) hs (fun _ => (bent 1 2 [-1, 0, 1]).n) hN
  obtain ⟨d', e2, -⟩ := bi21i (fun _ => bent 1 2 [-1, 0, 1]) gauss gauss_inside Prod.fst [(0, 0), (0, 3), (2, 1)]
    (by simp) hs (fun _ => (bent 1 2 [-1, 0, 1]).n) hN
  refine ⟨data, d', fun n hn => ⟨?_, ?_⟩⟩
  · obtain ⟨x, ex, hx⟩ := bi21o (fun _ => bent 1 2 [-1, 0, 1]) gauss gauss_inside Prod.fst [(0, 0), (0, 3), (2, 1)] (by simp) hs n
      fun _ _ => hn _
    obtain rfl : data = x := Option.some.inj (e1.symm.trans ex)
    exact hx
  · obtain ⟨x, ex, hx⟩ := bi21i (fun _ => bent 1 2 [-1, 0, 1]) gauss gauss_inside Prod.fst [(0, 0), (0, 3), (2, 1)] (by simp) hs n
      fun _ _ => hn _
    obtain rfl : d' = x := Option.some.inj (e2.symm.trans ex)
    exact hx

/-- Two opposite faces of an element and one of another. -/
example (u : ℝ × ℝ → ℝ × ℝ) :
    (∃ data, bi (fun _ => face20o gauss u (bent 1 2 [-1, 0, 1])) (fun _ => 9) [(0, 0), (0, 1), (1, 2)] = some data) ∧
    ∃ data, bi (fun _ => face20i gauss u (bent 1 2 [-1, 0, 1])) (fun _ => 9) [(0, 0), (0, 1), (1, 2)] = some data := by
  have hs : ∀ ef ∈ [(0, 0), (0, 1), (1, 2)], (ef : ℕ × ℕ).2 < 4 ∧ Good ((fun _ => bent 1 2 [-1, 0, 1]) ef.1) := by
    simp [bent_good 1 nodes3']
  have hN : ∀ ef ∈ [(0, 0), (0, 1), (1, 2)], Normals ((fun _ : ℕ => bent 1 2 [-1, 0, 1]) (ef : ℕ × ℕ).1).Φ
      ((fun _ : ℕ => (bent 1 2 [-1, 0, 1]).n) ef.1) := fun _ _ => normals (bent_good 1 nodes3')
  have hm : ∀ k, ∀ f ∈ facesOf [(0, 0), (0, 1), (1, 2)] k, ∀ f' ∈ facesOf [(0, 0), (0, 1), (1, 2)] k, ¬ Meet f f' := by
    intro k f hf f' hf'
    rw [mem_facesOf] at hf hf'
    simp only [List.mem_cons, Prod.mk.injEq, List.not_mem_nil, or_false] at hf hf'
    unfold Meet
    omega
  obtain ⟨d1, e1, -⟩ := bi20o_partial (fun _ => bent 1 2 [-1, 0, 1]) gauss gauss_inside u _ (by simp) hs hm (fun _ => (bent 1 2 [-1, 0, 1]).n) hN
  obtain ⟨d2, e2, -⟩ := bi20i_partial (fun _ => bent 1 2 [-1, 0, 1]) gauss gauss_inside u _ (by simp) hs hm (fun _ => (bent 1 2 [-1, 0, 1]).n) hN
  exact ⟨⟨d1, e1⟩, ⟨d2, e2⟩⟩

/-- The rules of Gauss are ones the refutation speaks of. -/
example : Inside gauss ∧ ∀ n, ExactTo 1 (gauss n).1 (gauss n).2 :=
  ⟨gauss_inside, fun _ k hk => gauss_exact k (by omega)⟩

/-- A face number that is too large. -/
example : ∃ ef ∈ [(0, 1), (3, 4)], 4 ≤ (ef : ℕ × ℕ).2 := ⟨(3, 4), by simp, by norm_num⟩

lemma bent_inj (a : ℝ) {p : ℕ} {xs : List ℝ} : Set.InjOn (fun P : ℝ × ℝ => (bent a p xs).Φ P.1 P.2) O2 := by
  intro P _ R _ h
  simp only [bent, Prod.mk.injEq] at h
  refine Prod.ext ?_ h.2
  have := h.1
  rw [h.2] at this
  linarith

lemma rec_one (c : ℕ → ℝ) (x y : ℝ) : rec21o [-1, 1] [-1, 1] c x y =
    (c 0 * ((1 - x) / 4) + c 1 * ((1 + x) / 4), c 2 * ((1 - y) / 4) + c 3 * ((1 + y) / 4)) ∧
    rec21i [-1, 1] [-1, 1] c x y =
    (c 0 * ((1 - y) / 4) + c 1 * ((1 + y) / 4), c 2 * ((1 - x) / 4) + c 3 * ((1 + x) / 4)) := by
  constructor
  · rw [rec21o, nodes_one, nodes_one, edges_one, edges_one]
    simp [kron, Poly.dot, List.range_succ, n21o]
    constructor <;> ring
  · rw [rec21i, nodes_one, nodes_one, edges_one, edges_one]
    simp [kron, Poly.dot, List.range_succ, n21i]
    constructor <;> ring

/-- All four sides of a curved element, a form with any dofs. -/
example (c : ℕ → ℝ) : ∃ (v w : ℝ × ℝ → ℝ × ℝ) (ε : ℝ),
    SmoothOn2 (bent 1 1 [-1, 1]).Φ v ∧ SmoothOn2 (bent 1 1 [-1, 1]).Φ w ∧
    (∀ x ∈ I, ∀ y ∈ I, (bent 1 1 [-1, 1]).v1o c (x, y) = v ((bent 1 1 [-1, 1]).Φ x y)) ∧
    (∀ x ∈ I, ∀ y ∈ I, (bent 1 1 [-1, 1]).v1i c (x, y) = w ((bent 1 1 [-1, 1]).Φ x y)) ∧
    SmoothOn2 (bent 1 1 [-1, 1]).Φ (fun P => P.1 * P.2) ∧ Set.InjOn (fun P : ℝ × ℝ => (bent 1 1 [-1, 1]).Φ P.1 P.2) O2 ∧
    Good (bent 1 1 [-1, 1]) ∧ Normals (bent 1 1 [-1, 1]).Φ (bent 1 1 [-1, 1]).n ∧
    ∀ f < 4, |sideRule gp gw (bent 1 1 [-1, 1]).Φ (bent 1 1 [-1, 1]).n
        (fun P m => (P.1 * P.2) * Reduce.dot2 ((bent 1 1 [-1, 1]).v1o c P) m) f -
      sideInt (bent 1 1 [-1, 1]).Φ (bent 1 1 [-1, 1]).n (fun P m => (P.1 * P.2) * Reduce.dot2 ((bent 1 1 [-1, 1]).v1o c P) m) f| ≤ ε := by
  refine ⟨fun P => (bent 1 1 [-1, 1]).v1o c (P.1 - P.2 ^ 2 / 4, P.2), fun P => (bent 1 1 [-1, 1]).v1i c (P.1 - P.2 ^ 2 / 4, P.2),
    ∑ f ∈ range 4, |sideRule gp gw (bent 1 1 [-1, 1]).Φ (bent 1 1 [-1, 1]).n
        (fun P m => (P.1 * P.2) * Reduce.dot2 ((bent 1 1 [-1, 1]).v1o c P) m) f -
      sideInt (bent 1 1 [-1, 1]).Φ (bent 1 1 [-1, 1]).n (fun P m => (P.1 * P.2) * Reduce.dot2 ((bent 1 1 [-1, 1]).v1o c P) m) f|,
    fun x _ y _ => ?_, fun x _ y _ => ?_, fun x _ y _ => ?_, fun x _ y _ => ?_, fun x _ y _ => ?_, bent_inj 1, bent_good 1 nodes2,
    normals (bent_good 1 nodes2), fun f hf => ?_⟩
  · refine ContDiff.contDiffAt ?_
    simp only [El.v1o, bent, rec_one, push21o]
    norm_num
    fun_prop
  · refine ContDiff.contDiffAt ?_
    simp only [El.v1i, bent, rec_one, push21i]
    norm_num
    fun_prop
  · simp [bent]
  · simp [bent]
  · refine ContDiff.contDiffAt ?_
    fun_prop
  · refine single_le_sum (f := fun f => |sideRule gp gw (bent 1 1 [-1, 1]).Φ (bent 1 1 [-1, 1]).n
        (fun P m => (P.1 * P.2) * Reduce.dot2 ((bent 1 1 [-1, 1]).v1o c P) m) f -
      sideInt (bent 1 1 [-1, 1]).Φ (bent 1 1 [-1, 1]).n (fun P m => (P.1 * P.2) * Reduce.dot2 ((bent 1 1 [-1, 1]).v1o c P) m) f|)
      (fun _ _ => abs_nonneg _) (mem_range.2 hf)

/-! Two elements side by side, `2` flowing from the first one to the second one. -/

def dofs (k : ℕ) : List ℝ := if k = 0 then [1, 2, 3, 4] else [2, 5, 6, 7]

def two : List (List (ℕ × ℕ)) := [[(0, 0), (0, 2), (1, 1)], [(0, 3), (1, 2), (1, 3)]]

lemma two_fits : Fits (fun _ => bent 1 1 [-1, 1]) dofs 3 two.flatten where
  face := by simp [two]
  good := fun _ _ => bent_good 1 nodes2
  len := by simp [two, dofs, El.num1, bent]
  degx := fun _ _ => by simp [bent]
  degy := fun _ _ => by simp [bent]

lemma onFace_one (c : List ℝ) (f : ℕ) (hf : f < 4) : onFace (bent 1 1 [-1, 1]) c f = c.getD f 0 := by
  have : f = 0 ∨ f = 1 ∨ f = 2 ∨ f = 3 := by omega
  rcases this with rfl | rfl | rfl | rfl <;>
    simp [onFace, bent, Reversal.faceDofs, Reversal.rowAt, Reversal.colAt, Reversal.dyO, Reversal.dxO, Comp.num]

example : flux gp gw (fun _ => bent 1 1 [-1, 1]) dofs two = some 6 := by
  rw [flux_sum gauss_in gauss_exact two_fits]
  simp only [two, List.flatten_cons, List.flatten_nil, List.cons_append, List.nil_append, List.append_nil, List.map_cons, List.map_nil,
    List.sum_cons, List.sum_nil]
  rw [onFace_one _ 0 (by norm_num), onFace_one _ 2 (by norm_num), onFace_one _ 1 (by norm_num), onFace_one _ 3 (by norm_num),
    onFace_one _ 2 (by norm_num), onFace_one _ 3 (by norm_num)]
  norm_num [out, dofs]

example : flux gp gw (fun _ => bent 1 1 [-1, 1]) dofs two = some (∑ k ∈ {0, 1}, divSum (bent 1 1 [-1, 1]) (dofs k)) := by
  refine flux_divergence gauss_in gauss_exact two_fits (by simp [two]) {0, 1} (by simp [two])
    (fun ef => if ef = (0, 1) then (1, 0) else (0, 1)) ?_
  intro k hk f hf hn
  have key : (k, f) = (0, 1) ∨ (k, f) = (1, 0) := by
    simp only [two, List.flatten_cons, List.flatten_nil, List.cons_append, List.nil_append, List.append_nil, List.mem_cons,
      Prod.mk.injEq, List.not_mem_nil, or_false] at hn
    simp only [mem_insert, mem_singleton] at hk
    simp only [Prod.mk.injEq]
    omega
  rcases key with h | h <;> obtain ⟨rfl, rfl⟩ := Prod.mk.inj h <;> simp [two] <;>
    rw [onFace_one _ 0 (by norm_num), onFace_one _ 1 (by norm_num)] <;> norm_num [out, dofs]

/-- A cochain that is too short. -/
example : flux gp gw (fun _ => bent 1 1 [-1, 1]) (fun _ => [1, 2, 3]) two = none :=
  flux_refuses (by simp [gp]) ⟨(0, 0), by simp [two], Or.inr ⟨bent_good 1 nodes2, by simp [El.num1, bent]⟩⟩

end Phyem.Boundary
