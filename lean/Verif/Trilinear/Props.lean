import Verif.Trilinear.Lemmas
import Mathlib.Tactic.FinCases
import Mathlib.Tactic.NormNum

/-!
C91: the arrays of trilinear terms, and the vectors and matrices that are made of them.
-/

namespace Phyem.Trilinear

open Finset Matrix

variable {K : Type} [Field K]

/-! ### The array of an element -/

theorem triple_122 (w u v a b : K) : triple [w] [u, v] [a, b] = -(w * v * a) + w * u * b := by
  simp [triple, vec3, cross_apply, vec3_dotProduct]

theorem triple_221 (p r u v c : K) : triple [p, r] [u, v] [c] = p * v * c - r * u * c := by
  simp [triple, vec3, cross_apply, vec3_dotProduct]; ring

theorem triple_333 (p r s u v w a b c : K) : triple [p, r, s] [u, v, w] [a, b, c] =
    (r * w * a - s * v * a) + (s * u * b - p * w * b) + (p * v * c - r * u * c) := by
  simp [triple, vec3, cross_apply, vec3_dotProduct]; ring

theorem list1 {l : List K} (h : l.length = 1) : l = [l.getD 0 0] := by
  match l, h with | [a], _ => rfl
theorem list2 {l : List K} (h : l.length = 2) : l = [l.getD 0 0, l.getD 1 0] := by
  match l, h with | [a, b], _ => rfl
theorem list3 {l : List K} (h : l.length = 3) : l = [l.getD 0 0, l.getD 1 0, l.getD 2 0] := by
  match l, h with | [a, b, c], _ => rfl

theorem field_length (rm : List (List K)) (x : ℕ → K) : (field rm x).length = rm.length := by simp [field]

theorem sum_lin {α : Type} (l : List α) (f g : α → K) : (l.map f).sum + (l.map g).sum = (l.map fun q => f q + g q).sum := by
  induction l with
  | nil => simp
  | cons q l ih => simp only [List.map_cons, List.sum_cons, ← ih]; ring

theorem sum_neg {α : Type} (l : List α) (f : α → K) : -(l.map f).sum = (l.map fun q => -f q).sum := by
  induction l with
  | nil => simp
  | cons q l ih => simp only [List.map_cons, List.sum_cons, ← ih]; ring

theorem sum_sub {α : Type} (l : List α) (f g : α → K) : (l.map f).sum - (l.map g).sum = (l.map fun q => f q - g q).sum := by
  induction l with
  | nil => simp
  | cons q l ih => simp only [List.map_cons, List.sum_cons, ← ih]; ring

/-- The array contracted with cochains is the quadrature of `(A × B) · C`. -/
theorem cross_is_integral {n la lb lc nA nB nC : ℕ} {pts : List (Pt K)} (hf : Fits la lb lc nA nB nC pts)
    {d : ℕ → ℕ → ℕ → K} (hd : cross n la lb lc pts = some d) (x y z : ℕ → K) :
    full nA nB nC d x y z = quad triple pts x y z := by
  unfold cross at hd
  split_ifs at hd with h1 h2 h3
  · simp only [Prod.mk.injEq] at h1
    obtain ⟨-, rfl, rfl, rfl⟩ := h1
    rw [← Option.some.inj hd, full_add, full_neg, full_ein hf (by omega) (by omega) (by omega),
      full_ein hf (by omega) (by omega) (by omega), sum_neg, sum_lin, quad]
    congr 1
    refine List.map_congr_left fun q hq => ?_
    obtain ⟨⟨a1, -⟩, ⟨b1, -⟩, c1, -⟩ := hf q hq
    rw [list1 ((field_length q.a x).trans a1), list2 ((field_length q.b y).trans b1), list2 ((field_length q.c z).trans c1),
      triple_122]
    simp only [List.getD_cons_zero, List.getD_cons_succ]
    ring
  · simp only [Prod.mk.injEq] at h2
    obtain ⟨-, rfl, rfl, rfl⟩ := h2
    rw [← Option.some.inj hd, full_sub, full_ein hf (by omega) (by omega) (by omega),
      full_ein hf (by omega) (by omega) (by omega), sum_sub, quad]
    congr 1
    refine List.map_congr_left fun q hq => ?_
    obtain ⟨⟨a1, -⟩, ⟨b1, -⟩, c1, -⟩ := hf q hq
    rw [list2 ((field_length q.a x).trans a1), list2 ((field_length q.b y).trans b1), list1 ((field_length q.c z).trans c1),
      triple_221]
    simp only [List.getD_cons_zero, List.getD_cons_succ]
    ring
  · simp only [Prod.mk.injEq] at h3
    obtain ⟨-, rfl, rfl, rfl⟩ := h3
    rw [← Option.some.inj hd, full_add, full_add, full_sub, full_sub, full_sub,
      full_ein hf (by omega) (by omega) (by omega), full_ein hf (by omega) (by omega) (by omega),
      full_ein hf (by omega) (by omega) (by omega), full_ein hf (by omega) (by omega) (by omega),
      full_ein hf (by omega) (by omega) (by omega), full_ein hf (by omega) (by omega) (by omega),
      sum_sub, sum_sub, sum_sub, sum_lin, sum_lin, quad]
    congr 1
    refine List.map_congr_left fun q hq => ?_
    obtain ⟨⟨a1, -⟩, ⟨b1, -⟩, c1, -⟩ := hf q hq
    rw [list3 ((field_length q.a x).trans a1), list3 ((field_length q.b y).trans b1), list3 ((field_length q.c z).trans c1),
      triple_333]
    simp only [List.getD_cons_zero, List.getD_cons_succ]
    ring

/-- The cases that are not refused. -/
theorem cross_accepts (n la lb lc : ℕ) (pts : List (Pt K)) :
    (cross n la lb lc pts).isSome = true ↔
      (n, la, lb, lc) = (2, 1, 2, 2) ∨ (n, la, lb, lc) = (2, 2, 2, 1) ∨ (n, la, lb, lc) = (3, 3, 3, 3) := by
  unfold cross
  split_ifs with h1 h2 h3 <;> simp_all

/-- The array contracted with cochains is the quadrature of `A B · C`. -/
theorem prod_is_integral {n la lb lc nA nB nC : ℕ} {pts : List (Pt K)} (hf : Fits la lb lc nA nB nC pts)
    {d : ℕ → ℕ → ℕ → K} (hd : prod n la lb lc pts = some d) (x y z : ℕ → K) :
    full nA nB nC d x y z = quad scaledDot pts x y z := by
  unfold prod at hd
  split_ifs at hd with h1 h2
  · simp only [Prod.mk.injEq] at h1
    obtain ⟨-, rfl, rfl, rfl⟩ := h1
    rw [← Option.some.inj hd, full_add, full_ein hf (by omega) (by omega) (by omega),
      full_ein hf (by omega) (by omega) (by omega), sum_lin, quad]
    congr 1
    refine List.map_congr_left fun q hq => ?_
    obtain ⟨⟨a1, -⟩, ⟨b1, -⟩, c1, -⟩ := hf q hq
    rw [list1 ((field_length q.a x).trans a1), list2 ((field_length q.b y).trans b1), list2 ((field_length q.c z).trans c1)]
    simp [scaledDot]
    ring
  · simp only [Prod.mk.injEq] at h2
    obtain ⟨-, rfl, rfl, rfl⟩ := h2
    rw [← Option.some.inj hd]
    change full nA nB nC (ein pts 0 0 0) x y z = _
    rw [full_ein hf (by omega) (by omega) (by omega), quad]
    congr 1
    refine List.map_congr_left fun q hq => ?_
    obtain ⟨⟨a1, -⟩, ⟨b1, -⟩, c1, -⟩ := hf q hq
    rw [list1 ((field_length q.a x).trans a1), list1 ((field_length q.b y).trans b1), list1 ((field_length q.c z).trans c1)]
    simp [scaledDot]
    ring

theorem prod_accepts (n la lb lc : ℕ) (pts : List (Pt K)) :
    (prod n la lb lc pts).isSome = true ↔ (n, la, lb, lc) = (2, 1, 2, 2) ∨ (n, la, lb, lc) = (2, 1, 1, 1) := by
  unfold prod
  split_ifs with h1 h2 <;> simp_all

/-- With `rm @ E` the field of a cochain is the field of the derivative, whose cochain is `E` times it. -/
theorem field_derivative (rm : List (List K)) (E : ℕ → ℕ → K) (n : ℕ) (x : ℕ → K) :
    field (rm.map (rowD E n)) x = field rm fun i => ∑ j ∈ range n, E i j * x j := by
  unfold field
  rw [List.map_map]
  refine List.map_congr_left fun row _ => ?_
  rw [Function.comp_apply, dot_fin (rowD E n row) x (n := n) (by simp [rowD]), dot_fin row _ rfl]
  have : ∀ j ∈ range n, (rowD E n row).getD j 0 * x j = ∑ i ∈ range row.length, row.getD i 0 * E i j * x j := by
    intro j hj
    have hj := mem_range.mp hj
    have : (rowD E n row).getD j 0 = ∑ i ∈ range row.length, row.getD i 0 * E i j := by
      rw [← Nonlinear.sum_range_list]
      simp [rowD, List.getD_eq_getElem?_getD, hj]
    rw [this, sum_mul]
  rw [sum_congr rfl this, sum_comm]
  refine sum_congr rfl fun i _ => ?_
  rw [mul_sum]
  exact sum_congr rfl fun j _ => by ring

/-- Nothing is done to `B` by `A × B`: the contraction with `C` having the values of `B` is zero. -/
theorem cross_self {n la lb lc nA nB nC : ℕ} {pts : List (Pt K)} (hf : Fits la lb lc nA nB nC pts)
    {d : ℕ → ℕ → ℕ → K} (hd : cross n la lb lc pts = some d) (x y z : ℕ → K)
    (h : ∀ q ∈ pts, field q.b y = field q.c z) : full nA nB nC d x y z = 0 := by
  rw [cross_is_integral hf hd, quad]
  refine List.sum_eq_zero fun v hv => ?_
  obtain ⟨q, hq, rfl⟩ := List.mem_map.mp hv
  rw [h q hq, triple, dotProduct_comm, dot_cross_self, mul_zero]

/-- With the same basis functions for `B` and `C` the matrices are skew-symmetric. -/
theorem cross_skew {n la l : ℕ} {pts : List (Pt K)} (h : ∀ q ∈ pts, q.b = q.c) {d : ℕ → ℕ → ℕ → K}
    (hd : cross n la l l pts = some d) (i j k : ℕ) : d i k j = -d i j k := by
  have sw : ∀ r s t, ein pts r s t i k j = ein pts r t s i j k := by
    intro r s t
    unfold ein
    congr 1
    refine List.map_congr_left fun q hq => ?_
    rw [h q hq]
    ring
  unfold cross at hd
  split_ifs at hd with h1 h2 h3
  · rw [← Option.some.inj hd]
    simp only [sw]
    ring
  · simp only [Prod.mk.injEq] at h2; omega
  · rw [← Option.some.inj hd]
    simp only [sw]
    ring

/-! ### The elements -/

/-- Every element gets its own array, if elements with the same key have the same. -/
theorem generate_each {κ D : Type} [DecidableEq κ] (key : ℕ → Option κ) (data : ℕ → Option D) (es : List ℕ)
    (h : ∀ e ∈ es, ∀ f ∈ es, ∀ k, key e = some k → key f = some k → data e = data f) :
    generate key data es [] = es.mapM fun e => (data e).map fun d => (e, d) := by
  have gen : ∀ (es done : List ℕ) (cache : List (κ × D)),
      (∀ p ∈ cache, ∃ e ∈ done, key e = some p.1 ∧ data e = some p.2) →
      (∀ e ∈ done ++ es, ∀ f ∈ done ++ es, ∀ k, key e = some k → key f = some k → data e = data f) →
      generate key data es cache = es.mapM fun e => (data e).map fun d => (e, d) := by
    intro es
    induction es with
    | nil => intro _ _ _ _; rfl
    | cons e es ih =>
      intro done cache hc hd
      have hd' : ∀ f ∈ (done ++ [e]) ++ es, ∀ g ∈ (done ++ [e]) ++ es, ∀ k, key f = some k → key g = some k →
          data f = data g := by simpa using hd
      have hc' : ∀ p ∈ cache, ∃ f ∈ done ++ [e], key f = some p.1 ∧ data f = some p.2 := by
        intro p hp
        obtain ⟨f, hf, h⟩ := hc p hp
        exact ⟨f, by simp [hf], h⟩
      rw [generate, List.mapM_cons]
      cases hk : (key e).bind fun k => (cache.find? fun p => p.1 = k).map Prod.snd with
      | some d =>
        simp only
        obtain ⟨k, hk1, hk2⟩ := Option.bind_eq_some_iff.mp hk
        obtain ⟨p, hp, rfl⟩ := Option.map_eq_some_iff.mp hk2
        obtain ⟨f, hf, hf1, hf2⟩ := hc p (List.mem_of_find?_eq_some hp)
        have hpk : p.1 = k := by simpa using List.find?_some hp
        have : data e = some p.2 := by
          rw [hd e (by simp) f (by simp [hf]) k hk1 (by rw [hf1, hpk]), hf2]
        rw [ih (done ++ [e]) cache hc' hd', this]
        cases es.mapM fun e => (data e).map fun d => (e, d) <;> rfl
      | none =>
        simp only
        cases hde : data e with
        | none => rfl
        | some d =>
          simp only [Option.bind_some, Option.map_some]
          rw [ih (done ++ [e]) _ _ hd']
          · cases es.mapM fun e => (data e).map fun d => (e, d) <;> rfl
          · intro p hp
            cases hke : key e with
            | none => rw [hke] at hp; exact hc' p hp
            | some k =>
              rw [hke] at hp
              rcases List.mem_cons.mp hp with rfl | hp
              · exact ⟨e, by simp, hke, hde⟩
              · exact hc' p hp
  exact gen es [] [] (by simp) (by simpa using h)

end Phyem.Trilinear
