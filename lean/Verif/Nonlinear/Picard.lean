import Verif.Nonlinear.Props

/-!
C92: what the iterations of the Newton and Picard methods do to the residual, and their fixed points.
-/

open scoped BigOperators

namespace Phyem.Nonlinear

variable {K : Type} [CommRing K]

/-! ### Specification -/

/-- The nonlinear part of the residual. -/
def Sys.nl (s : Sys K) (x : ℕ → ℕ → ℕ → K) (i e r : ℕ) : K :=
  ((s.terms i).map fun t => (if t.2 then 1 else -1) *
    contract (t.1.op.entries e) (s.testPlace i t.1) r fun l c => x (s.unknownAt t.1 l) e c).sum

/-- The linear part of the residual. -/
def Sys.lin (s : Sys K) (x : ℕ → ℕ → ℕ → K) (i e r : ℕ) : K :=
  ∑ j ∈ Finset.range s.unknowns.length, ∑ c ∈ Finset.range (s.m j e), s.A i j e r c * x j e c

theorem residual_parts (s : Sys K) (x : ℕ → ℕ → ℕ → K) (i e r : ℕ) :
    s.residual x i e r = s.lin x i e r + s.nl x i e r - s.b i e r := rfl

/-- Entry `g` of the assembled vector of row `i`: the sum over all local dofs of the row whose number is `g`. -/
def Sys.assembled (s : Sys K) (G : ℕ → ℕ → ℕ → ℕ) (i : ℕ) (f : ℕ → ℕ → K) (g : ℕ) : K :=
  (s.elements.map fun e => ∑ r ∈ Finset.range (s.n i e), if G i e r = g then f e r else 0).sum

/-- `x` solves the equations `free`, those whose row is not replaced by a boundary condition. -/
def Sys.Solution (s : Sys K) (G : ℕ → ℕ → ℕ → ℕ) (free : ℕ → ℕ → Prop) (x : ℕ → ℕ → ℕ → K) : Prop :=
  ∀ i < s.rows, ∀ g, free i g → s.assembled G i (s.residual x i) g = 0

/-- `x'` solves the assembled system of the Picard method made from `x`. -/
def Sys.PicardStep (s : Sys K) (G : ℕ → ℕ → ℕ → ℕ) (free : ℕ → ℕ → Prop) (x x' : ℕ → ℕ → ℕ → K) : Prop :=
  ∀ i < s.rows, ∃ f, s.picardRhs x i = some f ∧
    ∀ g, free i g → s.assembled G i (s.lin x' i) g = s.assembled G i f g

/-- `d` solves the assembled system of the Newton method made from `x`. -/
def Sys.NewtonStep (s : Sys K) (G : ℕ → ℕ → ℕ → ℕ) (free : ℕ → ℕ → Prop) (x d : ℕ → ℕ → ℕ → K) : Prop :=
  ∀ i < s.rows, ∃ f, ∃ L : ℕ → ℕ → ℕ → ℕ → K, s.negF x i = some f ∧ (∀ j < s.unknowns.length, s.lhs x i j = some (L j)) ∧
    ∀ g, free i g → s.assembled G i (fun e r => ∑ j ∈ Finset.range s.unknowns.length, ∑ c ∈ Finset.range (s.m j e),
      L j e r c * d j e c) g = s.assembled G i f g

/-! ### Assembling -/

theorem assembled_congr (s : Sys K) (G : ℕ → ℕ → ℕ → ℕ) (i : ℕ) {f f' : ℕ → ℕ → K}
    (h : ∀ e ∈ s.elements, ∀ r, f e r = f' e r) (g : ℕ) : s.assembled G i f g = s.assembled G i f' g := by
  unfold Sys.assembled
  congr 1
  apply List.map_congr_left
  intro e he
  apply Finset.sum_congr rfl
  intro r _
  rw [h e he r]

theorem assembled_add (s : Sys K) (G : ℕ → ℕ → ℕ → ℕ) (i : ℕ) (f f' : ℕ → ℕ → K) (g : ℕ) :
    s.assembled G i (fun e r => f e r + f' e r) g = s.assembled G i f g + s.assembled G i f' g := by
  unfold Sys.assembled
  rw [← List.sum_map_add]
  congr 1
  apply List.map_congr_left
  intro e _
  rw [← Finset.sum_add_distrib]
  apply Finset.sum_congr rfl
  intro r _
  split <;> simp

theorem assembled_neg (s : Sys K) (G : ℕ → ℕ → ℕ → ℕ) (i : ℕ) (f : ℕ → ℕ → K) (g : ℕ) :
    s.assembled G i (fun e r => -f e r) g = -s.assembled G i f g := by
  have h := assembled_add s G i f (fun e r => -f e r) g
  have h0 : s.assembled G i (fun e r => f e r + -f e r) g = 0 := by
    unfold Sys.assembled
    simp
  rw [h0] at h
  exact (neg_eq_of_add_eq_zero_right h.symm).symm

theorem assembled_zero (s : Sys K) (G : ℕ → ℕ → ℕ → ℕ) (i g : ℕ) : s.assembled G i (fun _ _ => 0) g = 0 := by
  unfold Sys.assembled
  simp

/-! ### Picard -/

/-- The right side of the Picard method is the right side minus the nonlinear terms of the iterate. -/
theorem picard_rhs (s : Sys K) (hs : Fits s) (x : ℕ → ℕ → ℕ → K) {i : ℕ} (hi : i < s.rows) :
    ∃ f, s.picardRhs x i = some f ∧ ∀ e ∈ s.elements, ∀ r, f e r = s.b i e r - s.nl x i e r := by
  obtain ⟨f, hf, hfv⟩ := nonlinear_eq x hs hi
  exact ⟨_, by rw [Sys.picardRhs, hf]; rfl, fun e he r => by simp only [hfv e he r, Sys.nl]⟩

/-- After an iteration the residual is what the nonlinear terms changed by. -/
theorem picard_residual (s : Sys K) (hs : Fits s) {G : ℕ → ℕ → ℕ → ℕ} {free : ℕ → ℕ → Prop} {x x' : ℕ → ℕ → ℕ → K}
    (h : s.PicardStep G free x x') {i : ℕ} (hi : i < s.rows) {g : ℕ} (hg : free i g) :
    s.assembled G i (s.residual x' i) g = s.assembled G i (s.nl x' i) g - s.assembled G i (s.nl x i) g := by
  obtain ⟨f, hf, hfv⟩ := picard_rhs s hs x hi
  obtain ⟨f', hf', h'⟩ := h i hi
  rw [hf] at hf'
  cases hf'
  have h1 := h' g hg
  rw [assembled_congr s G i (f := f) (f' := fun e r => s.b i e r + -s.nl x i e r) (fun e he r => by rw [hfv e he r]; ring) g,
    assembled_add, assembled_neg] at h1
  rw [assembled_congr s G i (f' := fun e r => (s.lin x' i e r + s.nl x' i e r) + -s.b i e r)
    (fun e _ r => by rw [residual_parts]; ring) g, assembled_add, assembled_add, assembled_neg, h1]
  ring

/-- An iterate that the Picard method keeps is a solution, and a solution is kept. -/
theorem picard_fixed_iff (s : Sys K) (hs : Fits s) (G : ℕ → ℕ → ℕ → ℕ) (free : ℕ → ℕ → Prop) (x : ℕ → ℕ → ℕ → K) :
    s.PicardStep G free x x ↔ s.Solution G free x := by
  constructor
  · intro h i hi g hg
    rw [picard_residual s hs h hi hg, sub_self]
  · intro h i hi
    obtain ⟨f, hf, hfv⟩ := picard_rhs s hs x hi
    refine ⟨f, hf, fun g hg => ?_⟩
    have h1 := h i hi g hg
    rw [assembled_congr s G i (f' := fun e r => s.lin x i e r + -(s.b i e r - s.nl x i e r))
      (fun e _ r => by rw [residual_parts]; ring) g, assembled_add, assembled_neg] at h1
    rw [assembled_congr s G i (f' := fun e r => s.b i e r - s.nl x i e r) (fun e he r => hfv e he r) g]
    exact add_neg_eq_zero.mp h1

/-! ### Newton -/

/-- The increment zero solves the system of the Newton method exactly at solutions. -/
theorem newton_zero_iff (s : Sys K) (hs : Fits s) (G : ℕ → ℕ → ℕ → ℕ) (free : ℕ → ℕ → Prop) (x : ℕ → ℕ → ℕ → K) :
    s.NewtonStep G free x (fun _ _ _ => 0) ↔ s.Solution G free x := by
  constructor
  · intro h i hi g hg
    obtain ⟨f, hf, hfv⟩ := newton_rhs s hs x hi
    obtain ⟨f', L, hf', _, h'⟩ := h i hi
    rw [hf] at hf'
    cases hf'
    have h1 := h' g hg
    simp only [mul_zero, Finset.sum_const_zero] at h1
    rw [assembled_zero, assembled_congr s G i (f' := fun e r => -s.residual x i e r) hfv g, assembled_neg] at h1
    exact neg_eq_zero.mp h1.symm
  · intro h i hi
    obtain ⟨f, hf, hfv⟩ := newton_rhs s hs x hi
    refine ⟨f, fun j => (s.lhs x i j).getD fun _ _ _ => 0, hf, ?_, ?_⟩
    · intro j hj
      obtain ⟨L, hL, _⟩ := lhs_eq x hs hi hj
      simp only [hL, Option.getD_some]
    · intro g hg
      simp only [mul_zero, Finset.sum_const_zero]
      rw [assembled_zero, assembled_congr s G i (f' := fun e r => -s.residual x i e r) hfv g, assembled_neg, h i hi g hg, neg_zero]

theorem prod_two {p q : ℕ} (hpq : p ≠ q) (v w : ℕ → K) :
    ∏ l ∈ ({p, q} : Finset ℕ), (v l + w l) = ∏ l ∈ ({p, q} : Finset ℕ), v l
      + ∑ l ∈ ({p, q} : Finset ℕ), (∏ k ∈ ({p, q} : Finset ℕ).erase l, v k) * w l + ∏ l ∈ ({p, q} : Finset ℕ), w l := by
  have h1 : ({p, q} : Finset ℕ).erase p = {q} := by
    ext a; simp only [Finset.mem_erase, Finset.mem_insert, Finset.mem_singleton]
    constructor
    · rintro ⟨h, h' | h'⟩
      · exact absurd h' h
      · exact h'
    · rintro rfl; exact ⟨fun h => hpq h.symm, Or.inr rfl⟩
  have h2 : ({p, q} : Finset ℕ).erase q = {p} := by
    ext a; simp only [Finset.mem_erase, Finset.mem_insert, Finset.mem_singleton]
    constructor
    · rintro ⟨h, h' | h'⟩
      · exact h'
      · exact absurd h' h
    · rintro rfl; exact ⟨hpq, Or.inl rfl⟩
  rw [Finset.prod_pair hpq, Finset.prod_pair hpq, Finset.prod_pair hpq, Finset.sum_pair hpq, h1, h2,
    Finset.prod_singleton, Finset.prod_singleton]
  ring

/-- A term of three forms, at an iterate plus an increment. -/
theorem contract_add {s : Sys K} {i : ℕ} {t : Term K} (h : TermFits s i t) (h3 : t.corr.length = 3) {e : ℕ} (he : e ∈ s.elements)
    (r : ℕ) (v w : ℕ → ℕ → K) :
    contract (t.op.entries e) (s.testPlace i t) r (fun l c => v l c + w l c)
      = contract (t.op.entries e) (s.testPlace i t) r v
      + ∑ p ∈ (Finset.range t.corr.length).erase (s.testPlace i t),
        ∑ c ∈ Finset.range (s.m (s.unknownAt t p) e), contract2 (t.op.entries e) (s.testPlace i t) p r c v * w p c
      + contract (t.op.entries e) (s.testPlace i t) r w := by
  rw [Finset.sum_congr rfl fun p hp => sum_contract2 h he (by simp at hp; exact hp.2) (by simp at hp; exact hp.1) r v (w p)]
  unfold contract
  rw [shape_length h he]
  have hS : ∃ p q, p ≠ q ∧ (Finset.range t.corr.length).erase (s.testPlace i t) = {p, q} := by
    have hlt : s.testPlace i t < t.corr.length := h.place_lt
    have : ((Finset.range t.corr.length).erase (s.testPlace i t)).card = 2 := by
      rw [Finset.card_erase_of_mem (by simpa using hlt)]; simp [h3]
    obtain ⟨p, q, hpq, hS⟩ := Finset.card_eq_two.mp this
    exact ⟨p, q, hpq, hS⟩
  obtain ⟨p, q, hpq, hS⟩ := hS
  rw [hS]
  induction ((indices (t.op.entries e).shape).filter fun idx => idx.getD (s.testPlace i t) 0 = r) with
  | nil => simp
  | cons idx l ih =>
    simp only [List.map_cons, List.sum_cons, Finset.sum_add_distrib]
    rw [ih, prod_two hpq]
    simp only [mul_add, Finset.mul_sum, mul_assoc]
    ring

/-- If all terms have three forms: a Newton iteration leaves as residual the nonlinear terms of the increment. -/
theorem newton_quadratic (s : Sys K) (hs : Fits s) (h3 : ∀ i < s.rows, ∀ t ∈ s.terms i, t.1.corr.length = 3)
    {G : ℕ → ℕ → ℕ → ℕ} {free : ℕ → ℕ → Prop} {x d : ℕ → ℕ → ℕ → K} (h : s.NewtonStep G free x d) {i : ℕ} (hi : i < s.rows) {g : ℕ}
    (hg : free i g) :
    s.assembled G i (s.residual (fun j e c => x j e c + d j e c) i) g = s.assembled G i (s.nl d i) g := by
  obtain ⟨f, hf, hfv⟩ := newton_rhs s hs x hi
  obtain ⟨f', L, hf', hL, h'⟩ := h i hi
  rw [hf] at hf'
  cases hf'
  have h1 := h' g hg
  rw [assembled_congr s G i (f := f) (f' := fun e r => -s.residual x i e r) hfv g, assembled_neg] at h1
  set M : ℕ → ℕ → K := fun e r => ∑ j ∈ Finset.range s.unknowns.length, ∑ c ∈ Finset.range (s.m j e), L j e r c * d j e c with hM
  rw [assembled_congr s G i (f' := fun e r => (s.residual x i e r + M e r) + s.nl d i e r) ?_ g, assembled_add, assembled_add, h1]
  · ring
  intro e he r
  have h2 : M e r = _ := (Finset.sum_congr rfl fun j hj => Finset.sum_congr rfl fun c _ => by
    rw [hL j (by simpa using hj), Option.getD_some]).trans (lhs_apply s hs x d hi he r)
  rw [h2, residual_parts, residual_parts]
  have h4 : s.lin (fun j e c => x j e c + d j e c) i e r = s.lin x i e r + s.lin d i e r := by
    unfold Sys.lin
    simp only [mul_add, Finset.sum_add_distrib]
  have h5 : s.nl (fun j e c => x j e c + d j e c) i e r = s.nl x i e r
      + ((s.terms i).map fun t => (if t.2 then 1 else -1) *
        ∑ p ∈ (Finset.range t.1.corr.length).erase (s.testPlace i t.1), ∑ c ∈ Finset.range (s.m (s.unknownAt t.1 p) e),
          contract2 (t.1.op.entries e) (s.testPlace i t.1) p r c (fun l c => x (s.unknownAt t.1 l) e c)
            * d (s.unknownAt t.1 p) e c).sum + s.nl d i e r := by
    unfold Sys.nl
    rw [← List.sum_map_add, ← List.sum_map_add]
    congr 1
    apply List.map_congr_left
    intro t ht
    rw [contract_add (hs.terms i hi t ht) (h3 i hi t ht) he r (fun l c => x (s.unknownAt t.1 l) e c)
      fun l c => d (s.unknownAt t.1 l) e c]
    ring
  rw [h4, h5]
  change _ = s.lin x i e r + s.nl x i e r - s.b i e r + (s.lin d i e r + _) + s.nl d i e r
  ring

/-! ### Examples -/

/-- Numbers of the dofs of the test form: the elements share one. -/
def exG : ℕ → ℕ → ℕ → ℕ := fun _ e r => e + r

/-- Cochains of `exS`, of three numbers of `u` and two of `w`. -/
def exX (u : List ℚ) (w : List ℚ) : ℕ → ℕ → ℕ → ℚ := fun j e c => if j = 0 then u.getD (e + c) 0 else w.getD e 0

example : exS.PicardStep exG (fun _ g => g < 3) (exX [2, 2, 2] [2, 2]) (exX [-29, -33, -35] [4, 5]) := by
  intro i hi
  have hi0 : i = 0 := by have : i < 1 := hi; omega
  subst hi0
  obtain ⟨f, hf, hfv⟩ := picard_rhs exS exS_fits (exX [2, 2, 2] [2, 2]) (i := 0) (by decide)
  refine ⟨f, hf, ?_⟩
  intro g hg
  rw [assembled_congr exS exG 0 (f := f) hfv g]
  revert g
  decide +kernel

example : exS.NewtonStep exG (fun _ g => g < 3) (exX [2, 2, 2] [-1, 1]) (exX [-15, -2, -19] [1, 1]) ∧
    (∀ i < (exS (K := ℚ)).rows, ∀ t ∈ (exS (K := ℚ)).terms i, t.1.corr.length = 3) ∧
    exS.assembled exG 0 (exS.nl (exX [-15, -2, -19] [1, 1]) 0) 1 = -274 := by
  refine ⟨?_, ?_, by decide +kernel⟩
  · intro i hi
    have hi0 : i = 0 := by have : i < 1 := hi; omega
    subst hi0
    obtain ⟨f, hf, hfv⟩ := newton_rhs exS exS_fits (exX [2, 2, 2] [-1, 1]) (i := 0) (by decide)
    refine ⟨f, fun j => (exS.lhs (exX [2, 2, 2] [-1, 1]) 0 j).getD fun _ _ _ => 0, hf, ?_, ?_⟩
    · intro j hj
      obtain ⟨L, hL, _⟩ := lhs_eq (exX [2, 2, 2] [-1, 1]) exS_fits (i := 0) (by decide) hj
      simp only [hL, Option.getD_some]
    · intro g hg
      rw [assembled_congr exS exG 0 (f := f) hfv g, assembled_congr exS exG 0 (fun e he r =>
        lhs_apply exS exS_fits (exX [2, 2, 2] [-1, 1]) (exX [-15, -2, -19] [1, 1]) (i := 0) (by decide) he r) g]
      revert g
      decide +kernel
  · intro i _ t ht
    have ht' : t ∈ [_, _] := ht
    rw [List.mem_cons, List.mem_singleton] at ht'
    rcases ht' with rfl | rfl <;> rfl

/-- A solution: `u = (3, 1, 1)`, `w = 0`. -/
example : exS.Solution exG (fun _ g => g < 3) (exX [3, 1, 1] [0, 0]) := by
  have : ∀ i < 1, ∀ g < 3, (exS (K := ℚ)).assembled exG i (exS.residual (exX [3, 1, 1] [0, 0]) i) g = 0 := by decide +kernel
  exact this

/-! ### The same form twice -/

/-- The system with the term `a(u, v, u)`, `u` having one dof. -/
def exT : Sys ℚ where
  elements := [0]
  rows := 1
  A := fun _ _ _ _ _ => 0
  b := fun _ _ _ => 0
  terms := fun _ => [(exR 1 fun _ => 1, true)]
  tests := fun _ => ⟨30, .generic 7⟩
  unknowns := [⟨31, .copy 0 0⟩]
  n := fun _ _ => 2
  m := fun _ _ => 1

/-- With the same form twice the Picard method does not fail: if the form has one dof, it takes `a u` for `a(u, v, u) = a u²`. -/
theorem picard_repeated_refuted : Term.make (exR (K := ℚ) 1 fun _ => 1).op (exR (K := ℚ) 1 fun _ => 1).corr = some (exR 1 fun _ => 1) ∧
    (exT.picardRhs (fun _ _ _ => 3) 0).map (fun f => f 0 0) = some (-3) ∧
    contract ((exR (K := ℚ) 1 fun _ => 1).op.entries 0) 1 0 (fun _ _ => 3) = 9 := by
  refine ⟨?_, by decide +kernel, by decide +kernel⟩
  exact if_pos (show ((exR (K := ℚ) 1 fun _ => 1).corr.map Operand.addr).Nodup ∧ (exR (K := ℚ) 1 fun _ => 1).corr ≠ [] by decide +kernel)

end Phyem.Nonlinear
