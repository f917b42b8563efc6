import Verif.Krylov.Run
import Mathlib.LinearAlgebra.Matrix.ToLinearEquiv

/-!
# Iterative solvers: one turn of the outer loop
-/

namespace Phyem.Krylov

open Matrix Finset

variable {p n : ℕ} [NeZero p]

/-- The least squares problem of the sequential arrays. -/
noncomputable def qLeast (m : ℕ) (q : Q n) (beta : ℝ) : Option (Fin m → ℝ) :=
  if ((hm m q)ᵀ * hm m q).det = 0 then none else some (((hm m q)ᵀ * hm m q)⁻¹ *ᵥ fun b => hm m q 0 b * beta)

theorem least_eq {m : ℕ} {R : Fin p → Rank n} {q : Q n} (h : Rel m m R q) (beta : ℝ) :
    leastSquares m R beta = qLeast m q beta := by
  have : (of fun a b => ∑ r, (R r).H a b : Matrix (Fin (m + 1)) (Fin m) ℝ) = hm m q := by
    ext a b
    exact h.sum b b.2 a
  unfold leastSquares qLeast
  simp only [this]

theorem normal_of_least {m : ℕ} {q : Q n} {beta : ℝ} {y : Fin m → ℝ} (h : qLeast m q beta = some y) :
    ((hm m q)ᵀ * hm m q) *ᵥ y = (hm m q)ᵀ *ᵥ Pi.single 0 beta := by
  unfold qLeast at h
  split_ifs at h with h0
  obtain rfl := Option.some.inj h
  rw [mulVec_mulVec, mul_nonsing_inv _ (isUnit_iff_ne_zero.mpr h0), one_mulVec]
  funext b
  rw [mulVec_single]
  simp [transpose_apply]

theorem least_some {m : ℕ} {q : Q n} (beta : ℝ) (h : ∀ y, hm m q *ᵥ y = 0 → y = 0) : ∃ y, qLeast m q beta = some y := by
  unfold qLeast
  rw [if_neg]
  · exact ⟨_, rfl⟩
  · intro h0
    obtain ⟨y, hy, hy0⟩ := exists_mulVec_eq_zero_iff.mpr h0
    refine hy (h y ?_)
    rw [← mulVec_mulVec] at hy0
    have : (hm m q *ᵥ y) ⬝ᵥ (hm m q *ᵥ y) = 0 := by
      rw [dotProduct_mulVec, ← mulVec_transpose, hy0, zero_dotProduct]
    exact dotProduct_self_eq_zero.mp this

theorem residual_eq (A : Fin p → Matrix (Fin n) (Fin n) ℝ) (f : Fin p → Vec n) (x : Vec n) :
    residual A f x = (∑ r, f r) - (∑ r, A r) *ᵥ x := by
  rw [residual, sum_sub_distrib, sum_mulVec]

/-- The correction of a turn is a best one. -/
theorem best_of_least {m : ℕ} {U : ℕ → Vec n → Vec n} {q : Q n} (h : QInv m U m q) (hm0 : 0 < m)
    {A : Matrix (Fin n) (Fin n) ℝ} {f x : Vec n} {β : ℝ} (hr : f - A *ᵥ x = β • q.v 0) {W : ℕ → Vec n}
    (hW : ∀ j < m, A *ᵥ W j = U j (q.v j)) {y : Fin m → ℝ} (hy : qLeast m q β = some y) :
    Best A f x (Submodule.span ℝ (Set.range fun j : Fin m => W j)) (∑ j : Fin m, y j • W j) := by
  have hres : ∀ z : Fin m → ℝ, f - A *ᵥ (x + ∑ j : Fin m, z j • W j) = β • q.v 0 - ∑ b : Fin m, z b • U b (q.v b) := by
    intro z
    rw [mulVec_add, ← sub_sub, hr, mulVec_sum]
    congr 1
    refine sum_congr rfl fun j _ => ?_
    rw [mulVec_smul, hW j j.2]
  refine ⟨sum_mem fun j _ => Submodule.smul_mem _ _ (Submodule.subset_span ⟨j, rfl⟩), ?_⟩
  intro z hz
  obtain ⟨c, rfl⟩ := (Submodule.mem_span_range_iff_exists_fun ℝ).mp hz
  rw [size_eq, size_eq]
  refine norm2_le ?_
  rw [hres, hres, residual_small h hm0, residual_small h hm0]
  exact normal_best _ _ (normal_of_least hy) c

/-! ### GMRES -/

/-- What the stop criterion knows of the variables. -/
def G.head (s : G p n) : Head n × Unit := (⟨s.iter, s.B, s.x⟩, ())

/-- The new approximation of a turn of `gmres`. -/
noncomputable def gBody (A : Matrix (Fin n) (Fin n) ℝ) (f : Vec n) (m : ℕ) (_ : ℕ) (x : Vec n) (_ : Unit) :
    Option (Vec n × Unit) :=
  let VV := f - A *ᵥ x
  let beta := norm2 VV
  if m = 0 ∨ beta = 0 then none
  else
    (qArnoldi m (fun _ v => A *ᵥ v) ⟨fun _ => beta⁻¹ • VV, fun _ _ => 0⟩ m).bind fun q =>
      (qLeast m q beta).map fun ym => (x + ∑ j : Fin m, ym j • q.v j, ())

theorem pass_eq (A : Fin p → Matrix (Fin n) (Fin n) ℝ) (f : Fin p → Vec n) (atol : ℝ) (m : ℕ) (maxiter : Newton.MaxIter)
    {s : G p n} (h : HOK s.R) :
    (gmresPass A f atol m maxiter s).map (Sum.map G.head id) = gPass (∑ r, A r) (∑ r, f r) (gBody (∑ r, A r) (∑ r, f r) m) atol maxiter s.head.1 () ∧
      ∀ s', gmresPass A f atol m maxiter s = some (.inl s') → HOK s'.R := by
  have hres := residual_eq A f s.x
  unfold gmresPass gPass gBody
  simp only [hres, G.head]
  generalize judge _ _ _ _ _ = J
  rcases J with _ | ⟨J, _ | info⟩
  · simp
  · simp only
    by_cases h0 : m = 0 ∨ norm2 ((∑ r, f r) - (∑ r, A r) *ᵥ s.x) = 0
    · simp only [eq_true h0, ↓reduceIte]
      simp
    · simp only [eq_false h0, ↓reduceIte]
      push Not at h0
      have key := arnoldi_rel (S := Unit) (p := p) (m := m) (fun j _ R => some (fun r => A r *ᵥ own j R r, ()))
        (fun _ v => (∑ r, A r) *ᵥ v) (fun _ _ => True) (s := ()) trivial
        (start_rel (by omega) ((norm2 ((∑ r, f r) - (∑ r, A r) *ᵥ s.x))⁻¹ • ((∑ r, f r) - (∑ r, A r) *ᵥ s.x)) s.R h)
        (fun j hj s R q _ hR => ⟨_, (), rfl, trivial, by
          rw [sum_mulVec]
          exact sum_congr rfl fun r _ => by rw [own_eq hR hj]⟩) m le_rfl
      generalize arnoldi (p := p) m _ _ _ m = X at key ⊢
      generalize qArnoldi m _ _ m = Y at key ⊢
      cases key with
      | none => simp
      | some hk =>
        rename_i c q
        obtain ⟨_, hk⟩ := hk
        simp only [Option.bind_some, least_eq hk]
        cases hq : qLeast m q (norm2 ((∑ r, f r) - (∑ r, A r) *ᵥ s.x)) with
        | none => simp
        | some y =>
          constructor
          · simp only [Option.map_some, Sum.map_inl, G.head]
            congr 5
            refine sum_congr rfl fun j _ => ?_
            rw [hk.master j (by have := j.2; omega) j.2]
          · intro s' hs'
            simp only [Option.map_some, Option.some.injEq, Sum.inl.injEq] at hs'
            rw [← hs']
            exact hk.ok
  · simp only
    split_ifs <;> simp

theorem gmres_eq (A : Fin p → Matrix (Fin n) (Fin n) ℝ) (f : Fin p → Vec n) (x0 : Vec n) (atol : ℝ) (m : ℕ)
    (maxiter : Newton.MaxIter) (junk : Fin p → (ℕ → Vec n) × Vec n) (k : ℕ) :
    (gmres A f x0 atol m maxiter junk k).map (Sum.map G.head id) = gRun (∑ r, A r) (∑ r, f r) (gBody (∑ r, A r) (∑ r, f r) m) atol maxiter x0 () k ∧
      ∀ s, gmres A f x0 atol m maxiter junk k = some (.inl s) → HOK s.R := by
  induction k with
  | zero =>
    refine ⟨rfl, ?_⟩
    intro s hs
    simp only [gmres, Option.some.injEq, Sum.inl.injEq] at hs
    rw [← hs]
    intro r a b hab
    exact absurd rfl hab
  | succ k ih =>
    obtain ⟨h1, h2⟩ := ih
    unfold gmres gRun
    rw [← h1]
    cases hg : gmres A f x0 atol m maxiter junk k with
    | none => simp
    | some c =>
      rcases c with s | r
      · simp only [Option.bind_some, Option.map_some, Sum.map_inl]
        exact pass_eq A f atol m maxiter (h2 s hg)
      · simp

end Phyem.Krylov
