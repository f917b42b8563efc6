import Verif.Krylov.LSeq

/-!
# Iterative solvers: the directions of LGMRES
-/

namespace Phyem.Krylov

open Matrix Finset

variable {n : ℕ}

theorem lBody_some {A : Matrix (Fin n) (Fin n) ℝ} {f : Vec n} {inner outer i : ℕ} {x : Vec n} {Z : ℕ → Option (Vec n)}
    {c : Vec n × (ℕ → Option (Vec n))} (h : lBody A f inner outer i x Z = some c) :
    0 < inner + outer ∧ norm2 (f - A *ᵥ x) ≠ 0 ∧ ∃ q y,
      QInv (inner + outer) (lU A (lM inner outer i) i Z) (inner + outer) q ∧
        f - A *ᵥ x = norm2 (f - A *ᵥ x) • q.v 0 ∧ qLeast (inner + outer) q (norm2 (f - A *ᵥ x)) = some y ∧
        c.1 = x + ∑ j : Fin (inner + outer), y j • lW (lM inner outer i) i Z q.v j ∧ c.2 = lZ outer i Z (c.1 - x) := by
  unfold lBody at h
  simp only at h
  split_ifs at h with h0
  push Not at h0
  obtain ⟨q, h1, h2⟩ := Option.bind_eq_some_iff.mp h
  obtain ⟨y, h3, rfl⟩ := Option.map_eq_some_iff.mp h2
  obtain ⟨hq, hv⟩ := arnoldi_inv (unit_vector h0.2) (inner + outer) le_rfl h1
  exact ⟨by omega, h0.2, q, y, hq, by rw [hv]; exact scaled h0.2, h3, rfl, by rw [add_sub_cancel_left]⟩

/-- The space of the corrections of a turn. -/
theorem lBody_best {A : Matrix (Fin n) (Fin n) ℝ} {f : Vec n} {inner outer i : ℕ} {x : Vec n} {Z : ℕ → Option (Vec n)}
    {c : Vec n × (ℕ → Option (Vec n))} (h : lBody A f inner outer i x Z = some c) :
    Best A f x (krylov A (f - A *ᵥ x) (inner + outer - min i outer) ⊔
      Submodule.span ℝ {d | ∃ t, t < i ∧ i ≤ t + outer ∧ d = old Z t}) (c.1 - x) := by
  obtain ⟨hm0, hr, q, y, hq, hv, hy, hc, -⟩ := lBody_some h
  have hMK := lK_lM inner outer i
  have hm : lM inner outer i = inner + outer - min i outer := by
    unfold lM
    split_ifs <;> omega
  have hk : lK outer i = min i outer := by
    unfold lK
    split_ifs <;> omega
  rw [hc, add_sub_cancel_left, ← hm,
    ← spanV_krylov hq hr hv (lM inner outer i) (by omega) (by omega) (fun b hb v => by unfold lU; rw [if_pos (by omega)])]
  have := best_of_least hq hm0 hv (W := lW (lM inner outer i) i Z q.v) (fun j hj => by
    unfold lW lU
    split_ifs <;> rfl) hy
  convert this using 1
  refine le_antisymm (sup_le (Submodule.span_le.mpr ?_) (Submodule.span_le.mpr ?_)) (Submodule.span_le.mpr ?_)
  · rintro _ ⟨a, rfl⟩
    refine Submodule.subset_span ⟨⟨a, by omega⟩, ?_⟩
    simp only [lW]
    rw [if_pos a.2]
  · rintro _ ⟨t, h1, h2, rfl⟩
    refine Submodule.subset_span ⟨⟨lM inner outer i + (i - 1 - t), by omega⟩, ?_⟩
    simp only [lW]
    rw [if_neg (by omega)]
    congr 1
    omega
  · rintro _ ⟨a, rfl⟩
    have ha := a.2
    simp only [lW]
    split_ifs with hlt
    · exact Submodule.mem_sup_left (mem_spanV hlt)
    · exact Submodule.mem_sup_right (Submodule.subset_span ⟨_, by omega, by omega, rfl⟩)

theorem lBody_le {A : Matrix (Fin n) (Fin n) ℝ} {f : Vec n} {inner outer i : ℕ} {x : Vec n} {Z : ℕ → Option (Vec n)}
    {c : Vec n × (ℕ → Option (Vec n))} (h : lBody A f inner outer i x Z = some c) : size A f c.1 ≤ size A f x :=
  best_le (lBody_best h)

/-- The old corrections are those of the run. -/
theorem run_old {A : Matrix (Fin n) (Fin n) ℝ} {f : Vec n} {inner outer : ℕ} {atol : ℝ} {maxiter : Newton.MaxIter}
    {x0 : Vec n} {z0 : ℕ → Option (Vec n)} : ∀ i s, gRun A f (lBody A f inner outer) atol maxiter x0 z0 i = some (.inl s) →
      ∀ t, t < i → i ≤ t + outer → ∃ a b, gRun A f (lBody A f inner outer) atol maxiter x0 z0 t = some (.inl a) ∧
        gRun A f (lBody A f inner outer) atol maxiter x0 z0 (t + 1) = some (.inl b) ∧ old s.2 t = b.1.x - a.1.x
  | 0, _, _ => fun t h => by omega
  | i + 1, s, hs => by
    intro t h1 h2
    obtain ⟨a, ha, hp⟩ := run_inl hs
    have hit := (run_known i a ha).1
    obtain ⟨J, _, c, hc, he⟩ := pass_inl hp
    obtain ⟨-, -, q, y, -, -, -, -, hz⟩ := lBody_some hc
    have hz' : s.2 = lZ outer i a.2 (s.1.x - a.1.x) := by
      rw [he]
      simp only
      rw [hz, hit]
    by_cases hti : t = i
    · subst hti
      refine ⟨a, s, ha, hs, ?_⟩
      rw [hz']
      unfold old lZ
      rw [Function.update_self]
      rfl
    · obtain ⟨a', b', h3, h4, h5⟩ := run_old i a ha t (by omega) (by omega)
      refine ⟨a', b', h3, h4, ?_⟩
      rw [← h5, hz']
      unfold old lZ
      rw [Function.update_of_ne hti]
      split_ifs
      · rw [Function.update_of_ne (by omega)]
      · rfl

/-! ### Where both solvers do the same -/

theorem qArnoldi_congr {m : ℕ} {U U' : ℕ → Vec n → Vec n} (h : ∀ j < m, ∀ v, U j v = U' j v) (q : Q n) :
    ∀ j ≤ m, qArnoldi m U q j = qArnoldi m U' q j
  | 0, _ => rfl
  | j + 1, hj => by
    unfold qArnoldi
    rw [qArnoldi_congr h q j (by omega)]
    congr 1
    funext q'
    rw [h j (by omega)]

theorem lBody_gBody (A : Matrix (Fin n) (Fin n) ℝ) (f : Vec n) {inner outer i : ℕ} (h : i = 0 ∨ outer = 0) (x : Vec n)
    (Z : ℕ → Option (Vec n)) :
    (lBody A f inner outer i x Z).map Prod.fst = (gBody A f (inner + outer) i x ()).map Prod.fst := by
  have hm : lM inner outer i = inner + outer := by
    unfold lM
    split_ifs <;> omega
  unfold lBody gBody
  simp only [hm]
  split_ifs with h0
  · rfl
  · rw [qArnoldi_congr (U' := fun _ v => A *ᵥ v) (fun j hj v => by unfold lU; rw [if_pos hj]) _ _ le_rfl]
    cases qArnoldi (inner + outer) (fun _ v => A *ᵥ v) _ (inner + outer) with
    | none => rfl
    | some q =>
      simp only [Option.bind_some]
      cases qLeast (inner + outer) q _ with
      | none => rfl
      | some y =>
        simp only [Option.map_some, Option.some.injEq]
        congr 1
        refine sum_congr rfl fun j _ => ?_
        unfold lW
        rw [if_pos j.2]

/-- Only the head matters for what a user sees. -/
theorem run_same {σ τ : Type} {A : Matrix (Fin n) (Fin n) ℝ} {f : Vec n} {b1 : ℕ → Vec n → σ → Option (Vec n × σ)}
    {b2 : ℕ → Vec n → τ → Option (Vec n × τ)} {atol : ℝ} {maxiter : Newton.MaxIter} {x0 : Vec n} {z1 : σ} {z2 : τ} (N : ℕ)
    (h : ∀ i < N, ∀ x z w, (b1 i x z).map Prod.fst = (b2 i x w).map Prod.fst) : ∀ k ≤ N,
    (gRun A f b1 atol maxiter x0 z1 k).map (Sum.map Prod.fst id) = (gRun A f b2 atol maxiter x0 z2 k).map (Sum.map Prod.fst id)
  | 0, _ => rfl
  | k + 1, hk => by
    have ih := run_same (A := A) (f := f) (atol := atol) (maxiter := maxiter) (x0 := x0) (z1 := z1) (z2 := z2) N h k (by omega)
    have hit := run_known (A := A) (f := f) (body := b1) (atol := atol) (maxiter := maxiter) (x0 := x0) (z0 := z1) k
    unfold gRun
    generalize gRun A f b1 atol maxiter x0 z1 k = o1 at ih hit ⊢
    generalize gRun A f b2 atol maxiter x0 z2 k = o2 at ih ⊢
    rcases o1 with _ | ⟨s | r⟩ <;> rcases o2 with _ | ⟨t | u⟩ <;>
      simp only [Option.map_none, Option.map_some, Sum.map_inl, Sum.map_inr, reduceCtorEq, Option.some.injEq,
        Sum.inl.injEq, Sum.inr.injEq, id] at ih
    · rfl
    · simp only [Option.bind_some]
      unfold gPass
      rw [← ih]
      simp only
      generalize judge _ _ _ _ _ = J
      rcases J with _ | ⟨J, _ | info⟩
      · rfl
      · simp only
        have := h s.1.iter (by rw [(hit s rfl).1]; omega) s.1.x s.2 t.2
        generalize b1 s.1.iter s.1.x s.2 = p1 at this ⊢
        generalize b2 s.1.iter s.1.x t.2 = p2 at this ⊢
        rcases p1 with _ | p1 <;> rcases p2 with _ | p2 <;>
          simp only [Option.map_none, Option.map_some, reduceCtorEq, Option.some.injEq] at this
        · rfl
        · simp [this]
      · simp only
        split_ifs <;> rfl
    · simp [ih]

end Phyem.Krylov
