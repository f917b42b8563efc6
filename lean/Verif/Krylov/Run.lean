import Verif.Krylov.Math

/-!
# Iterative solvers: the outer loop
-/

namespace Phyem.Krylov

open Matrix Finset

variable {n : ℕ}

/-- What the stop criterion needs to know: the number of turns, the old residuals and the approximation. -/
structure Head (n : ℕ) where
  iter : ℕ
  B : List ℝ
  x : Vec n

/-- One turn of an outer loop of which `body` computes the new approximation. -/
noncomputable def gPass {σ : Type} (A : Matrix (Fin n) (Fin n) ℝ) (f : Vec n) (body : ℕ → Vec n → σ → Option (Vec n × σ))
    (atol : ℝ) (maxiter : Newton.MaxIter) (s : Head n) (z : σ) : Option ((Head n × σ) ⊕ Res n) :=
  let beta := norm2 (f - A *ᵥ s.x)
  let B := history beta s.B
  match judge (B.headD 0) beta atol s.iter maxiter with
  | none => none
  | some (J, some info) => if info < 0 then none else some (.inr ⟨s.x, s.iter, J, info, beta⟩)
  | some (_, none) => (body s.iter s.x z).map fun c => .inl (⟨s.iter + 1, beta :: B, c.1⟩, c.2)

/-- The outer loop. -/
noncomputable def gRun {σ : Type} (A : Matrix (Fin n) (Fin n) ℝ) (f : Vec n) (body : ℕ → Vec n → σ → Option (Vec n × σ))
    (atol : ℝ) (maxiter : Newton.MaxIter) (x0 : Vec n) (z0 : σ) : ℕ → Option ((Head n × σ) ⊕ Res n)
  | 0 => some (.inl (⟨0, [], x0⟩, z0))
  | k + 1 =>
    (gRun A f body atol maxiter x0 z0 k).bind fun
      | .inr res => some (.inr res)
      | .inl s => gPass A f body atol maxiter s.1 s.2

section

variable {σ : Type} {A : Matrix (Fin n) (Fin n) ℝ} {f : Vec n} {body : ℕ → Vec n → σ → Option (Vec n × σ)}
  {atol : ℝ} {maxiter : Newton.MaxIter} {x0 : Vec n} {z0 : σ}

theorem run_inl {k : ℕ} {s' : Head n × σ} (h : gRun A f body atol maxiter x0 z0 (k + 1) = some (.inl s')) :
    ∃ s, gRun A f body atol maxiter x0 z0 k = some (.inl s) ∧ gPass A f body atol maxiter s.1 s.2 = some (.inl s') := by
  unfold gRun at h
  obtain ⟨c, h1, h2⟩ := Option.bind_eq_some_iff.mp h
  rcases c with s | r
  · exact ⟨s, h1, h2⟩
  · simp at h2

theorem pass_inl {s : Head n} {z : σ} {s' : Head n × σ} (h : gPass A f body atol maxiter s z = some (.inl s')) :
    ∃ J, judge ((history (size A f s.x) s.B).headD 0) (size A f s.x) atol s.iter maxiter = some (J, none) ∧
      ∃ c, body s.iter s.x z = some c ∧
        s' = (⟨s.iter + 1, size A f s.x :: history (size A f s.x) s.B, c.1⟩, c.2) := by
  unfold gPass at h
  rw [size_eq]
  simp only at h
  generalize judge _ _ _ _ _ = o at h ⊢
  rcases o with _ | ⟨J, _ | info⟩
  · simp at h
  · obtain ⟨c, h1, h2⟩ := Option.map_eq_some_iff.mp h
    exact ⟨J, rfl, c, h1, (Sum.inl.inj h2).symm⟩
  · simp only at h
    split_ifs at h
    simp at h

theorem pass_inr {s : Head n} {z : σ} {r : Res n} (h : gPass A f body atol maxiter s z = some (.inr r)) :
    ∃ J info, judge ((history (size A f s.x) s.B).headD 0) (size A f s.x) atol s.iter maxiter = some (J, some info) ∧
      0 ≤ info ∧ r = ⟨s.x, s.iter, J, info, size A f s.x⟩ := by
  unfold gPass at h
  rw [size_eq]
  simp only at h
  generalize judge _ _ _ _ _ = o at h ⊢
  rcases o with _ | ⟨J, _ | info⟩
  · simp at h
  · obtain ⟨c, h1, h2⟩ := Option.map_eq_some_iff.mp h
    cases h2
  · simp only at h
    split_ifs at h with h0
    exact ⟨J, info, rfl, not_lt.mp h0, (Sum.inr.inj (Option.some.inj h)).symm⟩

theorem history_head (b : ℝ) (B : List ℝ) : (history b B).headD 0 = B.headD b := by
  unfold history
  rcases B with _ | ⟨c, B⟩
  · simp
  · simp only [reduceCtorEq, ↓reduceIte]
    split_ifs
    · simp
    · simp

/-- What the loop knows after `k` turns. -/
theorem run_known : ∀ k (s : Head n × σ), gRun A f body atol maxiter x0 z0 k = some (.inl s) →
    s.1.iter = k ∧ (k = 0 → s.1.B = [] ∧ s.1.x = x0) ∧
      ∀ l, k = l + 1 → ∃ t : Head n × σ, gRun A f body atol maxiter x0 z0 l = some (.inl t) ∧
        s.1.B.headD 0 = size A f t.1.x ∧ s.1.B ≠ []
  | 0, s, h => by
    have := Sum.inl.inj (Option.some.inj h)
    subst this
    exact ⟨rfl, fun _ => ⟨rfl, rfl⟩, fun l hl => by omega⟩
  | k + 1, s, h => by
    obtain ⟨t, h1, h2⟩ := run_inl h
    obtain ⟨J, _, c, _, rfl⟩ := pass_inl h2
    have ih := run_known k t h1
    refine ⟨by simp [ih.1], fun h => by omega, ?_⟩
    intro l hl
    obtain rfl : l = k := by omega
    exact ⟨t, h1, rfl, by simp⟩

/-- The results come from some turn. -/
theorem run_inr : ∀ k (r : Res n), gRun A f body atol maxiter x0 z0 k = some (.inr r) →
    ∃ l < k, ∃ s, gRun A f body atol maxiter x0 z0 l = some (.inl s) ∧ gPass A f body atol maxiter s.1 s.2 = some (.inr r)
  | 0, r, h => by
    cases Option.some.inj h
  | k + 1, r, h => by
    unfold gRun at h
    obtain ⟨c, h1, h2⟩ := Option.bind_eq_some_iff.mp h
    rcases c with s | r'
    · exact ⟨k, by omega, s, h1, h2⟩
    · obtain rfl := Sum.inr.inj (Option.some.inj h2)
      obtain ⟨l, hl, h3⟩ := run_inr k r' h1
      exact ⟨l, by omega, h3⟩

/-- The loop stops at the latest in the turn after the last allowed one. -/
theorem run_stops {N : ℕ} (hN : maxiter = .int N ∨ maxiter = .forced N) (s : Head n × σ) :
    gRun A f body atol maxiter x0 z0 (N + 1) ≠ some (.inl s) := by
  intro h
  obtain ⟨t, h1, h2⟩ := run_inl h
  have hit := (run_known N t h1).1
  obtain ⟨J, hJ, _⟩ := pass_inl h2
  rw [hit] at hJ
  rcases hN with rfl | rfl
  · unfold judge at hJ
    split_ifs at hJ <;> simp_all
  · unfold judge at hJ
    simp at hJ

/-- The truth about a result, for a whole number as limit. -/
theorem run_true {N : ℕ} (hN : maxiter = .int N) {k : ℕ} {r : Res n}
    (h : gRun A f body atol maxiter x0 z0 k = some (.inr r)) :
    r.beta = size A f r.x ∧ r.iter < k ∧
      (∃ s, gRun A f body atol maxiter x0 z0 r.iter = some (.inl s) ∧ s.1.x = r.x) ∧
      ((r.judge = 1 ∧ r.info = 0 ∧ size A f r.x < atol) ∨
        (r.judge = 2 ∧ r.info = r.iter ∧ r.iter = N ∧ atol ≤ size A f r.x) ∨
        (r.judge = 4 ∧ r.info = r.iter ∧ r.iter < N ∧ atol ≤ size A f r.x ∧
          ∃ l s, r.iter = l + 1 ∧ gRun A f body atol maxiter x0 z0 l = some (.inl s) ∧ size A f r.x < size A f s.1.x ∧
            (size A f s.1.x - size A f r.x) / size A f s.1.x < 1e-6)) := by
  obtain ⟨l, hl, s, h1, h2⟩ := run_inr k r h
  obtain ⟨J, info, hJ, hpos, rfl⟩ := pass_inr h2
  have hk := run_known l s h1
  obtain ⟨hit, hzero, hprev⟩ := hk
  refine ⟨rfl, by simpa [hit] using hl, ⟨s, by simpa [hit] using h1, rfl⟩, ?_⟩
  rw [history_head] at hJ
  subst hN
  have hle : l ≤ N := by
    rcases l with _ | l
    · omega
    · by_contra hlt
      have := run_stops (A := A) (f := f) (body := body) (atol := atol) (x0 := x0) (z0 := z0) (N := N) (Or.inl rfl)
      have hall : ∀ d, ∀ t, gRun A f body atol (.int N) x0 z0 (N + 1 + d) ≠ some (.inl t) := by
        intro d
        induction d with
        | zero => exact this
        | succ d ih =>
          intro t ht
          obtain ⟨u, hu, _⟩ := run_inl (k := N + 1 + d) ht
          exact ih u hu
      exact hall (l - N) s (by rw [show N + 1 + (l - N) = l + 1 by omega]; exact h1)
  unfold judge at hJ
  simp only [hit] at hJ ⊢
  split_ifs at hJ with c1 c2 c3 c4
  · simp only [Option.some.injEq, Prod.mk.injEq] at hJ
    exact Or.inl ⟨hJ.1.symm, hJ.2.symm, c1⟩
  · simp only [Option.some.injEq, Prod.mk.injEq] at hJ
    exact Or.inr (Or.inl ⟨hJ.1.symm, hJ.2.symm, by omega, not_lt.mp c1⟩)
  · simp only [Option.some.injEq, Prod.mk.injEq] at hJ
    omega
  · simp only [Option.some.injEq, Prod.mk.injEq] at hJ
    refine Or.inr (Or.inr ⟨hJ.1.symm, hJ.2.symm, by omega, not_lt.mp c1, ?_⟩)
    rcases l with _ | l
    · rw [(hzero rfl).1] at c4
      exact absurd c4.1 (lt_irrefl _)
    · obtain ⟨t, ht, hB, hne⟩ := hprev l rfl
      have hB' : s.1.B.headD (size A f s.1.x) = size A f t.1.x := by
        rcases hs : s.1.B with _ | ⟨c, B⟩
        · exact absurd hs hne
        · rw [hs] at hB
          exact hB
      rw [hB'] at c4
      exact ⟨l, t, rfl, ht, c4.1, c4.2⟩
  · simp at hJ

/-- The truth about a result, for a forced limit. -/
theorem run_forced {N : ℕ} (hN : maxiter = .forced N) {k : ℕ} {r : Res n}
    (h : gRun A f body atol maxiter x0 z0 k = some (.inr r)) :
    r.beta = size A f r.x ∧ r.judge = 2 ∧ r.info = N ∧ r.iter = N := by
  obtain ⟨l, hl, s, h1, h2⟩ := run_inr k r h
  obtain ⟨J, info, hJ, hpos, rfl⟩ := pass_inr h2
  obtain ⟨hit, hzero, hprev⟩ := run_known l s h1
  subst hN
  have hle : l ≤ N := by
    by_contra hlt
    have := run_stops (A := A) (f := f) (body := body) (atol := atol) (x0 := x0) (z0 := z0) (N := N) (Or.inr rfl)
    have hall : ∀ d, ∀ t, gRun A f body atol (.forced N) x0 z0 (N + 1 + d) ≠ some (.inl t) := by
      intro d
      induction d with
      | zero => exact this
      | succ d ih =>
        intro t ht
        obtain ⟨u, hu, _⟩ := run_inl (k := N + 1 + d) ht
        exact ih u hu
    exact hall (l - N - 1) s (by rw [show N + 1 + (l - N - 1) = l by omega]; exact h1)
  unfold judge at hJ
  simp only [hit] at hJ ⊢
  split_ifs at hJ with c1
  · simp only [Option.some.injEq, Prod.mk.injEq] at hJ
    refine ⟨trivial, hJ.1.symm, ?_, by omega⟩
    rw [← hJ.2]
    congr 1
    omega
  · simp at hJ

/-- If no turn makes the residual longer, it never gets longer. -/
theorem run_decreases (hb : ∀ i x z c, body i x z = some c → size A f c.1 ≤ size A f x) {k : ℕ} {s : Head n × σ}
    (hs : gRun A f body atol maxiter x0 z0 k = some (.inl s)) (d : ℕ) :
    (∀ s' : Head n × σ, gRun A f body atol maxiter x0 z0 (k + d) = some (.inl s') → size A f s'.1.x ≤ size A f s.1.x) ∧
      ∀ r, gRun A f body atol maxiter x0 z0 (k + d) = some (.inr r) → size A f r.x ≤ size A f s.1.x := by
  induction d with
  | zero =>
    constructor
    · intro s' hs'
      rw [Nat.add_zero, hs] at hs'
      obtain rfl := Sum.inl.inj (Option.some.inj hs')
      exact le_rfl
    · intro r hr
      rw [Nat.add_zero, hs] at hr
      cases Option.some.inj hr
  | succ d ih =>
    constructor
    · intro s' hs'
      obtain ⟨t, h1, h2⟩ := run_inl (k := k + d) hs'
      obtain ⟨J, _, c, hc, rfl⟩ := pass_inl h2
      exact (hb _ _ _ _ hc).trans (ih.1 t h1)
    · intro r hr
      change gRun A f body atol maxiter x0 z0 (k + d + 1) = some (.inr r) at hr
      unfold gRun at hr
      obtain ⟨c, h1, h2⟩ := Option.bind_eq_some_iff.mp hr
      rcases c with t | r'
      · obtain ⟨J, info, _, _, rfl⟩ := pass_inr h2
        exact ih.1 t h1
      · obtain rfl := Sum.inr.inj (Option.some.inj h2)
        exact ih.2 r' h1

/-- A turn fails only in the computation of the new approximation. -/
theorem pass_none (hb : ∀ i x z c, body i x z = some c → size A f c.1 ≤ size A f x) {k : ℕ} {s : Head n × σ}
    (hs : gRun A f body atol maxiter x0 z0 k = some (.inl s)) {N : ℕ} (hN : maxiter = .int N ∨ maxiter = .forced N)
    (h : ∀ r, gRun A f body atol maxiter x0 z0 (k + 1) ≠ some (.inr r)) :
    gRun A f body atol maxiter x0 z0 (k + 1) = none ↔ body s.1.iter s.1.x s.2 = none := by
  have hpos : ∀ J info, judge ((history (size A f s.1.x) s.1.B).headD 0) (size A f s.1.x) atol s.1.iter maxiter =
      some (J, some info) → 0 ≤ info := by
    intro J info hJ
    rw [history_head] at hJ
    have hmono : s.1.B.headD (size A f s.1.x) < size A f s.1.x → False := by
      obtain ⟨_, hzero, hprev⟩ := run_known k s hs
      rcases k with _ | k
      · rw [(hzero rfl).1]
        exact lt_irrefl _
      · obtain ⟨t, ht, hB, hne⟩ := hprev k rfl
        have hB' : s.1.B.headD (size A f s.1.x) = size A f t.1.x := by
          rcases hs : s.1.B with _ | ⟨c, B⟩
          · exact absurd hs hne
          · rw [hs] at hB
            exact hB
        rw [hB']
        exact not_lt.mpr ((run_decreases hb ht 1).1 s hs)
    unfold judge at hJ
    rcases hN with rfl | rfl
    · simp only at hJ
      split_ifs at hJ with c1 c2 c3 c4
      · simp only [Option.some.injEq, Prod.mk.injEq] at hJ
        omega
      · simp only [Option.some.injEq, Prod.mk.injEq] at hJ
        omega
      · exact (hmono c3.1).elim
      · simp only [Option.some.injEq, Prod.mk.injEq] at hJ
        omega
      · simp at hJ
    · simp only at hJ
      split_ifs at hJ
      · simp only [Option.some.injEq, Prod.mk.injEq] at hJ
        omega
      · simp at hJ
  have hsome : judge ((history (size A f s.1.x) s.1.B).headD 0) (size A f s.1.x) atol s.1.iter maxiter ≠ none := by
    unfold judge
    rcases hN with rfl | rfl
    · simp only
      split_ifs <;> simp
    · simp only
      split_ifs <;> simp
  have e : gRun A f body atol maxiter x0 z0 (k + 1) = gPass A f body atol maxiter s.1 s.2 := by
    conv_lhs => unfold gRun
    rw [hs]
    rfl
  rw [e] at h ⊢
  unfold gPass at h ⊢
  simp only [← size_eq] at h ⊢
  generalize judge _ _ _ _ _ = o at h hpos hsome ⊢
  rcases o with _ | ⟨J, _ | info⟩
  · exact absurd rfl hsome
  · simp
  · have := hpos J info rfl
    simp only at h
    rw [if_neg (by omega)] at h
    exact absurd rfl (h _)

end

end Phyem.Krylov
