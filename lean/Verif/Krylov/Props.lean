import Verif.Krylov.LBody

/-!
# Iterative solvers: what a user relies on

`A r` and `f r` are the parts of the matrix and of the right hand side that the process `r` holds; the system is
`(∑ r, A r) x = ∑ r, f r`.
-/

namespace Phyem.Krylov

open Matrix Finset

variable {p n : ℕ} [NeZero p] (A : Fin p → Matrix (Fin n) (Fin n) ℝ) (f : Fin p → Vec n) (x0 : Vec n) (atol : ℝ)
  (maxiter : Newton.MaxIter) (junk : Fin p → (ℕ → Vec n) × Vec n)

section link

variable {A f x0 atol maxiter junk}

theorem g_inl {m k : ℕ} {s : G p n} (h : gmres A f x0 atol m maxiter junk k = some (.inl s)) :
    gRun (∑ r, A r) (∑ r, f r) (gBody (∑ r, A r) (∑ r, f r) m) atol maxiter x0 () k = some (.inl s.head) := by
  rw [← (gmres_eq A f x0 atol m maxiter junk k).1, h]
  rfl

theorem g_inr {m k : ℕ} {r : Res n} (h : gmres A f x0 atol m maxiter junk k = some (.inr r)) :
    gRun (∑ r, A r) (∑ r, f r) (gBody (∑ r, A r) (∑ r, f r) m) atol maxiter x0 () k = some (.inr r) := by
  rw [← (gmres_eq A f x0 atol m maxiter junk k).1, h]
  rfl

theorem g_back {m k : ℕ} {t : Head n × Unit}
    (h : gRun (∑ r, A r) (∑ r, f r) (gBody (∑ r, A r) (∑ r, f r) m) atol maxiter x0 () k = some (.inl t)) :
    ∃ s, gmres A f x0 atol m maxiter junk k = some (.inl s) ∧ s.head = t := by
  rw [← (gmres_eq A f x0 atol m maxiter junk k).1] at h
  rcases hg : gmres A f x0 atol m maxiter junk k with _ | ⟨s | r⟩ <;> rw [hg] at h <;> simp at h
  exact ⟨s, rfl, h⟩

theorem g_back_r {m k : ℕ} {r : Res n}
    (h : gRun (∑ r, A r) (∑ r, f r) (gBody (∑ r, A r) (∑ r, f r) m) atol maxiter x0 () k = some (.inr r)) :
    gmres A f x0 atol m maxiter junk k = some (.inr r) := by
  rw [← (gmres_eq A f x0 atol m maxiter junk k).1] at h
  rcases hg : gmres A f x0 atol m maxiter junk k with _ | ⟨s | r'⟩ <;> rw [hg] at h <;> simp at h
  rw [h]

theorem g_none {m k : ℕ} : gmres A f x0 atol m maxiter junk k = none ↔
    gRun (∑ r, A r) (∑ r, f r) (gBody (∑ r, A r) (∑ r, f r) m) atol maxiter x0 () k = none := by
  rw [← (gmres_eq A f x0 atol m maxiter junk k).1, Option.map_eq_none_iff]

theorem l_inl {inner outer k : ℕ} {s : L p n} (h : lgmres A f x0 atol inner outer maxiter junk k = some (.inl s)) :
    gRun (∑ r, A r) (∑ r, f r) (lBody (∑ r, A r) (∑ r, f r) inner outer) atol maxiter x0 (fun _ => none) k =
      some (.inl s.head) := by
  rw [← (lgmres_eq A f x0 atol inner outer maxiter junk k).1, h]
  rfl

theorem l_inr {inner outer k : ℕ} {r : Res n} (h : lgmres A f x0 atol inner outer maxiter junk k = some (.inr r)) :
    gRun (∑ r, A r) (∑ r, f r) (lBody (∑ r, A r) (∑ r, f r) inner outer) atol maxiter x0 (fun _ => none) k =
      some (.inr r) := by
  rw [← (lgmres_eq A f x0 atol inner outer maxiter junk k).1, h]
  rfl

theorem l_back {inner outer k : ℕ} {t : Head n × (ℕ → Option (Vec n))}
    (h : gRun (∑ r, A r) (∑ r, f r) (lBody (∑ r, A r) (∑ r, f r) inner outer) atol maxiter x0 (fun _ => none) k =
      some (.inl t)) : ∃ s, lgmres A f x0 atol inner outer maxiter junk k = some (.inl s) ∧ s.head = t := by
  rw [← (lgmres_eq A f x0 atol inner outer maxiter junk k).1] at h
  rcases hg : lgmres A f x0 atol inner outer maxiter junk k with _ | ⟨s | r⟩ <;> rw [hg] at h <;> simp at h
  exact ⟨s, rfl, h⟩

end link

/-! ### GMRES -/

/-- **Best corrections.**  A turn of `gmres` adds the best correction in the Krylov space of the residual: no combination of
`r, A r, ..., A^(restart-1) r` leaves a smaller residual. -/
theorem gmres_best {m k : ℕ} {s s' : G p n} (h : gmres A f x0 atol m maxiter junk k = some (.inl s))
    (h' : gmres A f x0 atol m maxiter junk (k + 1) = some (.inl s')) :
    Best (∑ r, A r) (∑ r, f r) s.x (krylov (∑ r, A r) ((∑ r, f r) - (∑ r, A r) *ᵥ s.x) m) (s'.x - s.x) := by
  obtain ⟨t, h1, h2⟩ := run_inl (g_inl h')
  rw [g_inl h] at h1
  obtain rfl := Sum.inl.inj (Option.some.inj h1)
  obtain ⟨J, _, c, hc, he⟩ := pass_inl h2
  have : s'.x = c.1 := congrArg (fun t => t.1.x) he
  rw [this]
  exact gBody_best hc

/-- The residuals never get longer, from turn to turn and up to the result. -/
theorem gmres_residuals {m k d : ℕ} {s : G p n} (h : gmres A f x0 atol m maxiter junk k = some (.inl s)) :
    (∀ s', gmres A f x0 atol m maxiter junk (k + d) = some (.inl s') →
      size (∑ r, A r) (∑ r, f r) s'.x ≤ size (∑ r, A r) (∑ r, f r) s.x) ∧
    ∀ r, gmres A f x0 atol m maxiter junk (k + d) = some (.inr r) →
      size (∑ r, A r) (∑ r, f r) r.x ≤ size (∑ r, A r) (∑ r, f r) s.x := by
  have key := run_decreases (fun i x z c hc => gBody_le hc) (g_inl h) d
  exact ⟨fun s' hs' => key.1 s'.head (g_inl hs'), fun r hr => key.2 r (g_inr hr)⟩

/-- **What a result means**, `maxiter = N` a whole number: the residual of the message is that of the returned vector, and `gmres` has
stopped because it is below the tolerance (`info = 0`), because `N` turns are over (`info = N`), or because the last turn has
reduced it by less than a millionth (`info` the number of turns); in the last two cases it is not below the tolerance. -/
theorem gmres_result {N m k : ℕ} {r : Res n} (h : gmres A f x0 atol m (.int N) junk k = some (.inr r)) :
    r.beta = size (∑ r, A r) (∑ r, f r) r.x ∧ r.iter < k ∧
      (∃ s, gmres A f x0 atol m (.int N) junk r.iter = some (.inl s) ∧ s.x = r.x) ∧
      ((r.judge = 1 ∧ r.info = 0 ∧ size (∑ r, A r) (∑ r, f r) r.x < atol) ∨
        (r.judge = 2 ∧ r.info = r.iter ∧ r.iter = N ∧ atol ≤ size (∑ r, A r) (∑ r, f r) r.x) ∨
        (r.judge = 4 ∧ r.info = r.iter ∧ r.iter < N ∧ atol ≤ size (∑ r, A r) (∑ r, f r) r.x ∧
          ∃ l s, r.iter = l + 1 ∧ gmres A f x0 atol m (.int N) junk l = some (.inl s) ∧
            size (∑ r, A r) (∑ r, f r) r.x < size (∑ r, A r) (∑ r, f r) s.x ∧
            (size (∑ r, A r) (∑ r, f r) s.x - size (∑ r, A r) (∑ r, f r) r.x) / size (∑ r, A r) (∑ r, f r) s.x < 1e-6)) := by
  obtain ⟨h1, h2, ⟨t, ht, hx⟩, h3⟩ := run_true rfl (g_inr h)
  obtain ⟨s, hs, rfl⟩ := g_back (junk := junk) ht
  refine ⟨h1, h2, ⟨s, hs, hx⟩, ?_⟩
  rcases h3 with h3 | h3 | ⟨a1, a2, a3, a4, l, t, a5, a6, a7⟩
  · exact Or.inl h3
  · exact Or.inr (Or.inl h3)
  · obtain ⟨u, hu, rfl⟩ := g_back (junk := junk) a6
    exact Or.inr (Or.inr ⟨a1, a2, a3, a4, l, u, a5, hu, a7⟩)

/-- `info = 0` is a promise, if at least one turn is allowed. -/
theorem gmres_converged {N m k : ℕ} (hN : 0 < N) {r : Res n} (h : gmres A f x0 atol m (.int N) junk k = some (.inr r)) :
    r.info = 0 ↔ size (∑ r, A r) (∑ r, f r) r.x < atol := by
  obtain ⟨-, -, -, h3⟩ := gmres_result A f x0 atol junk h
  constructor
  · intro h0
    rcases h3 with h3 | h3 | ⟨a1, a2, a3, a4, l, s, a5, -⟩
    · exact h3.2.2
    · omega
    · omega
  · intro h0
    rcases h3 with h3 | h3 | h3
    · exact h3.2.1
    · exact absurd h0 (not_lt.mpr h3.2.2.2)
    · exact absurd h0 (not_lt.mpr h3.2.2.2.1)

/-- A forced number of turns (a string) is kept. -/
theorem gmres_forced {N m k : ℕ} {r : Res n} (h : gmres A f x0 atol m (.forced N) junk k = some (.inr r)) :
    r.beta = size (∑ r, A r) (∑ r, f r) r.x ∧ r.judge = 2 ∧ r.info = N ∧ r.iter = N := run_forced rfl (g_inr h)

/-- `gmres` always stops, after `N` turns at the latest. -/
theorem gmres_stops {N m : ℕ} (hN : maxiter = .int N ∨ maxiter = .forced N) (s : G p n) :
    gmres A f x0 atol m maxiter junk (N + 1) ≠ some (.inl s) := fun h => run_stops hN _ (g_inl h)

/-- **Same result for any distribution**: the number of processes, the distribution of the system over them and what is in
the memory before do not matter. -/
theorem gmres_distribution {q : ℕ} [NeZero q] (A' : Fin q → Matrix (Fin n) (Fin n) ℝ) (f' : Fin q → Vec n)
    (junk' : Fin q → (ℕ → Vec n) × Vec n) (hA : ∑ r, A r = ∑ r, A' r) (hf : ∑ r, f r = ∑ r, f' r) (m k : ℕ) :
    result (gmres A f x0 atol m maxiter junk k) = result (gmres A' f' x0 atol m maxiter junk' k) := by
  have h1 := (gmres_eq A f x0 atol m maxiter junk k).1
  have h2 := (gmres_eq A' f' x0 atol m maxiter junk' k).1
  rw [hA, hf, ← h2] at h1
  generalize gmres A f x0 atol m maxiter junk k = o1 at h1 ⊢
  generalize gmres A' f' x0 atol m maxiter junk' k = o2 at h1 ⊢
  rcases o1 with _ | ⟨s | r⟩ <;> rcases o2 with _ | ⟨t | u⟩ <;> simp at h1
  · rfl
  · rfl
  · rw [h1]
    rfl

/-- **When a turn works**: for a regular matrix a turn that does not return breaks down exactly if the vectors
`r, A r, ..., A^(restart-1) r` are dependent. -/
theorem gmres_breaks {N m k : ℕ} (hN : maxiter = .int N ∨ maxiter = .forced N) (hm : 2 ≤ m) (hdet : (∑ r, A r).det ≠ 0)
    {s : G p n} (h : gmres A f x0 atol m maxiter junk k = some (.inl s))
    (hgo : ∀ r, gmres A f x0 atol m maxiter junk (k + 1) ≠ some (.inr r)) :
    gmres A f x0 atol m maxiter junk (k + 1) = none ↔
      ¬ LinearIndependent ℝ (fun i : Fin m => ((∑ r, A r) ^ (i : ℕ)) *ᵥ ((∑ r, f r) - (∑ r, A r) *ᵥ s.x)) := by
  rw [g_none, pass_none (fun i x z c hc => gBody_le hc) (g_inl h) hN (fun r hr => hgo r (g_back_r hr))]
  exact gBody_none hdet hm

/-- With as many vectors as unknowns a turn solves a regular system. -/
theorem gmres_exact {k : ℕ} (hdet : (∑ r, A r).det ≠ 0) {s' : G p n}
    (h' : gmres A f x0 atol n maxiter junk (k + 1) = some (.inl s')) : (∑ r, A r) *ᵥ s'.x = ∑ r, f r := by
  obtain ⟨t, h1, h2⟩ := run_inl (g_inl h')
  obtain ⟨J, _, c, hc, he⟩ := pass_inl h2
  have : s'.x = c.1 := congrArg (fun t => t.1.x) he
  rw [this]
  exact gBody_exact hdet hc

theorem first_goes {σ : Type} {A : Matrix (Fin n) (Fin n) ℝ} {f : Vec n} {body : ℕ → Vec n → σ → Option (Vec n × σ)}
    {z0 : σ} {N : ℕ} (hN : 0 < N) (hx : atol ≤ size A f x0) (r : Res n) :
    gRun A f body atol (.int N) x0 z0 1 ≠ some (.inr r) := by
  intro h
  obtain ⟨l, hl, s, h1, h2⟩ := run_inr 1 r h
  obtain rfl : l = 0 := by omega
  obtain ⟨hit, hz, -⟩ := run_known 0 s h1
  obtain ⟨J, info, hJ, -⟩ := pass_inr h2
  rw [history_head, (hz rfl).1, (hz rfl).2, hit] at hJ
  unfold judge at hJ
  simp only [List.headD_nil] at hJ
  split_ifs at hJ with c1 c2 c3
  · exact absurd c1 (not_lt.mpr hx)
  · simp at c2
    omega
  · exact lt_irrefl _ c3.1
  · simp at hJ

/-- **Systems smaller than `restart` are not solved**: whatever the regular matrix, the first turn breaks down, unless the initial
guess is accepted. -/
theorem gmres_small_refuted {N m : ℕ} (hN : 0 < N) (hm : 2 ≤ m) (hn : n < m) (hdet : (∑ r, A r).det ≠ 0)
    (hx : atol ≤ size (∑ r, A r) (∑ r, f r) x0) : gmres A f x0 atol m (.int N) junk 1 = none := by
  rw [gmres_breaks A f x0 atol (.int N) junk (k := 0) (Or.inl rfl) hm hdet rfl
    (fun r hr => first_goes x0 atol hN hx r (g_inr hr))]
  intro hli
  have := hli.fintype_card_le_finrank
  simp at this
  omega

/-- With `restart = 1` no turn is complete. -/
theorem gmres_one_refuted {k : ℕ} (s : G p n) : gmres A f x0 atol 1 maxiter junk (k + 1) ≠ some (.inl s) := by
  intro h
  obtain ⟨t, h1, h2⟩ := run_inl (g_inl h)
  obtain ⟨J, _, c, hc, he⟩ := pass_inl h2
  simp [gBody, qArnoldi, qStep] at hc

/-- A whole solution: a regular system with as many unknowns as vectors, of which the vectors are independent, is solved in one turn. -/
theorem gmres_solves {N : ℕ} (hN : 0 < N) (hn : 2 ≤ n) (hdet : (∑ r, A r).det ≠ 0) (hpos : 0 < atol)
    (hx : atol ≤ size (∑ r, A r) (∑ r, f r) x0)
    (hli : LinearIndependent ℝ (fun i : Fin n => ((∑ r, A r) ^ (i : ℕ)) *ᵥ ((∑ r, f r) - (∑ r, A r) *ᵥ x0))) :
    ∃ r, gmres A f x0 atol n (.int N) junk 2 = some (.inr r) ∧ (∑ r, A r) *ᵥ r.x = ∑ r, f r ∧ r.info = 0 ∧ r.iter = 1 := by
  have hgo : ∀ r, gmres A f x0 atol n (.int N) junk 1 ≠ some (.inr r) :=
    fun r hr => first_goes x0 atol hN hx r (g_inr hr)
  have hne : gmres A f x0 atol n (.int N) junk 1 ≠ none := by
    intro h0
    exact (gmres_breaks A f x0 atol (.int N) junk (k := 0) (Or.inl rfl) hn hdet rfl hgo).mp h0 hli
  rcases hg : gmres A f x0 atol n (.int N) junk 1 with _ | ⟨s | r⟩
  · exact absurd hg hne
  · have hex := gmres_exact A f x0 atol (.int N) junk (k := 0) hdet hg
    have hs : size (∑ r, A r) (∑ r, f r) s.x = 0 := by
      rw [size_eq, norm2_eq_zero, hex, sub_self]
    have hit := (run_known 1 _ (g_inl hg)).1
    refine ⟨⟨s.x, 1, 1, 0, 0⟩, ?_, hex, rfl, rfl⟩
    refine g_back_r ?_
    have e : gRun (∑ r, A r) (∑ r, f r) (gBody (∑ r, A r) (∑ r, f r) n) atol (.int N) x0 () 2 =
        gPass (∑ r, A r) (∑ r, f r) (gBody (∑ r, A r) (∑ r, f r) n) atol (.int N) s.head.1 s.head.2 := by
      conv_lhs => unfold gRun
      rw [g_inl hg]
      rfl
    rw [e]
    unfold gPass
    have hx' : s.head.1.x = s.x := rfl
    simp only [← size_eq, hx', hs, hit]
    unfold judge
    simp only
    rw [if_pos hpos]
    simp
  · exact absurd hg (hgo r)

/-! ### LGMRES -/

/-- **Best corrections.**  A turn of `lgmres` adds the best correction that is a combination of `r, A r, ..., A^(m-1) r` and of the last
corrections, at most `outer_k` of them; together there are `inner_m + outer_k` vectors. -/
theorem lgmres_best {inner outer i : ℕ} (X : ℕ → Vec n)
    (hX : ∀ t ≤ i + 1, ∃ s, lgmres A f x0 atol inner outer maxiter junk t = some (.inl s) ∧ s.x = X t) :
    Best (∑ r, A r) (∑ r, f r) (X i)
      (krylov (∑ r, A r) ((∑ r, f r) - (∑ r, A r) *ᵥ X i) (inner + outer - min i outer) ⊔
        Submodule.span ℝ {d | ∃ t, t < i ∧ i ≤ t + outer ∧ d = X (t + 1) - X t}) (X (i + 1) - X i) := by
  obtain ⟨s', hs', hx'⟩ := hX (i + 1) le_rfl
  obtain ⟨s, hs, hx⟩ := hX i (by omega)
  obtain ⟨t, h1, h2⟩ := run_inl (l_inl hs')
  rw [l_inl hs] at h1
  obtain rfl := Sum.inl.inj (Option.some.inj h1)
  obtain ⟨J, _, c, hc, he⟩ := pass_inl h2
  have : s'.x = c.1 := congrArg (fun t => t.1.x) he
  have hit : s.iter = i := (run_known i _ (l_inl hs)).1
  have hb := lBody_best hc
  have hit' : s.head.1.iter = i := hit
  have hx'' : s.head.1.x = X i := hx
  rw [hit', hx'', ← this, hx'] at hb
  convert hb using 6 with d
  ext t
  constructor
  · rintro ⟨a1, a2, a3⟩
    refine ⟨a1, a2, ?_⟩
    obtain ⟨a, b, b1, b2, b3⟩ := run_old i _ (l_inl hs) t a1 a2
    rw [a3, b3]
    obtain ⟨u, hu, hu'⟩ := hX t (by omega)
    obtain ⟨w, hw, hw'⟩ := hX (t + 1) (by omega)
    rw [l_inl hu] at b1
    rw [l_inl hw] at b2
    rw [← Sum.inl.inj (Option.some.inj b1), ← Sum.inl.inj (Option.some.inj b2), ← hu', ← hw']
    rfl
  · rintro ⟨a1, a2, a3⟩
    refine ⟨a1, a2, ?_⟩
    obtain ⟨a, b, b1, b2, b3⟩ := run_old i _ (l_inl hs) t a1 a2
    rw [a3, b3]
    obtain ⟨u, hu, hu'⟩ := hX t (by omega)
    obtain ⟨w, hw, hw'⟩ := hX (t + 1) (by omega)
    rw [l_inl hu] at b1
    rw [l_inl hw] at b2
    rw [← Sum.inl.inj (Option.some.inj b1), ← Sum.inl.inj (Option.some.inj b2), ← hu', ← hw']
    rfl

/-- The residuals never get longer. -/
theorem lgmres_residuals {inner outer k d : ℕ} {s : L p n} (h : lgmres A f x0 atol inner outer maxiter junk k = some (.inl s)) :
    (∀ s', lgmres A f x0 atol inner outer maxiter junk (k + d) = some (.inl s') →
      size (∑ r, A r) (∑ r, f r) s'.x ≤ size (∑ r, A r) (∑ r, f r) s.x) ∧
    ∀ r, lgmres A f x0 atol inner outer maxiter junk (k + d) = some (.inr r) →
      size (∑ r, A r) (∑ r, f r) r.x ≤ size (∑ r, A r) (∑ r, f r) s.x := by
  have key := run_decreases (fun i x z c hc => lBody_le hc) (l_inl h) d
  exact ⟨fun s' hs' => key.1 s'.head (l_inl hs'), fun r hr => key.2 r (l_inr hr)⟩

/-- **What a result means**, as for `gmres`. -/
theorem lgmres_result {N inner outer k : ℕ} {r : Res n} (h : lgmres A f x0 atol inner outer (.int N) junk k = some (.inr r)) :
    r.beta = size (∑ r, A r) (∑ r, f r) r.x ∧ r.iter < k ∧
      (∃ s, lgmres A f x0 atol inner outer (.int N) junk r.iter = some (.inl s) ∧ s.x = r.x) ∧
      ((r.judge = 1 ∧ r.info = 0 ∧ size (∑ r, A r) (∑ r, f r) r.x < atol) ∨
        (r.judge = 2 ∧ r.info = r.iter ∧ r.iter = N ∧ atol ≤ size (∑ r, A r) (∑ r, f r) r.x) ∨
        (r.judge = 4 ∧ r.info = r.iter ∧ r.iter < N ∧ atol ≤ size (∑ r, A r) (∑ r, f r) r.x ∧
          ∃ l s, r.iter = l + 1 ∧ lgmres A f x0 atol inner outer (.int N) junk l = some (.inl s) ∧
            size (∑ r, A r) (∑ r, f r) r.x < size (∑ r, A r) (∑ r, f r) s.x ∧
            (size (∑ r, A r) (∑ r, f r) s.x - size (∑ r, A r) (∑ r, f r) r.x) / size (∑ r, A r) (∑ r, f r) s.x < 1e-6)) := by
  obtain ⟨h1, h2, ⟨t, ht, hx⟩, h3⟩ := run_true rfl (l_inr h)
  obtain ⟨s, hs, rfl⟩ := l_back (junk := junk) ht
  refine ⟨h1, h2, ⟨s, hs, hx⟩, ?_⟩
  rcases h3 with h3 | h3 | ⟨a1, a2, a3, a4, l, t, a5, a6, a7⟩
  · exact Or.inl h3
  · exact Or.inr (Or.inl h3)
  · obtain ⟨u, hu, rfl⟩ := l_back (junk := junk) a6
    exact Or.inr (Or.inr ⟨a1, a2, a3, a4, l, u, a5, hu, a7⟩)

/-- `info = 0` is a promise, if at least one turn is allowed. -/
theorem lgmres_converged {N inner outer k : ℕ} (hN : 0 < N) {r : Res n}
    (h : lgmres A f x0 atol inner outer (.int N) junk k = some (.inr r)) :
    r.info = 0 ↔ size (∑ r, A r) (∑ r, f r) r.x < atol := by
  obtain ⟨-, -, -, h3⟩ := lgmres_result A f x0 atol junk h
  constructor
  · intro h0
    rcases h3 with h3 | h3 | ⟨a1, a2, a3, a4, l, s, a5, -⟩
    · exact h3.2.2
    · omega
    · omega
  · intro h0
    rcases h3 with h3 | h3 | h3
    · exact h3.2.1
    · exact absurd h0 (not_lt.mpr h3.2.2.2)
    · exact absurd h0 (not_lt.mpr h3.2.2.2.1)

/-- A forced number of turns is kept. -/
theorem lgmres_forced {N inner outer k : ℕ} {r : Res n}
    (h : lgmres A f x0 atol inner outer (.forced N) junk k = some (.inr r)) :
    r.beta = size (∑ r, A r) (∑ r, f r) r.x ∧ r.judge = 2 ∧ r.info = N ∧ r.iter = N := run_forced rfl (l_inr h)

/-- `lgmres` always stops, after `N` turns at the latest. -/
theorem lgmres_stops {N inner outer : ℕ} (hN : maxiter = .int N ∨ maxiter = .forced N) (s : L p n) :
    lgmres A f x0 atol inner outer maxiter junk (N + 1) ≠ some (.inl s) := fun h => run_stops hN _ (l_inl h)

/-- **Same result for any distribution.** -/
theorem lgmres_distribution {q : ℕ} [NeZero q] (A' : Fin q → Matrix (Fin n) (Fin n) ℝ) (f' : Fin q → Vec n)
    (junk' : Fin q → (ℕ → Vec n) × Vec n) (hA : ∑ r, A r = ∑ r, A' r) (hf : ∑ r, f r = ∑ r, f' r) (inner outer k : ℕ) :
    result (lgmres A f x0 atol inner outer maxiter junk k) = result (lgmres A' f' x0 atol inner outer maxiter junk' k) := by
  have h1 := (lgmres_eq A f x0 atol inner outer maxiter junk k).1
  have h2 := (lgmres_eq A' f' x0 atol inner outer maxiter junk' k).1
  rw [hA, hf, ← h2] at h1
  generalize lgmres A f x0 atol inner outer maxiter junk k = o1 at h1 ⊢
  generalize lgmres A' f' x0 atol inner outer maxiter junk' k = o2 at h1 ⊢
  rcases o1 with _ | ⟨s | r⟩ <;> rcases o2 with _ | ⟨t | u⟩ <;> simp at h1
  · rfl
  · rfl
  · rw [h1]
    rfl

/-- Without old corrections (`outer_k = 0`), and in the first turn, `lgmres` is `gmres`. -/
theorem lgmres_gmres {inner outer k : ℕ} (h : outer = 0 ∨ k ≤ 1) :
    result (lgmres A f x0 atol inner outer maxiter junk k) = result (gmres A f x0 atol (inner + outer) maxiter junk k) ∧
      ∀ s s', lgmres A f x0 atol inner outer maxiter junk k = some (.inl s) →
        gmres A f x0 atol (inner + outer) maxiter junk k = some (.inl s') → s.x = s'.x := by
  have h1 := (lgmres_eq A f x0 atol inner outer maxiter junk k).1
  have h2 := (gmres_eq A f x0 atol (inner + outer) maxiter junk k).1
  have h3 := run_same (A := ∑ r, A r) (f := ∑ r, f r) (b1 := lBody (∑ r, A r) (∑ r, f r) inner outer)
    (b2 := gBody (∑ r, A r) (∑ r, f r) (inner + outer)) (atol := atol) (maxiter := maxiter) (x0 := x0)
    (z1 := fun _ => none) (z2 := ()) k (fun i hi x z w => lBody_gBody _ _ (by omega) x z) k le_rfl
  rw [← h1, ← h2] at h3
  clear h1 h2
  generalize lgmres A f x0 atol inner outer maxiter junk k = o1 at h3 ⊢
  generalize gmres A f x0 atol (inner + outer) maxiter junk k = o2 at h3 ⊢
  rcases o1 with _ | ⟨s | r⟩ <;> rcases o2 with _ | ⟨t | u⟩ <;> simp [L.head, G.head] at h3
  · exact ⟨rfl, by simp⟩
  · refine ⟨rfl, ?_⟩
    intro a b ha hb
    obtain rfl := Sum.inl.inj (Option.some.inj ha)
    obtain rfl := Sum.inl.inj (Option.some.inj hb)
    exact h3.2.2
  · rw [h3]
    exact ⟨rfl, by simp⟩

/-- Systems smaller than `inner_m + outer_k` are not solved. -/
theorem lgmres_small_refuted {N inner outer : ℕ} (hN : 0 < N) (hm : 2 ≤ inner + outer) (hn : n < inner + outer)
    (hdet : (∑ r, A r).det ≠ 0) (hx : atol ≤ size (∑ r, A r) (∑ r, f r) x0) :
    lgmres A f x0 atol inner outer (.int N) junk 1 = none := by
  have := (lgmres_gmres A f x0 atol (.int N) junk (inner := inner) (outer := outer) (k := 1) (Or.inr le_rfl)).1
  rw [gmres_small_refuted A f x0 atol junk hN hm hn hdet hx] at this
  generalize lgmres A f x0 atol inner outer (.int N) junk 1 = o at this ⊢
  rcases o with _ | ⟨s | r⟩
  · rfl
  · cases this
  · cases this

/-! ### A case -/

/-- Two processes share the matrix `[[2, 0], [0, 1]]`. -/
def exA : Fin 2 → Matrix (Fin 2) (Fin 2) ℝ := ![!![2, 0; 0, 0], !![0, 0; 0, 1]]

/-- The parts of the right hand side `(1, 1)`. -/
def exF : Fin 2 → Vec 2 := ![![1, 0], ![0, 1]]

theorem exA_sum : ∑ r, exA r = !![2, 0; 0, 1] := by
  rw [Fin.sum_univ_two]
  ext i j
  fin_cases i <;> fin_cases j <;> simp [exA]

theorem exF_sum : ∑ r, exF r = ![1, 1] := by
  rw [Fin.sum_univ_two]
  ext i
  fin_cases i <;> simp [exF]

theorem ex_indep : LinearIndependent ℝ (fun i : Fin 2 => ((∑ r, exA r) ^ (i : ℕ)) *ᵥ ((∑ r, exF r) - (∑ r, exA r) *ᵥ 0)) := by
  rw [exA_sum, exF_sum, mulVec_zero, sub_zero, Fintype.linearIndependent_iff]
  intro g hg
  have h0 := congrFun hg 0
  have h1 := congrFun hg 1
  simp [Fin.sum_univ_two, mulVec, dotProduct] at h0 h1
  intro i
  fin_cases i
  · simp; linarith
  · simp; linarith

theorem ex_size : (1 : ℝ) / 2 ≤ size (∑ r, exA r) (∑ r, exF r) 0 := by
  rw [size_eq, exA_sum, exF_sum, mulVec_zero, sub_zero]
  refine Real.le_sqrt_of_sq_le ?_
  norm_num [Fin.sum_univ_two]

theorem ex_det : (∑ r, exA r).det ≠ 0 := by
  rw [exA_sum, det_fin_two]
  norm_num

/-- The hypotheses of the theorems hold in this case: two vectors, tolerance `1/2`. -/
example (junk : Fin 2 → (ℕ → Vec 2) × Vec 2) :
    ∃ r, gmres exA exF 0 (1 / 2) 2 (.int 30) junk 2 = some (.inr r) ∧ (∑ r, exA r) *ᵥ r.x = ∑ r, exF r ∧ r.info = 0 ∧ r.iter = 1 :=
  gmres_solves exA exF 0 (1 / 2) junk (by norm_num) le_rfl ex_det (by norm_num) ex_size ex_indep

/-- The same system with the default `restart = 75`. -/
example (junk : Fin 2 → (ℕ → Vec 2) × Vec 2) : gmres exA exF 0 (1 / 2) 75 (.int 30) junk 1 = none :=
  gmres_small_refuted exA exF 0 (1 / 2) junk (by norm_num) (by norm_num) (by norm_num) ex_det ex_size

/-- A turn of `lgmres` that works. -/
example (junk : Fin 2 → (ℕ → Vec 2) × Vec 2) : ∃ r, lgmres exA exF 0 (1 / 2) 2 0 (.int 30) junk 2 = some (.inr r) ∧ r.info = 0 := by
  obtain ⟨r, h1, -, h2, -⟩ := gmres_solves exA exF 0 (1 / 2) junk (N := 30) (by norm_num) le_rfl ex_det (by norm_num) ex_size ex_indep
  have := (lgmres_gmres exA exF 0 (1 / 2) (.int 30) junk (inner := 2) (outer := 0) (k := 2) (Or.inl rfl)).1
  change _ = result (gmres exA exF 0 (1 / 2) 2 (Newton.MaxIter.int ((30 : ℕ) : ℤ)) junk 2) at this
  rw [h1] at this
  rcases hl : lgmres exA exF 0 (1 / 2) 2 0 (.int 30) junk 2 with _ | ⟨s | t⟩ <;> rw [hl] at this
  · cases this
  · cases this
  · refine ⟨t, rfl, ?_⟩
    have e : t = r := Option.some.inj (Option.some.inj this)
    rw [e, h2]

end Phyem.Krylov
