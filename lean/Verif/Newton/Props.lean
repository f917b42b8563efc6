import Verif.Newton.Model
import Mathlib.Algebra.BigOperators.Group.List.Basic
import Mathlib.Tactic.Linarith
import Mathlib.Tactic.NormNum

/-!
Property C54: the Newton iteration.
-/

namespace Phyem.Newton

variable {X : Type} [AddCommMonoid X]

/-- The loop returns result `r` (after finitely many passes). -/
def Returns (tol : ℚ) (dx : X → X) (norm : X → Norm) (atol : ℚ) (m : MaxIter) (x0 : X)
    (r : Res X) : Prop :=
  ∃ n, runFor tol dx norm atol m x0 n = some (.inr r)

/-- Iterates of Newton's method, without any stopping. -/
def newton (dx : X → X) (x0 : X) : Nat → X
  | 0 => x0
  | n + 1 => newton dx x0 n + dx (newton dx x0 n)

/-- The norm of update number `n` (counted from 0). -/
def updateNorm (dx : X → X) (norm : X → Norm) (x0 : X) (n : Nat) : Norm :=
  norm (dx (newton dx x0 n))

/-! ### Specification of comparisons -/

/-- A norm is below the tolerance: it is a finite number less than it (`nan` and `inf` are not). -/
def Below (b : Norm) (atol : ℚ) : Prop := ∃ q, b = .fin q ∧ q < atol

/-- A norm exceeds a hundred times the norm before it: both are finite, or the norm has become infinite. -/
def Exploded (old b : Norm) : Prop :=
  ∃ p, old = .fin p ∧ (b = .inf ∨ ∃ q, b = .fin q ∧ p < q ∧ 100 * p < q)

theorem lt_iff (b : Norm) (a : ℚ) : b.lt (.fin a) = true ↔ Below b a := by
  cases b <;> simp [Norm.lt, Below]

theorem not_lt_iff (b : Norm) (a : ℚ) : b.lt (.fin a) = false ↔ ¬ Below b a := by
  rw [← lt_iff]; simp

theorem exploded_iff (old b : Norm) : (old.lt b = true ∧ old.times100.lt b = true) ↔ Exploded old b := by
  cases old <;> cases b <;> simp [Norm.lt, Norm.times100, Exploded]

omit [AddCommMonoid X] in
theorem check_cases (tol : ℚ) (prev : Option Norm) (beta : Norm) (atol : ℚ) (iter : Nat) (n : Int) :
    check tol prev beta atol iter (.int n) = some ⟨1, some 0⟩ ∧ beta.lt (.fin atol) = true ∨
    (beta.lt (.fin atol) = false ∧ ∃ j i, check tol prev beta atol iter (.int n) = some ⟨j, some i⟩ ∧
      (i = iter ∨ i = -1)) ∨
    beta.lt (.fin atol) = false ∧ (iter : Int) < n ∧
      check tol prev beta atol iter (.int n) = some ⟨0, none⟩ := by
  simp only [check]
  cases beta.lt (.fin atol) with
  | true => left; simp
  | false =>
    right
    by_cases h2 : n ≤ (iter : Int)
    · left; refine ⟨rfl, 2, iter, ?_, Or.inl rfl⟩; simp [h2]
    · simp only [h2, decide_false, Bool.false_eq_true, if_false]
      split_ifs with h3 h4
      · left; exact ⟨trivial, 3, -1, rfl, Or.inr rfl⟩
      · left; exact ⟨trivial, 4, iter, rfl, Or.inl rfl⟩
      · right; exact ⟨trivial, by omega, rfl⟩

/-- What a state or a result after `n` passes looks like. -/
theorem runFor_shape (tol : ℚ) (dx : X → X) (norm : X → Norm) (atol : ℚ) (m : MaxIter) (x0 : X)
    (n : Nat) :
    (∀ s, runFor tol dx norm atol m x0 n = some (.inl s) →
      s.iter = n ∧ s.xi = newton dx x0 n ∧
      s.beta = ((List.range n).map (updateNorm dx norm x0)).reverse) ∧
    (∀ r, runFor tol dx norm atol m x0 n = some (.inr r) →
      1 ≤ r.iter ∧ r.iter ≤ n ∧ r.x = newton dx x0 r.iter ∧
      r.beta = ((List.range r.iter).map (updateNorm dx norm x0)).reverse ∧
      check tol (r.beta.tail.head?) (updateNorm dx norm x0 (r.iter - 1)) atol r.iter m =
        some ⟨r.judge, some r.info⟩) := by
  induction n with
  | zero =>
    constructor
    · intro s h; simp [runFor] at h; subst h; simp [newton]
    · intro r h; simp [runFor] at h
  | succ n ih =>
    cases hr : runFor tol dx norm atol m x0 n with
    | none => constructor <;> intro _ h <;> simp [runFor, hr] at h
    | some q =>
      cases q with
      | inr r0 =>
        constructor
        · intro s h; simp [runFor, hr] at h
        · intro r h
          simp [runFor, hr] at h
          subst h
          obtain ⟨a, b, c⟩ := ih.2 r0 hr
          exact ⟨a, by omega, c⟩
      | inl s0 =>
        obtain ⟨h1, h2, h3⟩ := ih.1 s0 hr
        have hb : norm (dx s0.xi) :: s0.beta =
            ((List.range (n + 1)).map (updateNorm dx norm x0)).reverse := by
          rw [List.range_succ, List.map_append, List.reverse_append, h3, h2]
          rfl
        simp only [runFor, hr, step]
        cases hc : check tol s0.beta.head? (norm (dx s0.xi)) atol (s0.iter + 1) m with
        | none => simp
        | some v =>
          obtain ⟨j, i⟩ := v
          cases i with
          | none =>
            constructor
            · intro s h; simp at h; subst h
              exact ⟨by simp [h1], by simp [h2, newton], hb⟩
            · intro r h; simp at h
          | some i =>
            constructor
            · intro s h; simp at h
            · intro r h; simp at h; subst h
              refine ⟨by simp, by simp [h1], by simp [h1, h2, newton], ?_, ?_⟩
              · simp only [h1]; exact hb
              · simp only [List.tail_cons, Nat.add_sub_cancel]
                rw [← hc]; congr 1
                simp [updateNorm, h1, h2]

theorem runFor_mono (tol : ℚ) (dx : X → X) (norm : X → Norm) (atol : ℚ) (m : MaxIter) (x0 : X)
    {n : Nat} {r : Res X} (h : runFor tol dx norm atol m x0 n = some (.inr r)) (k : Nat) :
    runFor tol dx norm atol m x0 (n + k) = some (.inr r) := by
  induction k with
  | zero => exact h
  | succ k ih => rw [← Nat.add_assoc]; simp [runFor, ih]

/-- **C54, determinism**: the loop returns at most one result. -/
theorem returns_unique (tol : ℚ) (dx : X → X) (norm : X → Norm) (atol : ℚ) (m : MaxIter) (x0 : X)
    (r r' : Res X) (h : Returns tol dx norm atol m x0 r) (h' : Returns tol dx norm atol m x0 r') :
    r = r' := by
  obtain ⟨n, hn⟩ := h
  obtain ⟨n', hn'⟩ := h'
  have a := runFor_mono tol dx norm atol m x0 hn n'
  have b := runFor_mono tol dx norm atol m x0 hn' n
  rw [Nat.add_comm] at b
  rw [a] at b
  simpa using b

theorem returns_of_bound (tol : ℚ) (dx : X → X) (norm : X → Norm) (atol : ℚ) (m : MaxIter) (x0 : X)
    (N : Nat) (hN : 1 ≤ N) (hne : ∀ p b i, check tol p b atol i m ≠ none)
    (hs : ∀ p b i, N ≤ i → ∀ j, check tol p b atol i m ≠ some ⟨j, none⟩) :
    ∃ r, Returns tol dx norm atol m x0 r ∧ r.iter ≤ N := by
  cases h : runFor tol dx norm atol m x0 N with
  | none =>
    exfalso
    clear hs hN
    induction N with
    | zero => simp [runFor] at h
    | succ N ih =>
      cases hr : runFor tol dx norm atol m x0 N with
      | none => exact ih hr
      | some q =>
        cases q with
        | inr r => simp [runFor, hr] at h
        | inl s =>
          simp only [runFor, hr, step] at h
          cases hc : check tol s.beta.head? (norm (dx s.xi)) atol (s.iter + 1) m with
          | none => exact hne _ _ _ hc
          | some v => rw [hc] at h; cases hv : v.info <;> simp [hv] at h
  | some q =>
    cases q with
    | inr r => exact ⟨r, ⟨N, h⟩, ((runFor_shape tol dx norm atol m x0 N).2 r h).2.1⟩
    | inl s =>
      exfalso
      obtain ⟨N, rfl⟩ : ∃ k, N = k + 1 := ⟨N - 1, by omega⟩
      cases hr : runFor tol dx norm atol m x0 N with
      | none => simp [runFor, hr] at h
      | some q =>
        cases q with
        | inr r => simp [runFor, hr] at h
        | inl s0 =>
          simp only [runFor, hr, step] at h
          have h1 := ((runFor_shape tol dx norm atol m x0 N).1 s0 hr).1
          cases hc : check tol s0.beta.head? (norm (dx s0.xi)) atol (s0.iter + 1) m with
          | none => exact hne _ _ _ hc
          | some v =>
            rw [hc] at h
            obtain ⟨j, i⟩ := v
            cases i with
            | none => exact hs _ _ _ (by omega) j hc
            | some i => simp at h

/-- **C54, termination.** For every integer `maxiter`, every linear solver, every sequence of norms
(also `inf` and `nan`): the loop returns after at most `max(1, maxiter)` iterations. -/
theorem newton_terminates (tol : ℚ) (dx : X → X) (norm : X → Norm) (atol : ℚ) (n : Int) (x0 : X) :
    ∃ r, Returns tol dx norm atol (.int n) x0 r ∧ (r.iter : Int) ≤ max 1 n := by
  obtain ⟨r, h, hr⟩ := returns_of_bound tol dx norm atol (.int n) x0 (max 1 n.toNat) (by omega)
    (by
      intro p b i h
      rcases check_cases tol p b atol i n with ⟨h', _⟩ | ⟨_, j, k, h', _⟩ | ⟨_, _, h'⟩ <;>
        rw [h'] at h <;> simp at h)
    (by
      intro p b i hi j h
      rcases check_cases tol p b atol i n with ⟨h', _⟩ | ⟨_, j, k, h', _⟩ | ⟨_, hlt, h'⟩
      · rw [h'] at h; simp at h
      · rw [h'] at h; simp at h
      · omega)
  exact ⟨r, h, by omega⟩

/-- **C54, truthful report.** The reported information is 0 exactly when the last update is below
`atol`; the residual list holds the norms of all updates in order; and the returned solution is the
last Newton iterate. -/
theorem newton_truthful (tol : ℚ) (dx : X → X) (norm : X → Norm) (atol : ℚ) (n : Int) (x0 : X)
    (r : Res X) (h : Returns tol dx norm atol (.int n) x0 r) :
    (r.info = 0 ↔ Below (updateNorm dx norm x0 (r.iter - 1)) atol) ∧
    r.beta.reverse = (List.range r.iter).map (updateNorm dx norm x0) ∧
    r.x = newton dx x0 r.iter ∧ 1 ≤ r.iter := by
  obtain ⟨k, hk⟩ := h
  obtain ⟨h1, _, h3, h4, h5⟩ := (runFor_shape tol dx norm atol (.int n) x0 k).2 r hk
  refine ⟨?_, by rw [h4, List.reverse_reverse], h3, h1⟩
  rw [← lt_iff]
  rcases check_cases tol r.beta.tail.head? (updateNorm dx norm x0 (r.iter - 1)) atol r.iter n with
    ⟨h', hb⟩ | ⟨hb, j, i, h', hi⟩ | ⟨_, _, h'⟩
  · rw [h'] at h5; simp at h5; simp [hb, ← h5.2]
  · rw [h'] at h5; simp at h5
    rw [hb, ← h5.2]
    simp
    omega
  · rw [h'] at h5; simp at h5

/-- **C54, no early success is missed and no later iteration is done**: before the last iteration no
update was below `atol`. -/
theorem newton_first_success (tol : ℚ) (dx : X → X) (norm : X → Norm) (atol : ℚ) (n : Int) (x0 : X)
    (r : Res X) (h : Returns tol dx norm atol (.int n) x0 r) :
    ∀ i, i + 1 < r.iter → ¬ Below (updateNorm dx norm x0 i) atol := by
  obtain ⟨k, hk⟩ := h
  -- any pass that continued had no success
  have key : ∀ k s, runFor tol dx norm atol (.int n) x0 k = some (.inl s) →
      ∀ i, i < k → (updateNorm dx norm x0 i).lt (.fin atol) = false := by
    intro k
    induction k with
    | zero => intro s _ i hi; omega
    | succ k ih =>
      intro s hs i hi
      cases hr : runFor tol dx norm atol (.int n) x0 k with
      | none => simp [runFor, hr] at hs
      | some q =>
        cases q with
        | inr r => simp [runFor, hr] at hs
        | inl s0 =>
          by_cases hik : i < k
          · exact ih s0 hr i hik
          obtain rfl : i = k := by omega
          obtain ⟨e1, e2, e3⟩ := (runFor_shape tol dx norm atol (.int n) x0 i).1 s0 hr
          simp only [runFor, hr, step] at hs
          unfold updateNorm
          rw [← e2]
          rcases check_cases tol s0.beta.head? (norm (dx s0.xi)) atol (s0.iter + 1) n with
            ⟨h', hb⟩ | ⟨hb, j, i, h', hi⟩ | ⟨hb, _, h'⟩
          · rw [h'] at hs; simp at hs
          · exact hb
          · exact hb
  have key2 : ∀ k, runFor tol dx norm atol (.int n) x0 k = some (.inr r) →
      ∃ s, runFor tol dx norm atol (.int n) x0 (r.iter - 1) = some (.inl s) := by
    intro k
    induction k with
    | zero => intro h; simp [runFor] at h
    | succ k ih =>
      intro h
      cases hr : runFor tol dx norm atol (.int n) x0 k with
      | none => simp [runFor, hr] at h
      | some q =>
        cases q with
        | inr r' =>
          simp [runFor, hr] at h
          subst h
          exact ih hr
        | inl s0 =>
          have e := ((runFor_shape tol dx norm atol (.int n) x0 k).1 s0 hr).1
          simp only [runFor, hr, step] at h
          cases hc : check tol s0.beta.head? (norm (dx s0.xi)) atol (s0.iter + 1) (.int n) with
          | none => simp [hc] at h
          | some v =>
            rw [hc] at h
            cases hv : v.info with
            | none => simp [hv] at h
            | some i =>
              simp [hv] at h
              subst h
              simp only [Nat.add_sub_cancel, e]
              exact ⟨s0, hr⟩
  intro i hi
  obtain ⟨s, hs⟩ := key2 k hk
  exact (not_lt_iff _ _).1 (key _ s hs i (by omega))

/-- **C54, meaning of the verdict.** The reported judgement names its reason. -/
theorem newton_verdict (tol : ℚ) (prev : Option Norm) (beta : Norm) (atol : ℚ) (iter : Nat) (n : Int)
    (v : Verdict) (h : check tol prev beta atol iter (.int n) = some v) :
    (v.judge = 1 ↔ Below beta atol) ∧
    (v.judge = 2 ↔ ¬ Below beta atol ∧ n ≤ iter) ∧
    (v.judge = 3 ↔ ¬ Below beta atol ∧ (iter : Int) < n ∧ ∃ old, prev = some old ∧ Exploded old beta) ∧
    (v.judge = 0 ↔ v.info = none) := by
  simp only [← exploded_iff, ← lt_iff, Bool.not_eq_true]
  simp only [check] at h
  cases hb : beta.lt (.fin atol) with
  | true => simp [hb] at h; subst h; simp
  | false =>
    simp only [hb] at h
    by_cases h2 : n ≤ (iter : Int)
    · simp [h2] at h; subst h; simp [h2]
    · have h2' : (iter : Int) < n := by omega
      cases prev with
      | none => simp [h2] at h; subst h; simp [h2]
      | some old =>
        simp only [h2, decide_false, Bool.not_false, Bool.true_and, Bool.false_eq_true, if_false] at h
        split_ifs at h with h3 h4
        · cases h; simp [h2, h2'] at h3 ⊢; exact h3
        · cases h; simp [h2, h2'] at h3 ⊢; intro h5; simpa using h3 h5
        · cases h; simp [h2, h2'] at h3 ⊢; intro h5; simpa using h3 h5

/-- **C54, forced.** A string `maxiter` with value `n` runs exactly `max(1, n)` iterations, whatever the
norms; a string that is no integer raises in the first iteration. -/
theorem newton_forced (tol : ℚ) (dx : X → X) (norm : X → Norm) (atol : ℚ) (n : Int) (x0 : X) :
    (∃ r, Returns tol dx norm atol (.forced n) x0 r ∧ (r.iter : Int) = max 1 n ∧
      r.x = newton dx x0 r.iter ∧ r.info = max 1 n) ∧
    (∀ r, ¬ Returns tol dx norm atol .invalid x0 r) ∧
    runFor tol dx norm atol .invalid x0 1 = none := by
  refine ⟨?_, ?_, rfl⟩
  · have hrun : ∀ k : Nat, (k : Int) < max 1 n →
        ∃ s, runFor tol dx norm atol (.forced n) x0 k = some (.inl s) := by
      intro k
      induction k with
      | zero => intro _; exact ⟨_, rfl⟩
      | succ k ih =>
        intro hk
        obtain ⟨s, hs⟩ := ih (by push_cast at hk; omega)
        have e := ((runFor_shape tol dx norm atol (.forced n) x0 k).1 s hs).1
        have : ¬ n ≤ ((s.iter + 1 : Nat) : Int) := by rw [e]; omega
        simp only [runFor, hs, step, check, if_neg this]
        exact ⟨_, rfl⟩
    obtain ⟨s, hs⟩ := hrun ((max 1 n).toNat - 1) (by omega)
    have e := ((runFor_shape tol dx norm atol (.forced n) x0 _).1 s hs).1
    have hle : n ≤ ((s.iter + 1 : Nat) : Int) := by rw [e]; omega
    have hret : runFor tol dx norm atol (.forced n) x0 ((max 1 n).toNat - 1 + 1) =
        some (.inr ⟨s.iter + 1, norm (dx s.xi) :: s.beta, s.xi + dx s.xi, 2,
          ((s.iter + 1 : Nat) : Int)⟩) := by
      simp only [runFor, hs, step, check, if_pos hle]
    refine ⟨_, ⟨_, hret⟩, ?_, ?_, ?_⟩
    · simp only; rw [e]; omega
    · exact ((runFor_shape tol dx norm atol (.forced n) x0 _).2 _ hret).2.2.1
    · simp only; rw [e]; omega
  · rintro r ⟨n, hn⟩
    cases n with
    | zero => simp [runFor] at hn
    | succ n =>
      have : ∀ k, runFor tol dx norm atol .invalid x0 (k + 1) = none := by
        intro k
        induction k with
        | zero => rfl
        | succ k ih => rw [runFor, ih]
      rw [this] at hn
      cases hn

/-- A converging run: halving with `atol = 1/3` from 2 stops at the third update (norm 1/4). -/
example : ∃ r : Res ℚ, Returns (1/10000) (fun x => -x/2) (fun d => .fin |d|) (1/3) (.int 10) 2 r ∧
    r.iter = 3 ∧ r.info = 0 ∧ r.x = 1/4 :=
  ⟨⟨3, [.fin (1/4), .fin (1/2), .fin 1], 1/4, 1, 0⟩, ⟨3, by decide +kernel⟩, rfl, rfl, rfl⟩

end Phyem.Newton
