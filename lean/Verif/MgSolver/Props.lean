import Verif.MgSolver.Refine
import Verif.Krylov.Props
import Mathlib.Tactic.Module
import Mathlib.Tactic.Abel

/-
C101 - C103 for the solvers of multigrid linear systems.
-/

namespace Phyem.MgSolver

open Phyem.Multigrid

variable {V O : Type} {p : ℕ} [AddCommGroup V]

/-! ### C101: a scheme computes nested corrections -/

/-- **Nested corrections.**  For every scheme that stays within the layers, the vector the solver hands to its last call is the one of
the steps carried out one after the other on a stack of works (`work`): whatever the pairing, the record of the steps and its
cleaning do, no data needed later are lost and none are mixed up. -/
theorem handed_eq [NeZero p] (S : Sys V O p) {step : Step} {l : List Step} (h : Accepted S.n (step :: l))
    (hin : WithinLayers S.n (step :: l)) (clean : Bool) (x0 : Option V) :
    handed S S.n (step :: l) clean x0 =
      match begin_ S x0 step with
      | none => none
      | some w => (works S (step :: l) (w, [])).map (·.1.x) := handed_works S h hin clean x0

/-- **Cleaning is invisible**: `clean=True` and `clean=False` give the same result. -/
theorem clean_invisible [NeZero p] (S : Sys V O p) {scheme : List Step} (h : Accepted S.n scheme)
    (hin : WithinLayers S.n scheme) (x0 : Option V) :
    solve S S.n scheme true x0 = solve S S.n scheme false x0 := by
  unfold solve
  cases scheme with
  | nil => rfl
  | cons step l => rw [handed_works S h hin, handed_works S h hin]

theorem work_same [NeZero p] {q : ℕ} [NeZero q] {S : Sys V O p} {S' : Sys V O q} (hS : Same S S') (step : Step)
    (st : Work V × List (Work V)) : work S step st = work S' step st := by
  obtain ⟨w, wait⟩ := st
  have hm : ∀ e : V, (∑ r : Fin p, atMaster e r) = ∑ r : Fin q, atMaster e r := fun e => by
    rw [sum_atMaster, sum_atMaster]
  cases step with
  | R layer =>
    simp only [work, hS.pass, hS.mat]
    cases S'.pass true layer.toNat (layer - 1).toNat (S'.mat layer.toNat w.x - w.b) with
    | none => rfl
    | some e => simp only [hS.direct 0 (atMaster e) (atMaster e) (hm e), hS.iter _ (atMaster e) (atMaster e) 0 (hm e)]
  | I layer =>
    cases wait with
    | nil =>
      simp only [work, hS.pass]
      cases S'.pass false layer.toNat (layer + 1).toNat w.x with
      | none => rfl
      | some v => simp only [hS.iter _ (S.b (layer + 1).toNat) (S'.b (layer + 1).toNat) v (hS.rhs _), hS.rhs]
    | cons old wait => simp only [work, hS.pass]

/-- **Distribution.**  The result does not depend on the number of processes nor on how the systems are distributed over them. -/
theorem solve_distribution [NeZero p] {q : ℕ} [NeZero q] {S : Sys V O p} {S' : Sys V O q} (hS : Same S S') {scheme : List Step}
    (h : Accepted S.n scheme) (hin : WithinLayers S.n scheme) (clean clean' : Bool) (x0 : Option V) :
    solve S S.n scheme clean x0 = solve S' S'.n scheme clean' x0 := by
  have hw : ∀ (l : List Step) (st : Work V × List (Work V)), works S l st = works S' l st := by
    intro l
    induction l with
    | nil => intro st; rfl
    | cons step l ih =>
      intro st
      simp only [works, work_same hS]
      cases work S' step st with
      | none => rfl
      | some st => exact ih st
  have hb : ∀ step, begin_ S x0 step = begin_ S' x0 step := by
    intro step
    cases step with
    | I layer => simp only [begin_, hS.direct 0 (S.b 0) (S'.b 0) (hS.rhs 0), hS.rhs]
    | R layer =>
      cases x0 with
      | none => rfl
      | some v => simp only [begin_, hS.first, hS.rhs, hS.n]
  unfold solve
  cases scheme with
  | nil => simp [handed]
  | cons step l =>
    rw [handed_works S h hin, handed_works S' (hS.n ▸ h) (hS.n ▸ hin), hb step]
    cases begin_ S' x0 step with
    | none => rfl
    | some w =>
      simp only [hw, hS.last]

/-- A scheme that begins with a restriction (V- and W-cycles) raises without `x0`, although `x0=None` is the default. -/
theorem default_x0_refuted (S : Sys V O p) (layers : ℕ) (layer : ℤ) (l : List Step) (clean : Bool) :
    solve S layers (.R layer :: l) clean none = none := by
  have : handed S layers (.R layer :: l) clean none = none := by
    unfold handed
    simp only [start]
    split_ifs <;> first | rfl | (split <;> first | rfl | (split_ifs <;> rfl))
  simp [solve, this]

/-- A scheme that begins with an interpolation (N- and FMG-cycles) ignores `x0`. -/
theorem x0_ignored (S : Sys V O p) (layers : ℕ) (layer : ℤ) (l : List Step) (clean : Bool) (x0 x0' : Option V) :
    solve S layers (.I layer :: l) clean x0 = solve S layers (.I layer :: l) clean x0' := rfl

/-- Every V-cycle begins with a restriction. -/
theorem v_begins {n : ℕ} (hn : 2 ≤ n) : ∃ l, vCycle n = .R ((n : ℤ) - 1) :: l := by
  obtain ⟨m, rfl⟩ : ∃ m, n = m + 2 := ⟨n - 2, by omega⟩
  refine ⟨(downLayers (m + 1)).map .R ++ (upLayers (m + 2)).map .I, ?_⟩
  unfold vCycle
  rw [show downLayers (m + 2) = (((m + 2 : ℕ) : ℤ) - 1) :: downLayers (m + 1) by
    simp [downLayers, List.range_succ]; ring]
  rfl

/-! ### C102: corrections -/

/-- The transfers between two layers are the additive maps `R` (down) and `P` (up). -/
structure Transfers (S : Sys V O p) (R P : V →+ V) : Prop where
  down : ∀ v, S.pass true 1 0 v = some (R v)
  up : ∀ v, S.pass false 0 1 v = some (P v)

/-- The direct solver solves the system of the lowest layer. -/
def Exact (S : Sys V O p) : Prop := ∀ f, ∃ y, S.direct 0 f = some y ∧ S.mat 0 y = ∑ r, f r

theorem two_accepted : Accepted 2 (vCycle 2) ∧ WithinLayers 2 (vCycle 2) :=
  ⟨Accepted.V 2, (vn_within_layers 2).1⟩

theorem two_steps : vCycle 2 = [.R 1, .I 0] := by decide +kernel

/-- **What a correction does.**  On two layers, after the first approximation `x`, the V-cycle hands over `x + P d` with
`A₀ d = R (A₁ x - b₁)`. -/
theorem two_grid [NeZero p] (S : Sys V O p) (hn : S.n = 2) (R P : V →+ V) (ht : Transfers S R P) (he : Exact S) {v x : V}
    (hf : S.first v = some x) (clean : Bool) :
    ∃ d, S.mat 0 d = R (S.mat 1 x - S.rhs 1) ∧ handed S 2 (vCycle 2) clean (some v) = some (x + P d) := by
  obtain ⟨d, hd, hd'⟩ := he (atMaster (R (S.mat 1 x - S.rhs 1)))
  refine ⟨d, by rw [hd', sum_atMaster], ?_⟩
  have h1 := two_accepted.1
  have h2 := two_accepted.2
  rw [two_steps] at h1 h2 ⊢
  have := handed_works S (hn ▸ h1) (hn ▸ h2) clean (some v)
  rw [hn] at this
  rw [this]
  have hw1 : work S (.R 1) (⟨x, S.rhs 1⟩, []) = some (⟨d, R (S.mat 1 x - S.rhs 1)⟩, [⟨x, S.rhs 1⟩]) := by
    have e1 : S.pass true (1 : ℤ).toNat ((1 : ℤ) - 1).toNat (S.mat (1 : ℤ).toNat x - S.rhs 1) = some (R (S.mat 1 x - S.rhs 1)) :=
      ht.down _
    unfold work
    simp only [e1]
    simp only [sub_self, ↓reduceIte, hd]
  have hw2 : work S (.I 0) (⟨d, R (S.mat 1 x - S.rhs 1)⟩, [⟨x, S.rhs 1⟩]) = some (⟨x + P d, S.rhs 1⟩, []) := by
    have e2 : S.pass false (0 : ℤ).toNat ((0 : ℤ) + 1).toNat d = some (P d) := ht.up d
    unfold work
    simp only [e2]
  have hb : begin_ S (some v) (.R 1) = some ⟨x, S.rhs 1⟩ := by simp [begin_, hf, hn]
  rw [hb]
  simp only [works, hw1, hw2, Option.map_some]

/-- **Corrections go the wrong way.**  If the lower system is the Galerkin one (`R A₁ P = A₀`), a coarse correction should remove the
restricted residual; it doubles it instead, because the residual is `A x - b` and the correction is added. -/
theorem two_grid_doubles [NeZero p] (S : Sys V O p) (hn : S.n = 2) (R P : V →+ V) (ht : Transfers S R P) (he : Exact S)
    (hadd : ∀ y z, S.mat 1 (y + z) = S.mat 1 y + S.mat 1 z) (hg : ∀ y, R (S.mat 1 (P y)) = S.mat 0 y) {v x : V}
    (hf : S.first v = some x) (clean : Bool) :
    ∃ y, handed S 2 (vCycle 2) clean (some v) = some y ∧
      R (S.mat 1 y - S.rhs 1) = R (S.mat 1 x - S.rhs 1) + R (S.mat 1 x - S.rhs 1) := by
  obtain ⟨d, hd, hh⟩ := two_grid S hn R P ht he hf clean
  refine ⟨_, hh, ?_⟩
  rw [hadd, show S.mat 1 x + S.mat 1 (P d) - S.rhs 1 = (S.mat 1 x - S.rhs 1) + S.mat 1 (P d) by abel, map_add, hg, hd]

/-- What a user expects of a two-grid cycle with exact coarse solver: the residual that the coarse layer can see is gone. -/
def CorrectionsCorrect : Prop :=
  ∀ (S : Sys ℚ Unit 1) (R P : ℚ →+ ℚ) (v x : ℚ), S.n = 2 → Transfers S R P → Exact S →
    (∀ y z, S.mat 1 (y + z) = S.mat 1 y + S.mat 1 z) → (∀ y, R (S.mat 1 (P y)) = S.mat 0 y) → S.first v = some x →
    ∃ y, handed S 2 (vCycle 2) true (some v) = some y ∧ R (S.mat 1 y - S.rhs 1) = 0

/-- One unknown on both layers, `2 x = 6`, the identity as transfers, and one improvement that leaves `x0` as it is. -/
def demo : Sys ℚ Unit 1 where
  n := 2
  A := fun _ _ x => 2 * x
  b := fun _ _ => 6
  pass := fun _ _ _ v => some v
  direct := fun _ f => some (f 0 / 2)
  iter := fun _ _ x => some x
  first := fun x => some x
  last := fun x => some (x, ())

theorem demo_transfers : Transfers demo (AddMonoidHom.id ℚ) (AddMonoidHom.id ℚ) := ⟨fun _ => rfl, fun _ => rfl⟩

theorem demo_exact : Exact demo := fun f => ⟨f 0 / 2, rfl, by simp [Sys.mat, demo]; ring⟩

theorem demo_additive (y z : ℚ) : demo.mat 1 (y + z) = demo.mat 1 y + demo.mat 1 z := by simp [Sys.mat, demo]; ring

/-- The hypotheses of `two_grid_doubles` hold of `demo`, and the residual really is not zero: starting at `4` (residual 2) the cycle
hands over `5` (residual 4) instead of the solution `3`. -/
theorem demo_handed : handed demo 2 (vCycle 2) true (some 4) = some 5 := by
  obtain ⟨d, hd, hh⟩ := two_grid demo rfl _ _ demo_transfers demo_exact (v := 4) (x := 4) rfl true
  have : d = 1 := by
    have h : (2 : ℚ) * d = 2 * 4 - 6 := by simpa [Sys.mat, Sys.rhs, demo] using hd
    linarith
  rw [hh, this]
  norm_num

theorem correction_refuted : ¬ CorrectionsCorrect := by
  intro h
  obtain ⟨y, hy, hr⟩ := h demo _ _ 4 4 rfl demo_transfers demo_exact demo_additive (fun _ => rfl) rfl
  rw [demo_handed] at hy
  obtain rfl : (5 : ℚ) = y := by simpa using hy
  simp [Sys.mat, Sys.rhs, demo] at hr
  norm_num at hr

theorem works_fixed [NeZero p] (S : Sys V O p) (hpass : ∀ c l u, S.pass c l u 0 = some 0) (hmat : ∀ l, S.mat l 0 = 0)
    (hdir : S.direct 0 (atMaster 0) = some 0) (hiter : ∀ l, S.iter l (atMaster 0) 0 = some 0) (x b : V)
    (hxb : S.mat (S.n - 1) x = b) :
    ∀ (l : List Step) (layer : ℤ) (k : ℕ), Path layer l ((S.n : ℤ) - 1) → WithinLayers S.n l → layer + k = (S.n : ℤ) - 1 →
      works S l (if k = 0 then (⟨x, b⟩, []) else (⟨0, 0⟩, List.replicate (k - 1) ⟨0, 0⟩ ++ [⟨x, b⟩])) = some (⟨x, b⟩, []) := by
  intro l
  induction l with
  | nil =>
    intro layer k hp _ hk
    simp only [Path] at hp
    obtain rfl : k = 0 := by omega
    rfl
  | cons step l ih =>
    intro layer k hp hin hk
    obtain ⟨rfl, hp⟩ := hp
    have hin0 := hin step (by simp)
    have hin' : WithinLayers S.n l := fun t ht => hin t (by simp [ht])
    cases step with
    | R layer =>
      simp only [Step.src, Step.dst] at *
      have key : work S (.R layer) (if k = 0 then (⟨x, b⟩, []) else (⟨0, 0⟩, List.replicate (k - 1) ⟨0, 0⟩ ++ [⟨x, b⟩])) =
          some (⟨0, 0⟩, List.replicate k ⟨0, 0⟩ ++ [⟨x, b⟩]) := by
        rcases Nat.eq_zero_or_pos k with rfl | hk0
        · have : layer.toNat = S.n - 1 := by omega
          simp only [↓reduceIte, work, this, hxb, sub_self, hpass, hdir, hiter, ite_self]
          rfl
        · have hk1 : k ≠ 0 := by omega
          simp only [hk1, ↓reduceIte, work, hmat, sub_self, hpass, hdir, hiter, ite_self]
          obtain ⟨j, rfl⟩ : ∃ j, k = j + 1 := ⟨k - 1, by omega⟩
          simp [List.replicate_succ]
      have := ih (layer - 1) (k + 1) hp hin' (by push_cast; omega)
      simp only [works, key]
      simpa using this
    | I layer =>
      simp only [Step.src, Step.dst] at *
      have hk1 : k ≠ 0 := by omega
      obtain ⟨j, rfl⟩ : ∃ j, k = j + 1 := ⟨k - 1, by omega⟩
      have key : work S (.I layer) (⟨0, 0⟩, List.replicate j ⟨0, 0⟩ ++ [⟨x, b⟩]) =
          some (if j = 0 then (⟨x, b⟩, []) else (⟨0, 0⟩, List.replicate (j - 1) ⟨0, 0⟩ ++ [⟨x, b⟩])) := by
        rcases Nat.eq_zero_or_pos j with rfl | hj
        · simp [work, hpass]
        · obtain ⟨i, rfl⟩ : ∃ i, j = i + 1 := ⟨j - 1, by omega⟩
          simp [work, hpass, List.replicate_succ]
      simp only [works, Nat.add_sub_cancel, Nat.succ_ne_zero, ↓reduceIte, key]
      exact ih (layer + 1) j hp hin' (by push_cast at hk ⊢; omega)

/-- **A solution stays a solution**: a scheme that begins with a restriction hands over its first approximation unchanged if that solves
the top system, for any number of layers (a zero residual is restricted to zero, and a system with right hand side zero has the
solution zero). -/
theorem solution_kept [NeZero p] (S : Sys V O p) {layer : ℤ} {l : List Step} (h : Accepted S.n (.R layer :: l))
    (hin : WithinLayers S.n (.R layer :: l)) (hpass : ∀ c l u, S.pass c l u 0 = some 0) (hmat : ∀ l, S.mat l 0 = 0)
    (hdir : S.direct 0 (atMaster 0) = some 0) (hiter : ∀ l, S.iter l (atMaster 0) 0 = some 0) {v x : V}
    (hf : S.first v = some x) (hx : S.mat (S.n - 1) x = S.rhs (S.n - 1)) (clean : Bool) :
    handed S S.n (.R layer :: l) clean (some v) = some x := by
  have hin0 := hin (.R layer) (by simp)
  obtain ⟨a, ha, hp⟩ := accepted_path (by omega) h
  have hp0 := hp
  obtain ⟨hp1, hp2⟩ := hp0
  have hla : a = (S.n : ℤ) - 1 := by
    simp only [Step.src, Step.dst] at hin0 hp1
    omega
  rw [handed_works S h hin]
  have := works_fixed S hpass hmat hdir hiter x _ hx (.R layer :: l) a 0 hp hin (by simp [hla])
  simp only [↓reduceIte] at this
  simp only [begin_, hf, Option.map_some, this]

/-- `demo` meets the hypotheses, with the solution `3` as first approximation. -/
example : handed demo 2 (vCycle 2) true (some 3) = some 3 := by
  have h1 := two_accepted.1
  have h2 := two_accepted.2
  rw [two_steps] at h1 h2 ⊢
  exact solution_kept demo h1 h2 (fun _ _ _ => rfl) (fun l => by simp [Sys.mat, demo]) (by simp [demo, atMaster])
    (fun _ => rfl) (v := 3) (x := 3) rfl (by simp [Sys.mat, Sys.rhs, demo]; norm_num) true

/-- The system of `demo` distributed over two processes. -/
def demo2 : Sys ℚ Unit 2 where
  n := 2
  A := fun _ _ x => x
  b := fun _ r => if r = 0 then 5 else 1
  pass := fun _ _ _ v => some v
  direct := fun _ f => some ((f 0 + f 1) / 2)
  iter := fun _ _ x => some x
  first := fun x => some x
  last := fun x => some (x, ())

theorem demo_same : Same demo demo2 := by
  refine ⟨rfl, fun l x => ?_, fun l => ?_, fun _ _ _ _ => rfl, fun l f g h => ?_, fun _ _ _ _ _ => rfl, fun _ => rfl, fun _ => rfl⟩
  · simp [Sys.mat, demo, demo2]
  · norm_num [Sys.rhs, demo, demo2]
  · simp [Fin.sum_univ_two] at h
    simp [demo, demo2, h]

/-- Both return the same vector, `5`, for the V-cycle started at `4`. -/
example : solve demo2 2 (vCycle 2) false (some 4) = some (5, ()) := by
  have := solve_distribution demo_same (scheme := vCycle 2) two_accepted.1 two_accepted.2 true false (some 4)
  refine this.symm.trans ?_
  unfold solve
  rw [show demo.n = 2 from rfl, demo_handed]
  rfl

/-- An N-cycle on two layers: up to the solution `3` of the given system, and a correction `0`. -/
example : handed demo 2 (nCycle 2) true none = some 3 := by
  have h1 : Accepted 2 (nCycle 2) := Accepted.N 2
  have h2 := (vn_within_layers 2).2
  have e : nCycle 2 = [.I 0, .R 1, .I 0] := by decide +kernel
  rw [e] at h1 h2 ⊢
  have := handed_eq demo h1 h2 true none
  rw [show demo.n = 2 from rfl] at this
  rw [this]
  simp [begin_, works, work, demo, Sys.mat, Sys.rhs, atMaster]
  norm_num

/-! ### C103: the report and the arguments -/

/-- The result is the one of the last solver, started with the vector handed over. -/
theorem solve_last (S : Sys V O p) {layers : ℕ} {scheme : List Step} {clean : Bool} {x0 : Option V} {x : V} {o : O} :
    solve S layers scheme clean x0 = some (x, o) ↔
      ∃ y, handed S layers scheme clean x0 = some y ∧ S.last y = some (x, o) := by
  unfold solve
  cases handed S layers scheme clean x0 <;> simp

open Krylov in
/-- `linearSolver` is `gmres` on the top system. -/
noncomputable def gmresLast {n : ℕ} [NeZero p] (A : Fin p → Matrix (Fin n) (Fin n) ℝ) (f : Fin p → Vec n) (atol : ℝ) (m N : ℕ)
    (junk : Fin p → (ℕ → Vec n) × Vec n) (x : Vec n) : Option (Vec n × Krylov.Res n) :=
  match gmres A f x atol m (.int N) junk (N + 1) with
  | some (.inr r) => some (r.x, r)
  | _ => none

open Krylov in
/-- `linearSolver` is `lgmres` on the top system. -/
noncomputable def lgmresLast {n : ℕ} [NeZero p] (A : Fin p → Matrix (Fin n) (Fin n) ℝ) (f : Fin p → Vec n) (atol : ℝ) (inner outer N : ℕ)
    (junk : Fin p → (ℕ → Vec n) × Vec n) (x : Vec n) : Option (Vec n × Krylov.Res n) :=
  match lgmres A f x atol inner outer (.int N) junk (N + 1) with
  | some (.inr r) => some (r.x, r)
  | _ => none

open Krylov in
/-- **Truthful reports**, with `gmres`: whatever the cycles have done, the residual of the message is that of the returned vector, `info`
is 0 exactly if it is below the tolerance, and it is not larger than that of the vector handed over. -/
theorem solve_truthful_gmres {n : ℕ} [NeZero p] (S : Sys (Vec n) (Krylov.Res n) p) {A : Fin p → Matrix (Fin n) (Fin n) ℝ}
    {f : Fin p → Vec n} {atol : ℝ} {m N : ℕ} (hN : 0 < N) {junk : Fin p → (ℕ → Vec n) × Vec n}
    (hS : S.last = gmresLast A f atol m N junk) {layers : ℕ} {scheme : List Step} {clean : Bool} {x0 : Option (Vec n)} {x : Vec n}
    {o : Krylov.Res n} (h : solve S layers scheme clean x0 = some (x, o)) :
    o.beta = size (∑ r, A r) (∑ r, f r) x ∧ (o.info = 0 ↔ size (∑ r, A r) (∑ r, f r) x < atol) ∧
      ∃ y, handed S layers scheme clean x0 = some y ∧ size (∑ r, A r) (∑ r, f r) x ≤ size (∑ r, A r) (∑ r, f r) y := by
  obtain ⟨y, hy, hl⟩ := (solve_last S).1 h
  rw [hS] at hl
  unfold gmresLast at hl
  rcases hg : gmres A f y atol m (.int N) junk (N + 1) with _ | ⟨s | r⟩ <;> rw [hg] at hl <;> simp at hl
  obtain ⟨rfl, rfl⟩ := hl
  refine ⟨(gmres_result A f y atol junk hg).1, gmres_converged A f y atol junk hN hg, y, hy, ?_⟩
  obtain ⟨s, hs⟩ : ∃ s, gmres A f y atol m (.int N) junk 0 = some (.inl s) ∧ s.x = y := ⟨_, rfl, rfl⟩
  have := (gmres_residuals A f y atol (.int N) junk (d := N + 1) hs.1).2 r (by rw [Nat.zero_add]; exact hg)
  rwa [hs.2] at this

open Krylov in
/-- **Truthful reports**, with `lgmres`. -/
theorem solve_truthful_lgmres {n : ℕ} [NeZero p] (S : Sys (Vec n) (Krylov.Res n) p) {A : Fin p → Matrix (Fin n) (Fin n) ℝ}
    {f : Fin p → Vec n} {atol : ℝ} {inner outer N : ℕ} (hN : 0 < N) {junk : Fin p → (ℕ → Vec n) × Vec n}
    (hS : S.last = lgmresLast A f atol inner outer N junk) {layers : ℕ} {scheme : List Step} {clean : Bool} {x0 : Option (Vec n)}
    {x : Vec n} {o : Krylov.Res n} (h : solve S layers scheme clean x0 = some (x, o)) :
    o.beta = size (∑ r, A r) (∑ r, f r) x ∧ (o.info = 0 ↔ size (∑ r, A r) (∑ r, f r) x < atol) ∧
      ∃ y, handed S layers scheme clean x0 = some y ∧ size (∑ r, A r) (∑ r, f r) x ≤ size (∑ r, A r) (∑ r, f r) y := by
  obtain ⟨y, hy, hl⟩ := (solve_last S).1 h
  rw [hS] at hl
  unfold lgmresLast at hl
  rcases hg : lgmres A f y atol inner outer (.int N) junk (N + 1) with _ | ⟨s | r⟩ <;> rw [hg] at hl <;> simp at hl
  obtain ⟨rfl, rfl⟩ := hl
  refine ⟨(lgmres_result A f y atol junk hg).1, lgmres_converged A f y atol junk hN hg, y, hy, ?_⟩
  obtain ⟨s, hs⟩ : ∃ s, lgmres A f y atol inner outer (.int N) junk 0 = some (.inl s) ∧ s.x = y := ⟨_, rfl, rfl⟩
  have := (lgmres_residuals A f y atol (.int N) junk (d := N + 1) hs.1).2 r (by rw [Nat.zero_add]; exact hg)
  rwa [hs.2] at this

/-- **Which solver**: `lgmres` without arguments or with one of its own, `gmres` with `restart` alone; everything else is refused. -/
theorem choose_iff (kw : Kw) :
    (choose kw = some .lgmres ↔ kw.empty ∨ kw.inner ∨ kw.outer) ∧
    (choose kw = some .gmres ↔ kw.restart ∧ ¬ kw.inner ∧ ¬ kw.outer) ∧
    (choose kw = none ↔ ¬ kw.inner ∧ ¬ kw.outer ∧ ¬ kw.restart ∧ (kw.other ∨ kw.maxiter.isSome)) := by
  obtain ⟨a, b, c, d, m⟩ := kw
  cases a <;> cases b <;> cases c <;> cases d <;> cases m <;> simp [choose, Kw.empty]

/-- The arguments `atol` and `maxiter`, which both solvers take, are refused if they come without one that only one solver takes. -/
theorem arguments_refuted : choose { other := true } = none ∧ choose { maxiter := some (.int 100) } = none := by
  decide

/-- **Turns of the intermediate solutions**: between 1 and 5, a tenth of `maxiter` plus one. A forced number of turns (a string) is
refused. -/
theorem intermediate_turns (dflt : ℤ) (kw : Kw) :
    (kw.maxiter = none → intermediate dflt kw = some dflt) ∧
    (∀ N : ℕ, kw.maxiter = some (.int N) → intermediate dflt kw = some (min 5 (((N / 10 : ℕ) : ℤ) + 1))) ∧
    (∀ s, kw.maxiter = some (.forced s) → intermediate dflt kw = none) ∧
    ∀ m, 1 ≤ dflt → dflt ≤ 5 → intermediate dflt kw = some m → 1 ≤ m ∧ m ≤ 5 := by
  refine ⟨fun h => by simp [intermediate, h], fun N h => ?_, fun s h => by simp [intermediate, h], fun m h1 h2 h => ?_⟩
  · have ht : tenth (N : ℤ) = ((N / 10 : ℕ) : ℤ) := by
      unfold tenth
      rw [Int.tdiv_eq_ediv_of_nonneg (by omega)]
      rfl
    simp only [intermediate, h, ht]
    split_ifs with c1 c2
    · rw [min_eq_left (by omega)]
    · rw [min_eq_right (by omega)]
    · exfalso; omega
  · unfold intermediate at h
    split at h
    · cases h; exact ⟨h1, h2⟩
    · simp only at h
      split_ifs at h with c1 c2
      · cases h; omega
      · cases h; omega
    · cases h
    · cases h

/-! ### C104: level by level -/

theorem climb_iff (L : Levels V O) : ∀ (left l : ℕ) (x : V) (o : O) (y : V) (o' : O), 1 ≤ l → l + left = L.top + 1 → 1 ≤ left →
    (climb L left l x o = some (y, o') ↔
      ∃ X : ℕ → V, X (l - 1) = x ∧
        (∀ k, l ≤ k → k < L.top → ∃ v, L.up (k - 1) (X (k - 1)) = some v ∧ L.iter k v = some (X k)) ∧
        ∃ v, L.up (L.top - 1) (X (L.top - 1)) = some v ∧ L.last v = some (y, o')) := by
  intro left
  induction left with
  | zero => intro l x o y o' _ _ h; omega
  | succ left ih =>
    intro l x o y o' hl hs _
    unfold climb
    constructor
    · intro h
      cases hu : L.up (l - 1) x with
      | none => rw [hu] at h; cases h
      | some v =>
        simp only [hu] at h
        by_cases ht : l = L.top
        · simp only [ht, ↓reduceIte] at h
          refine ⟨fun _ => x, rfl, fun k h1 h2 => by omega, v, ?_, h⟩
          rw [← ht]; exact hu
        · simp only [ht, ↓reduceIte] at h
          cases hi : L.iter l v with
          | none => rw [hi] at h; cases h
          | some x' =>
            simp only [hi] at h
            obtain ⟨X, h1, h2, h3⟩ := (ih (l + 1) x' o y o' (by omega) (by omega) (by omega)).1 h
            refine ⟨fun k => if k = l - 1 then x else X k, by simp, ?_, ?_⟩
            · intro k hk1 hk2
              rcases Nat.eq_or_lt_of_le hk1 with rfl | hk
              · refine ⟨v, by simpa using hu, ?_⟩
                have e : ¬ l = l - 1 := by omega
                simp only [e, ↓reduceIte]
                rw [hi]
                simpa using h1.symm
              · have e1 : ¬ k - 1 = l - 1 := by omega
                have e2 : ¬ k = l - 1 := by omega
                simp only [e1, e2, ↓reduceIte]
                exact h2 k hk hk2
            · have e : ¬ L.top - 1 = l - 1 := by omega
              simp only [e, ↓reduceIte]
              exact h3
    · rintro ⟨X, h1, h2, v, h3, h4⟩
      by_cases ht : l = L.top
      · have : L.up (l - 1) x = some v := by rw [← h1, ht]; exact h3
        simp only [this]
        rw [if_pos ht]
        exact h4
      · obtain ⟨v', hv', hi⟩ := h2 l le_rfl (by omega)
        rw [h1] at hv'
        simp only [hv', ht, ↓reduceIte, hi]
        exact (ih (l + 1) (X l) o y o' (by omega) (by omega) (by omega)).2
          ⟨X, by simp, fun k hk1 hk2 => h2 k (by omega) hk2, v, h3, h4⟩

/-- **Level by level.**  With several levels, `solve('direct')` returns what the iterative solver with the given arguments returns on
the top level, started with the solution of the level below; every other level is improved from the one below, the lowest one is
solved directly. -/
theorem levels_iff (L : Levels V O) (ht : 1 ≤ L.top) (y : V) (o : O) :
    solveLevels L = some (y, o) ↔
      ∃ X : ℕ → V, L.direct = some (X 0) ∧
        (∀ k, 1 ≤ k → k < L.top → ∃ v, L.up (k - 1) (X (k - 1)) = some v ∧ L.iter k v = some (X k)) ∧
        ∃ v, L.up (L.top - 1) (X (L.top - 1)) = some v ∧ L.last v = some (y, o) := by
  unfold solveLevels
  cases hd : L.direct with
  | none => simp
  | some x =>
    simp only
    rw [climb_iff L L.top 1 x L.exact y o le_rfl (by omega) ht]
    simp only [Nat.sub_self, Option.some.injEq]
    constructor
    · rintro ⟨X, h1, h2⟩
      exact ⟨X, h1.symm, h2⟩
    · rintro ⟨X, h1, h2⟩
      exact ⟨X, h1.symm, h2⟩

/-- With a single level the direct solution is returned, reported as solved. -/
theorem one_level (L : Levels V O) (ht : L.top = 0) : solveLevels L = L.direct.map (·, L.exact) := by
  unfold solveLevels
  cases L.direct with
  | none => rfl
  | some x => simp [ht, climb]

/-- **Passing down.**  After the solution every lower level holds what has been passed from the level above. -/
theorem descend_iff (down : ℕ → V → Option V) : ∀ (l : ℕ) (x : V) (Y : List V),
    descend down l x = some Y ↔
      Y.length = l ∧ ∀ k, k < l → down (l - k) ((x :: Y)[k]?.getD x) = Y[k]? := by
  intro l
  induction l with
  | zero =>
    intro x Y
    simp only [descend]
    constructor
    · intro h
      cases h
      simp
    · rintro ⟨h, -⟩
      rw [List.length_eq_zero_iff.1 h]
  | succ l ih =>
    intro x Y
    simp only [descend]
    cases hd : down (l + 1) x with
    | none =>
      simp only [reduceCtorEq, false_iff, not_and]
      intro hl h
      have := h 0 (by omega)
      simp only [Nat.sub_zero, List.getElem?_cons_zero, Option.getD_some, hd] at this
      have := List.getElem?_eq_none_iff.1 this.symm
      omega
    | some y =>
      simp only [Option.map_eq_some_iff]
      constructor
      · rintro ⟨Z, hZ, rfl⟩
        obtain ⟨h1, h2⟩ := (ih y Z).1 hZ
        refine ⟨by simp [h1], fun k hk => ?_⟩
        cases k with
        | zero => simpa using hd
        | succ k =>
          have := h2 k (by omega)
          rw [show l + 1 - (k + 1) = l - k by omega]
          have hlt : k < (y :: Z).length := by simp; omega
          rw [List.getElem?_eq_getElem hlt] at this
          simp only [List.getElem?_cons_succ, List.getElem?_eq_getElem hlt]
          simpa using this
      · rintro ⟨h1, h2⟩
        cases Y with
        | nil => simp at h1
        | cons z Z =>
          have h0 := h2 0 (by omega)
          simp [hd] at h0
          subst h0
          refine ⟨Z, (ih y Z).2 ⟨by simpa using h1, fun k hk => ?_⟩, rfl⟩
          have := h2 (k + 1) (by omega)
          rw [show l + 1 - (k + 1) = l - k by omega] at this
          have hlt : k < (y :: Z).length := by simp at h1 ⊢; omega
          simp only [List.getElem?_cons_succ, List.getElem?_eq_getElem hlt] at this
          rw [List.getElem?_eq_getElem hlt]
          simpa using this

/-- Three levels with the numbers `7`, `7 + 1`, ... -/
def demoLevels : Levels ℚ ℕ where
  top := 2
  direct := some 7
  exact := 0
  up := fun _ x => some (x + 1)
  down := fun _ x => some (x - 1)
  iter := fun _ x => some (2 * x)
  last := fun x => some (x, 30)

example : solveLevels demoLevels = some (17, 30) := by
  simp [solveLevels, climb, demoLevels]
  norm_num

example : descend demoLevels.down 2 17 = some [16, 15] := by
  simp [descend, demoLevels]
  norm_num

end Phyem.MgSolver
