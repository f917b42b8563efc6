import Verif.MgSolver.Spec
import Verif.Multigrid.Lemmas
import Verif.Multigrid.Props

/-
The solver with its record of steps does what the stack of works does.
-/

namespace Phyem.MgSolver

open Phyem.Multigrid

/-! ### The pairing read forwards -/

/-- The pairing of the steps `k, k + 1, ...`, the restrictions in the list waiting. -/
def fwd : ℕ → List ℕ → List Step → List (ℕ × Option ℕ)
  | _, _, [] => []
  | k, [], .I _ :: l => (k, none) :: fwd (k + 1) [] l
  | k, r :: S, .I _ :: l => (k, some r) :: fwd (k + 1) S l
  | k, S, .R _ :: l => fwd (k + 1) (k :: S) l

/-- The interpolations left over close the waiting restrictions. -/
def close : List ℕ → List ℕ → List (ℕ × Option ℕ)
  | [], _ => []
  | i :: st, [] => (i, none) :: close st []
  | i :: st, r :: S => (i, some r) :: close st S

theorem close_nil (st : List ℕ) : close st [] = st.map (fun i => (i, none)) := by
  induction st with
  | nil => rfl
  | cons i st ih => simp [close, ih]

theorem fwd_perm : ∀ (l : List Step) (k : ℕ) (S stack : List ℕ) (dict : List (ℕ × Option ℕ)),
    aux k l = some (stack, dict) → (fwd k S l).Perm (dict ++ close stack S) := by
  intro l
  induction l with
  | nil =>
    intro k S stack dict h
    simp [aux] at h
    obtain ⟨rfl, rfl⟩ := h
    simp [fwd, close]
  | cons s l ih =>
    intro k S stack dict h
    rw [aux_cons] at h
    cases ha : aux (k + 1) l with
    | none => rw [ha] at h; cases h
    | some q =>
      obtain ⟨st, d⟩ := q
      rw [ha] at h
      cases s with
      | I x =>
        simp [pairStep] at h
        obtain ⟨rfl, rfl⟩ := h
        cases S with
        | nil =>
          simp only [fwd, close]
          exact ((ih (k + 1) [] st d ha).cons _).trans List.perm_middle.symm
        | cons r S =>
          simp only [fwd, close]
          exact ((ih (k + 1) S st d ha).cons _).trans List.perm_middle.symm
      | R x =>
        cases st with
        | nil => simp [pairStep] at h
        | cons i st =>
          simp [pairStep] at h
          obtain ⟨rfl, rfl⟩ := h
          have := ih (k + 1) (k :: S) (i :: st) d ha
          simp only [fwd, close] at this ⊢
          simpa using this

theorem lookup_mem {d : List (ℕ × Option ℕ)} (hd : (d.map Prod.fst).Nodup) {k : ℕ} {v : Option ℕ} (h : (k, v) ∈ d) :
    d.lookup k = some v := by
  induction d with
  | nil => cases h
  | cons q d ih =>
    obtain ⟨k', v'⟩ := q
    simp only [List.map_cons, List.nodup_cons] at hd
    rcases List.mem_cons.1 h with h' | h'
    · cases h'
      simp [List.lookup]
    · have hne : k ≠ k' := by
        rintro rfl
        exact hd.1 (List.mem_map.2 ⟨(k, v), h', rfl⟩)
      have : (k == k') = false := by simpa using hne
      rw [List.lookup_cons, this]
      exact ih hd.2 h'

/-- The pairing computed is the one read forwards. -/
theorem pairs_fwd {l : List Step} {a b : ℤ} (hp : Path a l b) {pairs' : List (ℕ × Option ℕ)} (h : pairs l = some pairs') :
    ∀ q ∈ fwd 0 [] l, pairOf pairs' q.1 = some q.2 := by
  intro q hq
  rw [pairs_eq] at h
  cases ha : aux 0 l with
  | none => rw [ha] at h; cases h
  | some s =>
    obtain ⟨stack, dict⟩ := s
    rw [ha] at h
    simp at h
    have hperm := fwd_perm l 0 [] stack dict ha
    rw [close_nil, h] at hperm
    have hprop := proper_of_inv (aux_inv l l 0 a b (by simp) hp stack dict ha)
    rw [h] at hprop
    exact lookup_mem hprop.nodup (hperm.mem_iff.1 hq)

/-! ### The record of the steps -/

variable {V O : Type} {p : ℕ} [AddCommGroup V]

theorem sum_atMaster [NeZero p] (v : V) : ∑ r : Fin p, atMaster v r = v := by
  have : ∀ r : Fin p, atMaster v r = if r = 0 then v else 0 := by
    intro r
    unfold atMaster
    by_cases h : r = 0
    · subst h; simp
    · have : r.1 ≠ 0 := fun h0 => h (Fin.ext (by simpa using h0))
      simp [h, this]
  simp [this]

theorem sum_residual (S : Sys V O p) (l : ℕ) (x : V) (f : Fin p → V) :
    ∑ r, residual S l x f r = S.mat l x - ∑ r, f r := by
  simp [residual, Sys.mat]

/-- A right hand side is recorded. -/
def RhsOK (d : Data V p) (w : Work V) : Prop := ∃ f, d.rhs = some f ∧ (∑ r, f r) = w.b

/-- The input of a waiting restriction. -/
def WaitOK (st : St V p) (r : ℕ) (w : Work V) : Prop :=
  ∃ io, st.io r = some io ∧ io.inp.x = w.x ∧ RhsOK io.inp w

/-- What step `s` is going to read. -/
def Reads (st : St V p) (s : ℕ) (d : Data V p) : Prop :=
  (s = 0 ∧ ∃ o, st.io 0 = some ⟨d, o⟩) ∨ (s ≠ 0 ∧ ∃ i, st.io (s - 1) = some ⟨i, some d⟩)

structure Inv (S : Sys V O p) (scheme : List Step) (pairs : List (ℕ × Option ℕ)) (s : ℕ) (l : List Step) (layer : ℤ)
    (st : St V p) (w : Work V) (wait : List (Work V)) (R : List ℕ) : Prop where
  suffix : scheme.drop s = l
  decision : ∀ q ∈ fwd s R l, pairOf pairs q.1 = some q.2
  sorted : R.Pairwise (· > ·)
  below : ∀ r ∈ R, r < s
  restr : ∀ r ∈ R, ∃ x, scheme[r]? = some (.R x)
  waiting : List.Forall₂ (WaitOK st) R wait
  cur : ∃ d, Reads st s d ∧ d.x = w.x ∧ (∑ r, d.err r) = S.mat layer.toNat w.x - w.b ∧
    (RhsOK d w ∨ (s = 0 ∧ ∃ x l', l = .I x :: l'))

theorem pyIdx_in {n : ℕ} {l : ℤ} (h : 0 ≤ l) (h' : l < n) : pyIdx n l = some l.toNat := by
  simp [pyIdx, h, h']

theorem entered_eq {st : St V p} {s : ℕ} {d : Data V p} (h : Reads st s d) :
    ∃ o, entered st s = some (⟨d, o⟩ : IO V p) := by
  unfold entered
  rcases h with ⟨rfl, o, h⟩ | ⟨h0, i, h⟩
  · exact ⟨o, by simp [h]⟩
  · exact ⟨none, by simp [h0, h]⟩

theorem wait_mono {st st' : St V p} {R : List ℕ} {wait : List (Work V)} (h : List.Forall₂ (WaitOK st) R wait)
    (hm : ∀ r ∈ R, st'.io r = st.io r) : List.Forall₂ (WaitOK st') R wait := by
  induction h with
  | nil => exact .nil
  | cons h _ ih =>
    refine .cons ?_ (ih fun r hr => hm r (by simp [hr]))
    obtain ⟨io, h1, h2⟩ := h
    exact ⟨io, by rw [hm _ (by simp), h1], h2⟩

/-- One step: both fail or both go on, related again. -/
theorem step_ok [NeZero p] {S : Sys V O p} {scheme : List Step} {pairs : List (ℕ × Option ℕ)} {clean : Bool} {s : ℕ} {step : Step}
    {l : List Step} {st : St V p} {w : Work V} {wait : List (Work V)} {R : List ℕ}
    (hin : (0 ≤ step.src ∧ step.src < S.n) ∧ (0 ≤ step.dst ∧ step.dst < S.n))
    (I : Inv S scheme pairs s (step :: l) step.src st w wait R) :
    (pass S scheme pairs clean s step st = none ∧ work S step (w, wait) = none) ∨
    ∃ st' w' wait' R', pass S scheme pairs clean s step st = some st' ∧ work S step (w, wait) = some (w', wait') ∧
      Inv S scheme pairs (s + 1) l step.dst st' w' wait' R' := by
  obtain ⟨d, hr, hx, he, hrhs⟩ := I.cur
  obtain ⟨o, hent⟩ := entered_eq hr
  have hs : scheme[s]? = some step := by
    have := congrArg List.head? I.suffix
    simpa using this
  have hdrop : scheme.drop (s + 1) = l := by
    rw [← List.drop_drop, I.suffix]; simp
  unfold pass
  simp only [hent]
  cases step with
  | I layer =>
    simp only [Step.src, Step.dst] at hin he ⊢
    have hl : pyIdx S.n layer = some layer.toNat := pyIdx_in hin.1.1 hin.1.2
    have hu : pyIdx S.n (layer + 1) = some (layer + 1).toNat := pyIdx_in hin.2.1 hin.2.2
    cases R with
    | nil =>
      have hw : wait = [] := by cases I.waiting; rfl
      subst hw
      have hdec := I.decision
      simp only [fwd, List.mem_cons, forall_eq_or_imp] at hdec
      simp only [hdec.1, stepUp, hl, hu, work, hx]
      cases hp : S.pass false layer.toNat (layer + 1).toNat w.x with
      | none => exact Or.inl ⟨rfl, rfl⟩
      | some v =>
        simp only
        cases hi : S.iter (layer + 1).toNat (S.b (layer + 1).toNat) v with
        | none => exact Or.inl ⟨rfl, rfl⟩
        | some x =>
          refine Or.inr ⟨_, _, _, [], rfl, rfl, ⟨hdrop, hdec.2, .nil, by simp, by simp, .nil, ?_⟩⟩
          refine ⟨⟨x, residual S (layer + 1).toNat x (S.b (layer + 1).toNat), some (S.b (layer + 1).toNat)⟩,
            Or.inr ⟨by omega, d, by simp⟩, rfl, ?_, Or.inl ⟨_, rfl, rfl⟩⟩
          rw [sum_residual]; rfl
    | cons r R =>
      cases hwt : I.waiting with
      | cons h0 hrest =>
        rename_i old wait'
        have hdec := I.decision
        simp only [fwd, List.mem_cons, forall_eq_or_imp] at hdec
        obtain ⟨xr, hxr⟩ := I.restr r (by simp)
        obtain ⟨io, hio, hox, f, hf, hfb⟩ := h0
        have hrs : r < s := I.below r (by simp)
        simp only [hdec.1, hxr, hio, stepBack, hl, hu, work, hx, hf, hox]
        cases hp : S.pass false layer.toNat (layer + 1).toNat w.x with
        | none => exact Or.inl ⟨rfl, rfl⟩
        | some dx =>
          refine Or.inr ⟨_, _, _, R, rfl, rfl, ⟨hdrop, hdec.2, (List.pairwise_cons.1 I.sorted).2, ?_, ?_, ?_, ?_⟩⟩
          · intro t ht
            have := I.below t (by simp [ht])
            omega
          · intro t ht
            exact I.restr t (by simp [ht])
          · refine wait_mono hrest fun t ht => ?_
            have h1 := (List.pairwise_cons.1 I.sorted).1 t ht
            have h2 := I.below t (by simp [ht])
            cases clean
            · simp [Function.update_of_ne (show t ≠ s by omega)]
            · simp [Function.update_of_ne (show t ≠ s by omega), Function.update_of_ne (show t ≠ r by omega),
                Function.update_of_ne (show t ≠ s - 1 by omega)]
          · refine ⟨⟨old.x + dx, residual S (layer + 1).toNat (old.x + dx) f, some f⟩,
              Or.inr ⟨by omega, d, ?_⟩, rfl, ?_, Or.inl ⟨f, rfl, hfb⟩⟩
            · cases clean
              · simp
              · simp [Function.update_of_ne (show s ≠ r by omega), Function.update_of_ne (show s ≠ s - 1 by omega)]
            · rw [sum_residual, hfb]
  | R layer =>
    simp only [Step.src, Step.dst] at hin he ⊢
    have hu : pyIdx S.n layer = some layer.toNat := pyIdx_in hin.1.1 hin.1.2
    have hl : pyIdx S.n (layer - 1) = some (layer - 1).toNat := pyIdx_in hin.2.1 hin.2.2
    have hrhs' : RhsOK d w := by
      rcases hrhs with h | ⟨_, x, l', h⟩
      · exact h
      · simp at h
    simp only [stepDown, hl, hu, work, he]
    cases hp : S.pass true layer.toNat (layer - 1).toNat (S.mat layer.toNat w.x - w.b) with
    | none => exact Or.inl ⟨rfl, rfl⟩
    | some e =>
      simp only
      have hz : (if layer - 1 = 0 then S.direct (layer - 1).toNat (atMaster e) else S.iter (layer - 1).toNat (atMaster e) 0) =
          (if layer - 1 = 0 then S.direct 0 (atMaster e) else S.iter (layer - 1).toNat (atMaster e) 0) := by
        split_ifs with h
        · rw [h]; rfl
        · rfl
      rw [hz]
      cases hi : (if layer - 1 = 0 then S.direct 0 (atMaster e) else S.iter (layer - 1).toNat (atMaster e) 0) with
      | none => exact Or.inl ⟨rfl, rfl⟩
      | some x =>
        have hun : ∀ t ∈ s :: R, unpaired scheme pairs t = false := by
          intro t ht
          rcases List.mem_cons.1 ht with rfl | ht
          · simp [unpaired, hs]
          · obtain ⟨y, hy⟩ := I.restr t ht
            simp [unpaired, hy]
        have hne : ∀ t ∈ R, t ≠ s := fun t ht => by have := I.below t ht; omega
        refine Or.inr ⟨if (clean && st.fresh) = true then
            ⟨fun t => if unpaired scheme pairs t then none
              else Function.update st.io s (some ⟨d, some ⟨x, residual S (layer - 1).toNat x (atMaster e), some (atMaster e)⟩⟩) t, false⟩
          else ⟨Function.update st.io s (some ⟨d, some ⟨x, residual S (layer - 1).toNat x (atMaster e), some (atMaster e)⟩⟩),
            st.fresh⟩, ⟨x, e⟩, w :: wait, s :: R, ?_, rfl, ⟨hdrop, ?_, ?_, ?_, ?_, ?_, ?_⟩⟩
        · split_ifs <;> rfl
        · have := I.decision
          cases R <;> exact this
        · exact List.pairwise_cons.2 ⟨fun t ht => I.below t ht, I.sorted⟩
        · intro t ht
          rcases List.mem_cons.1 ht with rfl | ht
          · omega
          · have := I.below t ht; omega
        · intro t ht
          rcases List.mem_cons.1 ht with rfl | ht
          · exact ⟨_, hs⟩
          · exact I.restr t ht
        · refine .cons ?_ (wait_mono I.waiting fun t ht => ?_)
          · refine ⟨⟨d, some ⟨x, residual S (layer - 1).toNat x (atMaster e), some (atMaster e)⟩⟩, ?_, hx, hrhs'⟩
            split_ifs
            · simp [hun s (by simp)]
            · simp
          · split_ifs
            · simp [hun t (by simp [ht]), Function.update_of_ne (hne t ht)]
            · simp [Function.update_of_ne (hne t ht)]
        · refine ⟨⟨x, residual S (layer - 1).toNat x (atMaster e), some (atMaster e)⟩,
            Or.inr ⟨by omega, d, ?_⟩, rfl, ?_, ?_⟩
          · split_ifs
            · simp [hun s (by simp)]
            · simp
          · rw [sum_residual, sum_atMaster]
          · exact Or.inl ⟨_, rfl, sum_atMaster e⟩

/-- All steps. -/
theorem loop_ok [NeZero p] {S : Sys V O p} {scheme : List Step} {pairs : List (ℕ × Option ℕ)} {clean : Bool} {b : ℤ} :
    ∀ (l : List Step) (s : ℕ) (layer : ℤ) (st : St V p) (w : Work V) (wait : List (Work V)) (R : List ℕ),
    Path layer l b → WithinLayers S.n l → Inv S scheme pairs s l layer st w wait R →
    (loop S scheme pairs clean s l st = none ∧ works S l (w, wait) = none) ∨
    ∃ st' w' wait' R', loop S scheme pairs clean s l st = some st' ∧ works S l (w, wait) = some (w', wait') ∧
      Inv S scheme pairs (s + l.length) [] b st' w' wait' R' := by
  intro l
  induction l with
  | nil =>
    intro s layer st w wait R hp _ I
    obtain rfl : layer = b := hp
    exact Or.inr ⟨st, w, wait, R, rfl, rfl, I⟩
  | cons step l ih =>
    intro s layer st w wait R hp hin I
    obtain ⟨rfl, hp⟩ := hp
    rcases step_ok (clean := clean) (hin step (by simp)) I with ⟨h1, h2⟩ | ⟨st', w', wait', R', h1, h2, I'⟩
    · exact Or.inl ⟨by simp [loop, h1], by simp [works, h2]⟩
    · have := ih (s + 1) step.dst st' w' wait' R' hp (fun t ht => hin t (by simp [ht])) I'
      simp only [loop, works, h1, h2, List.length_cons]
      rwa [show s + (l.length + 1) = s + 1 + l.length by omega]

/-- The vector handed to the last solver, for every scheme that stays within the layers. -/
theorem handed_works [NeZero p] (S : Sys V O p) {step : Step} {l : List Step} (h : Accepted S.n (step :: l))
    (hin : WithinLayers S.n (step :: l)) (clean : Bool) (x0 : Option V) :
    handed S S.n (step :: l) clean x0 =
      match begin_ S x0 step with
      | none => none
      | some w => (works S (step :: l) (w, [])).map (·.1.x) := by
  have hn : 1 ≤ S.n := by
    have := hin step (by simp)
    omega
  obtain ⟨a, ha, hp⟩ := accepted_path hn h
  obtain ⟨pairs', hpairs⟩ := (pairs_defined_iff hn h).2 (fun s hs => by have := hin s hs; omega)
  have hsrc : step.src = a := hp.1.symm
  have hin0 := hin step (by simp)
  -- the last step
  obtain ⟨z, hz⟩ : ∃ z, (step :: l).getLast? = some z := ⟨_, List.getLast?_eq_getLast (by simp)⟩
  have hzd := hp.last z hz
  have hzin := hin z (List.mem_of_getLast? hz)
  obtain ⟨y, rfl, hy⟩ : ∃ y, z = .I y ∧ y + 1 = (S.n : ℤ) - 1 := by
    cases z with
    | I y => exact ⟨y, rfl, hzd⟩
    | R y => simp [Step.src, Step.dst] at hzd hzin; omega
  unfold handed
  simp only [↓reduceIte, hz, hy, hpairs]
  -- the first input
  have hstart : (start S x0 step = none ∧ begin_ S x0 step = none) ∨
      ∃ d w, start S x0 step = some d ∧ begin_ S x0 step = some w ∧ d.x = w.x ∧
        (∑ r, d.err r) = S.mat step.src.toNat w.x - w.b ∧ (RhsOK d w ∨ ∃ x, step = .I x) := by
    cases step with
    | I layer =>
      have h0 : layer = 0 := by
        simp [Step.src, Step.dst] at hsrc hin0
        omega
      subst h0
      simp only [start, begin_, ↓reduceIte]
      cases hd : S.direct 0 (S.b 0) with
      | none => exact Or.inl ⟨rfl, rfl⟩
      | some x => exact Or.inr ⟨_, _, rfl, rfl, rfl, by rw [sum_residual]; rfl, Or.inr ⟨_, rfl⟩⟩
    | R layer =>
      have h0 : layer = (S.n : ℤ) - 1 := by
        simp [Step.src, Step.dst] at hsrc hin0
        omega
      simp only [start, begin_, h0, ↓reduceIte]
      cases x0 with
      | none => exact Or.inl ⟨rfl, rfl⟩
      | some v =>
        simp only
        cases hf : S.first v with
        | none => exact Or.inl ⟨rfl, rfl⟩
        | some x =>
          refine Or.inr ⟨_, _, rfl, rfl, rfl, ?_, Or.inl ⟨_, rfl, rfl⟩⟩
          rw [sum_residual]
          have : (Step.src (.R ((S.n : ℤ) - 1))).toNat = S.n - 1 := by simp only [Step.src]; omega
          rw [this]; rfl
  rcases hstart with ⟨h1, h2⟩ | ⟨d, w, h1, h2, hx, he, hr⟩
  · rw [h1, h2]
  · rw [h1, h2]
    have I : Inv S (step :: l) pairs' 0 (step :: l) step.src
        ⟨Function.update (fun _ => none) 0 (some ⟨d, none⟩), false⟩ w [] [] := by
      refine ⟨by simp, pairs_fwd hp hpairs, .nil, by simp, by simp, .nil, d, Or.inl ⟨rfl, none, by simp⟩, hx, he, ?_⟩
      rcases hr with hr | ⟨x, rfl⟩
      · exact Or.inl hr
      · exact Or.inr ⟨rfl, x, l, rfl⟩
    rw [← hsrc] at hp
    rcases loop_ok (clean := clean) (step :: l) 0 step.src _ w [] [] hp hin I with ⟨h3, h4⟩ | ⟨st', w', wait', R', h3, h4, I'⟩
    · simp only [h3, h4, Option.map_none]
    · simp only [h3, h4, Option.map_some]
      obtain ⟨d', hd', hx', -⟩ := I'.cur
      rcases hd' with ⟨h0, -⟩ | ⟨-, i, hi⟩
      · simp at h0
      · simp only [Nat.zero_add] at hi
        simp only [hi, Option.map_some, hx']

end Phyem.MgSolver
