import Verif.Krylov.Model
import Mathlib.Tactic.Linarith
import Mathlib.Tactic.Ring

/-!
# Iterative solvers: the processes together do what one process does
-/

namespace Phyem.Krylov

open Matrix Finset

/-- The arrays of a sequential program: the vectors and the matrix `H`. -/
structure Q (n : ℕ) where
  v : ℕ → Vec n
  H : ℕ → ℕ → ℝ

variable {n : ℕ}

/-- One turn of the sequential inner loop for the vector `u = A w`. -/
noncomputable def qHat (j : ℕ) (u : Vec n) (v : ℕ → Vec n) : Vec n := u - ∑ a ∈ range (j + 1), (u ⬝ᵥ v a) • v a

/-- The new matrix. -/
noncomputable def qH (j : ℕ) (u : Vec n) (q : Q n) : ℕ → ℕ → ℝ := fun a b =>
  if b = j then (if a ≤ j then u ⬝ᵥ q.v a else if a = j + 1 then norm2 (qHat j u q.v) else 0) else q.H a b

/-- One turn of the sequential inner loop. -/
noncomputable def qStep (restart j : ℕ) (u : Vec n) (q : Q n) : Option (Q n) :=
  if j + 1 < restart then
    if norm2 (qHat j u q.v) = 0 then none
    else some ⟨Function.update q.v (j + 1) ((norm2 (qHat j u q.v))⁻¹ • qHat j u q.v), qH j u q⟩
  else if j = 0 then none
  else some ⟨q.v, qH j u q⟩

/-- The first `j` turns, `U j v` being the product of the matrix with the direction. -/
noncomputable def qArnoldi (restart : ℕ) (U : ℕ → Vec n → Vec n) (q : Q n) : ℕ → Option (Q n)
  | 0 => some q
  | j + 1 => (qArnoldi restart U q j).bind fun q => qStep restart j (U j (q.v j)) q

theorem mem_localInd {p m r i : ℕ} : i ∈ localInd p m r ↔ i < m ∧ i % p = r := by
  simp [localInd]

theorem takeWhile_le (j : ℕ) : ∀ l : List ℕ, l.Pairwise (· < ·) →
    (l.takeWhile fun i => decide (i ≤ j)) = l.filter fun i => decide (i ≤ j)
  | [], _ => rfl
  | a :: l, h => by
    rw [List.pairwise_cons] at h
    by_cases ha : a ≤ j
    · rw [List.takeWhile_cons_of_pos (by simpa using ha), List.filter_cons_of_pos (by simpa using ha),
        takeWhile_le j l h.2]
    · rw [List.takeWhile_cons_of_neg (by simpa using ha), List.filter_cons_of_neg (by simpa using ha),
        eq_comm, List.filter_eq_nil_iff]
      intro b hb
      have := h.1 b hb
      simp only [decide_eq_true_eq]
      omega

theorem loc_eq (p m r j : ℕ) : ((localInd p m r).takeWhile fun i => decide (i ≤ j)) =
    (List.range m).filter fun i => decide (i % p = r ∧ i ≤ j) := by
  rw [takeWhile_le, localInd, List.filter_filter]
  · refine List.filter_congr fun i _ => ?_
    by_cases h1 : i % p = r <;> by_cases h2 : i ≤ j <;> simp [h1, h2]
  · exact (List.pairwise_lt_range).filter _

theorem list_sum {M : Type} [AddCommMonoid M] (q : ℕ → Prop) [DecidablePred q] (g : ℕ → M) (m : ℕ) :
    (((List.range m).filter fun i => decide (q i)).map g).sum = ∑ i ∈ range m, if q i then g i else 0 := by
  induction m with
  | zero => simp
  | succ m ih =>
    rw [List.range_succ, List.filter_append, List.map_append, List.sum_append, ih, sum_range_succ]
    by_cases h : q m <;> simp [h]

variable {p : ℕ} [NeZero p]

theorem owner_iff (i : ℕ) (r : Fin p) : i % p = (r : ℕ) ↔ r = Fin.ofNat p i := by
  rw [Fin.ext_iff, Fin.val_ofNat]
  exact eq_comm

/-- The parts of all processes together. -/
theorem sum_loc {M : Type} [AddCommMonoid M] {m j : ℕ} (hj : j < m) (g : ℕ → M) :
    ∑ r : Fin p, (((localInd p m r).takeWhile fun i => decide (i ≤ j)).map g).sum = ∑ i ∈ range (j + 1), g i := by
  have h1 : ∀ r : Fin p, (((localInd p m r).takeWhile fun i => decide (i ≤ j)).map g).sum =
      ∑ i ∈ range m, if r = Fin.ofNat p i then (if i ≤ j then g i else 0) else 0 := by
    intro r
    rw [loc_eq, list_sum (fun i => i % p = (r : ℕ) ∧ i ≤ j)]
    refine sum_congr rfl fun i _ => ?_
    rw [← ite_and]
    exact if_congr (and_congr_left' (owner_iff i r)) rfl rfl
  rw [sum_congr rfl fun r _ => h1 r, sum_comm]
  simp only [Finset.sum_ite_eq', Finset.mem_univ, if_true]
  rw [← sum_filter]
  refine sum_congr ?_ fun _ _ => rfl
  ext i
  simp only [mem_filter, mem_range]
  omega

/-- No process has written in the part of `H` that belongs to another one. -/
def HOK (R : Fin p → Rank n) : Prop :=
  ∀ r a b, (R r).H a b ≠ 0 → a ≤ b + 1 ∧ (a ≤ b → r = Fin.ofNat p a) ∧ (a = b + 1 → r = 0)

/-- The arrays of the processes before the turn `j` against the sequential ones. -/
structure Rel (m j : ℕ) (R : Fin p → Rank n) (q : Q n) : Prop where
  master : ∀ i ≤ j, i < m → (R 0).vs i = q.v i
  cur : ∀ r, r ≠ 0 → j < m → (R r).cur = q.v j
  other : ∀ r, r ≠ 0 → ∀ i < j, i < m → r = Fin.ofNat p i → (R r).vs i = q.v i
  sum : ∀ b < j, ∀ a, ∑ r, (R r).H a b = q.H a b
  ok : HOK R

theorem own_eq {m j : ℕ} {R : Fin p → Rank n} {q : Q n} (h : Rel m j R q) (hj : j < m) (r : Fin p) :
    own j R r = q.v j := by
  unfold own
  split_ifs with hr
  · subst hr
    exact h.master j le_rfl hj
  · exact h.cur r hr hj

theorem step_rel {m j : ℕ} {R : Fin p → Rank n} {q : Q n} (h : Rel m j R q) (hj : j < m) (Av : Fin p → Vec n) :
    Option.Rel (Rel m (j + 1)) (arnoldiStep m j Av R) (qStep m j (∑ r, Av r) q) := by
  -- the arrays after the current vector is stored
  obtain ⟨R1, hR1⟩ : ∃ R1 : Fin p → Rank n, R1 = fun r => if r = 0 then R r
    else if j ∈ localInd p m r then { R r with vs := Function.update (R r).vs j (R r).cur }
    else R r := ⟨_, rfl⟩
  have vs1 : ∀ r i, i ≤ j → r = Fin.ofNat p i → (R1 r).vs i = q.v i := by
    intro r i hi hr
    rw [hR1]
    simp only
    split_ifs with h0 h1
    · rw [h0]
      exact h.master i hi (by omega)
    · change Function.update (R r).vs j (R r).cur i = q.v i
      by_cases hij : i = j
      · rw [hij, Function.update_self]
        exact h.cur r h0 hj
      · rw [Function.update_of_ne hij]
        exact h.other r h0 i (by omega) (by omega) hr
    · have hij : i ≠ j := by
        rintro rfl
        exact h1 (mem_localInd.mpr ⟨hj, (owner_iff i r).mpr hr⟩)
      exact h.other r h0 i (by omega) (by omega) hr
  have mas1 : ∀ i ≤ j, (R1 0).vs i = q.v i := by
    intro i hi
    rw [hR1]
    simp only [if_true]
    exact h.master i hi (by omega)
  obtain ⟨AVJ, hA⟩ : ∃ AVJ, AVJ = ∑ r, Av r := ⟨_, rfl⟩
  have mem_loc : ∀ (r : Fin p) i, i ∈ ((localInd p m r).takeWhile fun i => decide (i ≤ j)) ↔ i ≤ j ∧ r = Fin.ofNat p i := by
    intro r i
    rw [loc_eq, List.mem_filter, List.mem_range, ← owner_iff]
    simp only [decide_eq_true_eq]
    constructor
    · exact fun h => ⟨h.2.2, h.2.1⟩
    · exact fun h => ⟨by omega, h.2, h.1⟩
  have hsum : ∑ r, (((localInd p m (r : Fin p)).takeWhile fun i => decide (i ≤ j)).map
      fun i => (∑ x, AVJ x * (R1 r).vs i x) • (R1 r).vs i).sum = ∑ a ∈ range (j + 1), (AVJ ⬝ᵥ q.v a) • q.v a := by
    rw [← sum_loc (p := p) hj]
    refine sum_congr rfl fun r _ => congrArg List.sum (List.map_congr_left fun i hi => ?_)
    obtain ⟨h1, h2⟩ := (mem_loc r i).mp hi
    rw [vs1 r i h1 h2]
    rfl
  have hhat : AVJ - ∑ r, (((localInd p m (r : Fin p)).takeWhile fun i => decide (i ≤ j)).map
      fun i => (∑ x, AVJ x * (R1 r).vs i x) • (R1 r).vs i).sum = qHat j AVJ q.v := by
    rw [hsum, qHat]
  obtain ⟨Hn, hHn⟩ : ∃ Hn : Fin p → ℕ → ℕ → ℝ, Hn = fun (r : Fin p) a b =>
    if r = 0 ∧ a = j + 1 ∧ b = j then norm2 (qHat j AVJ q.v)
    else if b = j ∧ a ∈ ((localInd p m r).takeWhile fun i => decide (i ≤ j)) then ∑ x, AVJ x * (R1 r).vs a x
    else (R r).H a b := ⟨_, rfl⟩
  have hdef : arnoldiStep m j Av R = if j + 1 < m then
    if norm2 (qHat j AVJ q.v) = 0 then none
    else some fun r =>
      if r = 0 then ⟨Function.update (R1 r).vs (j + 1) ((norm2 (qHat j AVJ q.v))⁻¹ • qHat j AVJ q.v), (R1 r).cur, Hn r⟩
      else ⟨(R1 r).vs, (norm2 (qHat j AVJ q.v))⁻¹ • qHat j AVJ q.v, Hn r⟩
    else if j = 0 then none
    else some fun r => ⟨(R1 r).vs, (R1 r).cur, Hn r⟩ := by
    rw [hHn, ← hhat, hA, hR1]
    rfl
  have okH : ∀ r a b, Hn r a b ≠ 0 → a ≤ b + 1 ∧ (a ≤ b → r = Fin.ofNat p a) ∧ (a = b + 1 → r = 0) := by
    intro r a b hne
    rw [hHn] at hne
    simp only at hne
    split_ifs at hne with h1 h2
    · exact ⟨by omega, fun _ => by omega, fun _ => h1.1⟩
    · obtain ⟨h3, h4⟩ := (mem_loc r a).mp h2.2
      exact ⟨by omega, fun _ => h4, fun _ => by omega⟩
    · exact h.ok r a b hne
  have sumH : ∀ b < j + 1, ∀ a, ∑ r, Hn r a b = qH j AVJ q a b := by
    intro b hb a
    by_cases hbj : b = j
    · subst hbj
      rw [qH, if_pos rfl]
      by_cases ha : a ≤ b
      · rw [if_pos ha, sum_eq_single (Fin.ofNat p a)]
        · rw [hHn]
          simp only
          rw [if_neg (by omega), if_pos ⟨trivial, (mem_loc _ _).mpr ⟨ha, rfl⟩⟩, vs1 _ a ha rfl]
          rfl
        · intro r _ hr
          by_contra hne
          exact hr ((okH r a b hne).2.1 ha)
        · intro hh
          exact absurd (mem_univ _) hh
      · rw [if_neg ha]
        by_cases ha1 : a = b + 1
        · rw [if_pos ha1, sum_eq_single 0]
          · rw [hHn]
            simp only
            rw [if_pos ⟨trivial, ha1, trivial⟩]
          · intro r _ hr
            by_contra hne
            exact hr ((okH r a b hne).2.2 ha1)
          · intro hh
            exact absurd (mem_univ _) hh
        · rw [if_neg ha1]
          refine sum_eq_zero fun r _ => ?_
          by_contra hne
          have := (okH r a b hne).1
          omega
    · rw [qH, if_neg hbj, ← h.sum b (by omega) a]
      refine sum_congr rfl fun r _ => ?_
      rw [hHn]
      simp only
      rw [if_neg (by tauto), if_neg (by tauto)]
  have other1 : ∀ r : Fin p, r ≠ 0 → ∀ i < j + 1, i < m → r = Fin.ofNat p i → (R1 r).vs i = q.v i :=
    fun r _ i hi _ hr => vs1 r i (by omega) hr
  rw [hdef, ← hA]
  unfold qStep
  by_cases hj1 : j + 1 < m
  · rw [if_pos hj1, if_pos hj1]
    by_cases h0 : norm2 (qHat j AVJ q.v) = 0
    · rw [if_pos h0, if_pos h0]
      exact Option.Rel.none
    · rw [if_neg h0, if_neg h0]
      refine Option.Rel.some ⟨?_, ?_, ?_, ?_, ?_⟩
      · intro i hi him
        simp only [if_true]
        by_cases hij : i = j + 1
        · rw [hij, Function.update_self, Function.update_self]
        · rw [Function.update_of_ne hij, Function.update_of_ne hij]
          exact mas1 i (by omega)
      · intro r hr _
        simp only [if_neg hr, Function.update_self]
      · intro r hr i hi him hri
        simp only [if_neg hr]
        rw [Function.update_of_ne (by omega)]
        exact other1 r hr i hi him hri
      · intro b hb a
        refine Eq.trans ?_ (sumH b hb a)
        refine sum_congr rfl fun r _ => ?_
        split_ifs <;> rfl
      · intro r a b hne
        refine okH r a b ?_
        simp only at hne
        split_ifs at hne <;> exact hne
  · rw [if_neg hj1, if_neg hj1]
    by_cases h0 : j = 0
    · rw [if_pos h0, if_pos h0]
      exact Option.Rel.none
    · rw [if_neg h0, if_neg h0]
      refine Option.Rel.some ⟨?_, ?_, ?_, ?_, ?_⟩
      · exact fun i hi him => mas1 i (by omega)
      · intro r hr hm
        omega
      · exact other1
      · exact sumH
      · exact okH

theorem start_rel {m : ℕ} (hm : 0 < m) (v0 : Vec n) (R : Fin p → Rank n) (h : HOK R) :
    Rel m 0 (start m v0 R) ⟨fun _ => v0, fun _ _ => 0⟩ := by
  refine ⟨?_, ?_, ?_, ?_, ?_⟩
  · intro i hi _
    have : i = 0 := by omega
    subst this
    simp [start]
  · intro r hr _
    simp only [start, if_neg hr]
    split_ifs <;> rfl
  · intro r _ i hi
    omega
  · intro b hb
    omega
  · intro r a b hne
    refine h r a b ?_
    simp only [start] at hne
    split_ifs at hne <;> exact hne

/-- The inner loop of the processes against the sequential one. -/
theorem arnoldi_rel {S : Type} {m : ℕ} (Av : ℕ → S → (Fin p → Rank n) → Option ((Fin p → Vec n) × S))
    (U : ℕ → Vec n → Vec n) (I : ℕ → S → Prop) {s : S} (hs : I 0 s) {R : Fin p → Rank n} {q : Q n} (h : Rel m 0 R q)
    (hU : ∀ j < m, ∀ s R q, I j s → Rel m j R q → ∃ a s', Av j s R = some (a, s') ∧ I (j + 1) s' ∧ ∑ r, a r = U j (q.v j))
    (j : ℕ) (hj : j ≤ m) :
    Option.Rel (fun c q => I j c.1 ∧ Rel m j c.2 q) (arnoldi m Av s R j) (qArnoldi m U q j) := by
  induction j with
  | zero => exact Option.Rel.some ⟨hs, h⟩
  | succ j ih =>
    have ih := ih (by omega)
    unfold arnoldi qArnoldi
    generalize arnoldi m Av s R j = o1 at ih
    generalize qArnoldi m U q j = o2 at ih
    cases ih with
    | none => exact Option.Rel.none
    | some hc =>
      rename_i c q'
      obtain ⟨a, s', h1, h2, h3⟩ := hU j (by omega) c.1 c.2 q' hc.1 hc.2
      rw [Option.bind_some, Option.bind_some, h1, Option.bind_some, ← h3]
      have := step_rel hc.2 (by omega : j < m) a
      generalize arnoldiStep m j a c.2 = o3 at this
      generalize qStep m j (∑ r, a r) q' = o4 at this
      cases this with
      | none => exact Option.Rel.none
      | some hr => exact Option.Rel.some ⟨h2, hr⟩

end Phyem.Krylov
