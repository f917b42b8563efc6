import Verif.Krylov.Body

/-!
# Iterative solvers: a turn of LGMRES
-/

namespace Phyem.Krylov

open Matrix Finset

variable {p n : ℕ} [NeZero p]

/-- The number of old corrections that are used. -/
def lK (outer i : ℕ) : ℕ := if i < outer then i else outer

/-- The number of Krylov vectors. -/
def lM (inner outer i : ℕ) : ℕ := if i < outer then inner + outer - i else inner

theorem lK_lM (inner outer i : ℕ) : lM inner outer i + lK outer i = inner + outer := by
  unfold lM lK
  split_ifs <;> omega

theorem lK_le (outer i : ℕ) : lK outer i ≤ i ∧ lK outer i ≤ outer := by
  unfold lK
  split_ifs <;> omega

/-- The old correction of the turn `t`. -/
def old (Z : ℕ → Option (Vec n)) (t : ℕ) : Vec n := (Z t).getD 0

/-- The product of the inner loop. -/
def lU (A : Matrix (Fin n) (Fin n) ℝ) (m i : ℕ) (Z : ℕ → Option (Vec n)) (j : ℕ) (v : Vec n) : Vec n :=
  if j < m then A *ᵥ v else A *ᵥ old Z (i + m - 1 - j)

/-- The direction of the inner loop. -/
def lW (m i : ℕ) (Z : ℕ → Option (Vec n)) (v : ℕ → Vec n) (j : ℕ) : Vec n :=
  if j < m then v j else old Z (i + m - 1 - j)

/-- The old corrections after a turn. -/
def lZ (outer i : ℕ) (Z : ℕ → Option (Vec n)) (y : Vec n) : ℕ → Option (Vec n) :=
  Function.update (if outer ≤ i ∧ 0 < outer then Function.update Z (i - outer) none else Z) i (some y)

/-- The new approximation of a turn of `lgmres`. -/
noncomputable def lBody (A : Matrix (Fin n) (Fin n) ℝ) (f : Vec n) (inner outer : ℕ) (i : ℕ) (x : Vec n)
    (Z : ℕ → Option (Vec n)) : Option (Vec n × (ℕ → Option (Vec n))) :=
  let VV := f - A *ᵥ x
  let beta := norm2 VV
  if inner + outer = 0 ∨ beta = 0 then none
  else
    (qArnoldi (inner + outer) (lU A (lM inner outer i) i Z) ⟨fun _ => beta⁻¹ • VV, fun _ _ => 0⟩ (inner + outer)).bind fun q =>
      (qLeast (inner + outer) q beta).map fun ym =>
        let y := ∑ j : Fin (inner + outer), ym j • lW (lM inner outer i) i Z q.v j
        (x + y, lZ outer i Z y)

/-- What the stop criterion knows of the variables. -/
def L.head (s : L p n) : Head n × (ℕ → Option (Vec n)) := (⟨s.iter, s.B, s.x⟩, s.Z)

/-- What holds between two turns. -/
structure LOK (A : Fin p → Matrix (Fin n) (Fin n) ℝ) (outer : ℕ) (s : L p n) : Prop where
  ok : HOK s.R
  z : 0 < outer → ∀ t, (s.Z t).isSome ↔ t < s.iter ∧ s.iter ≤ t + outer
  az : 0 < outer → ∀ t, (s.AZ t).isSome ↔ t + 2 ≤ s.iter ∧ s.iter ≤ t + 1 + outer
  val : 0 < outer → ∀ t a, s.AZ t = some a → s.iter ≤ t + outer → a = fun r => A r *ᵥ old s.Z t

/-- The cache after the first old correction is used. -/
def azNew (A : Fin p → Matrix (Fin n) (Fin n) ℝ) (outer i : ℕ) (Z : ℕ → Option (Vec n)) (AZ : ℕ → Option (Fin p → Vec n)) :
    ℕ → Option (Fin p → Vec n) :=
  Function.update (if outer < i then Function.update AZ (i - outer - 1) none else AZ) (i - 1)
    (some fun r => A r *ᵥ old Z (i - 1))

theorem old_some {Z : ℕ → Option (Vec n)} {t : ℕ} (h : (Z t).isSome) : Z t = some (old Z t) := by
  unfold old
  cases hz : Z t with
  | none => rw [hz] at h; simp at h
  | some z => rfl

theorem mapM_some {α β : Type} {g : α → Option β} {g' : α → β} : ∀ l : List α, (∀ a ∈ l, g a = some (g' a)) →
    l.mapM g = some (l.map g')
  | [], _ => rfl
  | a :: l, h => by
    rw [List.mapM_cons, h a (by simp), mapM_some l (fun b hb => h b (by simp [hb]))]
    rfl

theorem lpass_eq (A : Fin p → Matrix (Fin n) (Fin n) ℝ) (f : Fin p → Vec n) (atol : ℝ) (inner outer : ℕ)
    (maxiter : Newton.MaxIter) {s : L p n} (h : LOK A outer s) :
    (lgmresPass A f atol inner outer maxiter s).map (Sum.map L.head id) =
        gPass (∑ r, A r) (∑ r, f r) (lBody (∑ r, A r) (∑ r, f r) inner outer) atol maxiter s.head.1 s.head.2 ∧
      ∀ s', lgmresPass A f atol inner outer maxiter s = some (.inl s') → LOK A outer s' := by
  have hres := residual_eq A f s.x
  unfold lgmresPass gPass lBody
  simp only [hres, L.head]
  generalize judge _ _ _ _ _ = J
  rcases J with _ | ⟨J, _ | info⟩
  · simp
  · simp only
    by_cases h0 : inner + outer = 0 ∨ norm2 ((∑ r, f r) - (∑ r, A r) *ᵥ s.x) = 0
    · simp only [eq_true h0, ↓reduceIte]
      simp
    · simp only [eq_false h0, ↓reduceIte]
      push Not at h0
      have hM : (if s.iter < outer then inner + outer - s.iter else inner) = lM inner outer s.iter := rfl
      have hK : (if s.iter < outer then s.iter else outer) = lK outer s.iter := rfl
      simp only [hM, hK]
      have hMK := lK_lM inner outer s.iter
      have hKl := lK_le outer s.iter
      have hKo : lK outer s.iter = s.iter ∨ lK outer s.iter = outer := by unfold lK; split_ifs <;> simp
      obtain ⟨m, hm⟩ : ∃ m, m = lM inner outer s.iter := ⟨_, rfl⟩
      obtain ⟨k, hk⟩ : ∃ k, k = lK outer s.iter := ⟨_, rfl⟩
      rw [← hm, ← hk] at hMK
      rw [← hk] at hKl hKo
      simp only [← hm, ← hk]
      obtain ⟨i, hi⟩ : ∃ i, i = s.iter := ⟨_, rfl⟩
      have hz := h.z
      have haz := h.az
      have hval := h.val
      rw [← hi] at hKl hKo hz haz hval
      simp only [← hi]
      have key := arnoldi_rel (p := p) (m := inner + outer) (fun j AZ R => lgmresAv A outer m i s.Z j AZ R)
        (lU (∑ r, A r) m i s.Z) (fun j AZ => if j ≤ m then AZ = s.AZ else AZ = azNew A outer i s.Z s.AZ) (s := s.AZ)
        (by simp)
        (start_rel (by omega) ((norm2 ((∑ r, f r) - (∑ r, A r) *ᵥ s.x))⁻¹ • ((∑ r, f r) - (∑ r, A r) *ᵥ s.x)) s.R h.ok)
        (fun j hj AZ R q hI hR => by
          unfold lgmresAv lU
          by_cases hjm : j < m
          · simp only [if_pos hjm]
            refine ⟨_, _, rfl, ?_, ?_⟩
            · rw [if_pos (by omega)] at hI
              rw [if_pos (by omega)]
              exact hI
            · rw [sum_mulVec]
              exact sum_congr rfl fun r _ => by rw [own_eq hR hj]
          · simp only [if_neg hjm]
            have hout : 0 < outer := by omega
            have hzt : s.Z (i + m - 1 - j) = some (old s.Z (i + m - 1 - j)) :=
              old_some ((hz hout _).mpr (by omega))
            by_cases hjm' : j = m
            · subst hjm'
              rw [if_pos le_rfl] at hI
              subst hI
              have e : i + j - 1 - j = i - 1 := by omega
              rw [e] at hzt ⊢
              have hn : s.AZ (i - 1) = none := by
                rw [← Option.not_isSome_iff_eq_none, haz hout]
                omega
              rw [hn]
              simp only
              rw [if_neg, hzt]
              · refine ⟨_, _, rfl, ?_, ?_⟩
                · rw [if_neg (by omega)]
                  rfl
                · rw [sum_mulVec]
              · rintro ⟨h1, h2⟩
                rw [← Option.not_isSome_iff_eq_none, haz hout] at h2
                omega
            · rw [if_neg (by omega)] at hI
              subst hI
              have hs : (s.AZ (i + m - 1 - j)).isSome := (haz hout _).mpr (by omega)
              obtain ⟨a, ha⟩ := Option.isSome_iff_exists.mp hs
              have hn : azNew A outer i s.Z s.AZ (i + m - 1 - j) = some a := by
                unfold azNew
                rw [Function.update_of_ne (by omega)]
                split_ifs
                · rw [Function.update_of_ne (by omega), ha]
                · exact ha
              rw [hn]
              refine ⟨_, _, rfl, ?_, ?_⟩
              · rw [if_neg (by omega)]
              · rw [hval hout _ a ha (by omega), sum_mulVec]) (inner + outer) le_rfl
      generalize arnoldi (p := p) (inner + outer) _ _ _ (inner + outer) = X at key ⊢
      generalize qArnoldi (inner + outer) _ _ (inner + outer) = Y at key ⊢
      cases key with
      | none => simp
      | some hk' =>
        rename_i c q
        obtain ⟨hI, hR⟩ := hk'
        simp only [Option.bind_some, least_eq hR]
        cases hq : qLeast (inner + outer) q (norm2 ((∑ r, f r) - (∑ r, A r) *ᵥ s.x)) with
        | none => simp
        | some y =>
          have hDL : ((List.range k).mapM fun t => s.Z (i - t - 1)) =
              some ((List.range k).map fun t => old s.Z (i - t - 1)) := by
            refine mapM_some _ fun t ht => old_some ?_
            have := List.mem_range.mp ht
            exact (hz (by omega) _).mpr (by omega)
          have hdel : ¬ (outer ≤ i ∧ 0 < outer ∧ s.Z (i - outer) = none) := by
            rintro ⟨h1, h2, h3⟩
            rw [← Option.not_isSome_iff_eq_none, hz h2] at h3
            omega
          have hW : ∀ j : Fin (inner + outer), (if (j : ℕ) < m then (c.2 0).vs j
              else ((List.range k).map fun t => old s.Z (i - t - 1)).getD (j - m) 0) = lW m i s.Z q.v j := by
            intro j
            have hj := j.2
            unfold lW
            split_ifs with hjm
            · exact hR.master j (by omega) j.2
            · rw [List.getD_eq_getElem?_getD, List.getElem?_eq_getElem (by simp; omega)]
              simp only [List.getElem_map, List.getElem_range, Option.getD_some]
              congr 1
              omega
          simp only [hDL, Option.bind_some, hW, eq_false hdel, ↓reduceIte]
          constructor
          · simp only [Option.map_some, Sum.map_inl, L.head, ← hi]
            rfl
          · intro s' hs'
            simp only [Option.some.injEq, Sum.inl.injEq] at hs'
            subst hs'
            have hzv : ∀ t, 0 < outer → t < i → i < t + outer →
                (lZ outer i s.Z (∑ j : Fin (inner + outer), y j • lW m i s.Z q.v j)) t = s.Z t := by
              intro t h1 h2 h3
              unfold lZ
              rw [Function.update_of_ne (by omega)]
              split_ifs
              · rw [Function.update_of_ne (by omega)]
              · rfl
            refine ⟨hR.ok, ?_, ?_, ?_⟩
            · intro hout t
              simp only
              by_cases ht : t = i
              · subst ht
                rw [Function.update_self]
                simp only [Option.isSome_some, true_iff]
                omega
              · rw [Function.update_of_ne ht]
                split_ifs with hc
                · by_cases ht' : t = i - outer
                  · subst ht'
                    rw [Function.update_self]
                    simp only [Option.isSome_none, Bool.false_eq_true, false_iff]
                    omega
                  · rw [Function.update_of_ne ht', hz hout]
                    omega
                · rw [hz hout]
                  omega
            · intro hout t
              simp only
              split_ifs at hI with hc
              · rw [hI, haz hout]
                omega
              · rw [hI]
                unfold azNew
                by_cases ht : t = i - 1
                · subst ht
                  rw [Function.update_self]
                  simp only [Option.isSome_some, true_iff]
                  omega
                · rw [Function.update_of_ne ht]
                  split_ifs with ho
                  · by_cases ht' : t = i - outer - 1
                    · subst ht'
                      rw [Function.update_self]
                      simp only [Option.isSome_none, Bool.false_eq_true, false_iff]
                      omega
                    · rw [Function.update_of_ne ht', haz hout]
                      omega
                  · rw [haz hout]
                    omega
            · intro hout t a ha hle
              simp only at ha hle ⊢
              have hold : ∀ t, 0 < outer → t < i → i < t + outer →
                  old (Function.update (if outer ≤ i ∧ 0 < outer then Function.update s.Z (i - outer) none else s.Z) i
                    (some (∑ j : Fin (inner + outer), y j • lW m i s.Z q.v j))) t = old s.Z t :=
                fun t h1 h2 h3 => congrArg (fun o => Option.getD o 0) (hzv t h1 h2 h3)
              split_ifs at hI with hc
              · rw [hI] at ha
                have hs : (s.AZ t).isSome := by rw [ha]; rfl
                have := (haz hout t).mp hs
                rw [hold t hout (by omega) (by omega)]
                exact hval hout t a ha (by omega)
              · rw [hI] at ha
                unfold azNew at ha
                by_cases ht : t = i - 1
                · subst ht
                  rw [Function.update_self] at ha
                  rw [hold (i - 1) hout (by omega) (by omega)]
                  exact (Option.some.inj ha).symm
                · rw [Function.update_of_ne ht] at ha
                  split_ifs at ha with ho
                  · by_cases ht' : t = i - outer - 1
                    · subst ht'
                      rw [Function.update_self] at ha
                      cases ha
                    · rw [Function.update_of_ne ht'] at ha
                      have hs : (s.AZ t).isSome := by rw [ha]; rfl
                      have := (haz hout t).mp hs
                      rw [hold t hout (by omega) (by omega)]
                      exact hval hout t a ha (by omega)
                  · have hs : (s.AZ t).isSome := by rw [ha]; rfl
                    have := (haz hout t).mp hs
                    rw [hold t hout (by omega) (by omega)]
                    exact hval hout t a ha (by omega)
  · simp only
    split_ifs <;> simp

theorem lgmres_eq (A : Fin p → Matrix (Fin n) (Fin n) ℝ) (f : Fin p → Vec n) (x0 : Vec n) (atol : ℝ) (inner outer : ℕ)
    (maxiter : Newton.MaxIter) (junk : Fin p → (ℕ → Vec n) × Vec n) (k : ℕ) :
    (lgmres A f x0 atol inner outer maxiter junk k).map (Sum.map L.head id) =
        gRun (∑ r, A r) (∑ r, f r) (lBody (∑ r, A r) (∑ r, f r) inner outer) atol maxiter x0 (fun _ => none) k ∧
      ∀ s, lgmres A f x0 atol inner outer maxiter junk k = some (.inl s) → LOK A outer s := by
  induction k with
  | zero =>
    refine ⟨rfl, ?_⟩
    intro s hs
    simp only [lgmres, Option.some.injEq, Sum.inl.injEq] at hs
    rw [← hs]
    refine ⟨?_, ?_, ?_, ?_⟩
    · intro r a b hab
      exact absurd rfl hab
    · intro _ t
      simp
    · intro _ t
      simp
    · intro _ t a ha
      simp at ha
  | succ k ih =>
    obtain ⟨h1, h2⟩ := ih
    unfold lgmres gRun
    rw [← h1]
    cases hg : lgmres A f x0 atol inner outer maxiter junk k with
    | none => simp
    | some c =>
      rcases c with s | r
      · simp only [Option.bind_some, Option.map_some, Sum.map_inl]
        exact lpass_eq A f atol inner outer maxiter (h2 s hg)
      · simp

end Phyem.Krylov
