import Verif.TimeSeq.Model
import Mathlib.Data.List.Induction
import Mathlib.Order.Monotone.Basic
import Mathlib.Tactic.Positivity
import Mathlib.Order.Monotone.MonovaryOrder
import Mathlib.Order.Nat

/-!
Properties C14 (constant time sequences) and C15 (function time sequences).
-/

namespace Phyem.TimeSeq

/-! ### C14 -/

theorem roundEven_near (x : ℚ) : |x - Cochain.roundEven x| ≤ 1 / 2 := by
  have h1 := Int.floor_le x
  have h2 := Int.lt_floor_add_one x
  unfold Cochain.roundEven
  simp only
  split_ifs with a b c
  · rw [abs_le]; constructor <;> linarith
  · rw [abs_le]; push_cast; constructor <;> linarith
  · rw [abs_le]; constructor <;> linarith
  · rw [abs_le]; push_cast; constructor <;> linarith

/-- Rounding moves a number by at most half of the last decimal. -/
theorem round8_near (x : ℚ) : |x - round8 x| ≤ 1 / (2 * 10 ^ 8) := by
  have h := roundEven_near (x * 10 ^ 8)
  unfold round8 Cochain.parseT
  have e : x - Cochain.roundEven (x * 10 ^ 8) / 10 ^ 8 =
      (x * 10 ^ 8 - Cochain.roundEven (x * 10 ^ 8)) / 10 ^ 8 := by field_simp
  rw [e, abs_div]
  have : |(10 : ℚ) ^ 8| = 10 ^ 8 := by norm_num
  rw [this]
  rw [div_le_iff₀ (by norm_num)]
  refine le_trans h (by norm_num)

/-- **C14, construction.** A sequence is accepted exactly when the end time is later, the counts are
positive and `n` is a multiple of `factor`; its step is then positive, `kmax * factor = n`, and instant
`kmax` is at `tmax`. -/
theorem const_spec (t0 tmax : ℚ) (n factor : ℤ) :
    (∃ c, mkConst t0 tmax n factor = some c) ↔ (t0 < tmax ∧ 0 < n ∧ 0 < factor ∧ factor ∣ n) := by
  unfold mkConst
  constructor
  · rintro ⟨c, h⟩
    split_ifs at h with h1 h2 h3
    exact ⟨h1.1, h1.2, h2, Int.dvd_of_emod_eq_zero h3.1⟩
  · rintro ⟨h1, h2, h3, h4⟩
    have h5 : n / factor > 0 := by
      obtain ⟨m, rfl⟩ := h4
      rw [Int.mul_ediv_cancel_left _ (by omega)]
      exact pos_of_mul_pos_right h2 h3.le
    rw [if_pos ⟨h1, h2⟩, if_pos h3, if_pos ⟨Int.emod_eq_zero_of_dvd h4, h5⟩]
    exact ⟨_, rfl⟩

theorem const_fields {t0 tmax : ℚ} {n factor : ℤ} {c : Const} (h : mkConst t0 tmax n factor = some c) :
    c.t0 = t0 ∧ c.tmax = tmax ∧ c.factor = factor ∧ 0 < factor ∧ 0 < c.dt ∧ c.kmax * factor = n ∧
    c.t0 + c.kmax * c.dt = c.tmax ∧ 0 < c.kmax := by
  unfold mkConst at h
  split_ifs at h with h1 h2 h3
  simp only [Option.some.injEq] at h
  subst h
  have hdvd := Int.dvd_of_emod_eq_zero h3.1
  have hk : n / factor * factor = n := Int.ediv_mul_cancel hdvd
  have hn : (0 : ℚ) < n := by exact_mod_cast h1.2
  have hf : (0 : ℚ) < factor := by exact_mod_cast h2
  have hd : 0 < tmax - t0 := by linarith [h1.1]
  refine ⟨rfl, rfl, rfl, h2, by positivity, hk, ?_, h3.2⟩
  have hk' : ((n / factor : ℤ) : ℚ) * factor = n := by exact_mod_cast hk
  simp only
  have : ((n / factor : ℤ) : ℚ) * ((tmax - t0) * factor / n) = tmax - t0 := by
    rw [← hk']
    have hkq : ((n / factor : ℤ) : ℚ) ≠ 0 := by
      intro h0; rw [h0, zero_mul] at hk'; linarith
    field_simp
  linarith

/-- **C14, look-ups.** Instant `k` is available exactly when it lies in the window from one step before
the start to one step after the end and its fractional part agrees, to eight decimals, with a multiple
of `1 / factor`; its time is then `t0 + k * dt`. -/
theorem const_lookup {t0 tmax : ℚ} {n factor : ℤ} {c : Const} (hc : mkConst t0 tmax n factor = some c)
    (k t : ℚ) : getConst c k = some t ↔
      (t = t0 + k * c.dt ∧ -1 ≤ k ∧ k ≤ c.kmax + 1 ∧
        ∃ i : ℕ, (i : ℤ) < factor ∧ round8 (k - ⌊k⌋) = round8 ((i : ℚ) / factor)) := by
  obtain ⟨h0, hm, hf, hfp, hdt, hk, hend, _⟩ := const_fields hc
  have w1 : (c.t0 + k * c.dt < c.t0 - c.dt) ↔ k < -1 := by
    constructor
    · intro h
      have : (k + 1) * c.dt < 0 := by linarith
      by_contra hcon
      have := mul_nonneg (by linarith : (0 : ℚ) ≤ k + 1) hdt.le
      linarith
    · intro h
      have := mul_pos (by linarith : (0 : ℚ) < -1 - k) hdt
      linarith
  have w2 : (c.t0 + k * c.dt > c.tmax + c.dt) ↔ k > c.kmax + 1 := by
    rw [← hend]
    constructor
    · intro h
      by_contra hcon
      have := mul_nonneg (by linarith : (0 : ℚ) ≤ (c.kmax : ℚ) + 1 - k) hdt.le
      linarith
    · intro h
      have := mul_pos (by linarith : (0 : ℚ) < k - ((c.kmax : ℚ) + 1)) hdt
      linarith
  have w3 : round8 (mod1 k) ∈ allowed c ↔
      ∃ i : ℕ, (i : ℤ) < factor ∧ round8 (k - ⌊k⌋) = round8 ((i : ℚ) / factor) := by
    unfold allowed mod1
    rw [List.mem_map, hf]
    constructor
    · rintro ⟨i, hi, e⟩
      rw [List.mem_range] at hi
      exact ⟨i, by omega, e.symm⟩
    · rintro ⟨i, hi, e⟩
      exact ⟨i, by rw [List.mem_range]; omega, e.symm⟩
  unfold getConst
  simp only [w1, w2]
  constructor
  · intro h
    split_ifs at h with a b d
    · simp only [Option.some.injEq] at h
      exact ⟨by rw [← h, h0], by linarith, by linarith, w3.1 d⟩
  · rintro ⟨rfl, a, b, d⟩
    rw [if_neg (by linarith), if_neg (by linarith), if_neg (not_not.2 (w3.2 d)), h0]

/-- **C14, multiples.** Every multiple `j / factor` of the minor step within the window is available,
at its exact time; and every available instant is within 10⁻⁸ of such a multiple. -/
theorem const_multiples {t0 tmax : ℚ} {n factor : ℤ} {c : Const}
    (hc : mkConst t0 tmax n factor = some c) :
    (∀ j : ℤ, -factor ≤ j → j ≤ n + factor →
      getConst c ((j : ℚ) / factor) = some (t0 + (j : ℚ) / factor * c.dt)) ∧
    (∀ k t, getConst c k = some t → ∃ j : ℤ, |k - (j : ℚ) / factor| ≤ 1 / 10 ^ 8) := by
  obtain ⟨h0, hm, hf, hfp, hdt, hk, hend, _⟩ := const_fields hc
  have hfq : (0 : ℚ) < factor := by exact_mod_cast hfp
  constructor
  · intro j h1 h2
    rw [const_lookup hc]
    refine ⟨rfl, ?_, ?_, (j % factor).toNat, ?_, ?_⟩
    · rw [le_div_iff₀ hfq]; have : -(factor : ℚ) ≤ j := by exact_mod_cast h1
      linarith
    · rw [div_le_iff₀ hfq]
      have hk' : (c.kmax : ℚ) * factor = n := by exact_mod_cast hk
      have : (j : ℚ) ≤ n + factor := by exact_mod_cast h2
      linarith
    · rw [Int.toNat_of_nonneg (Int.emod_nonneg _ (by omega))]
      exact Int.emod_lt_of_pos _ hfp
    · congr 1
      have hfl : ⌊(j : ℚ) / factor⌋ = j / factor := by
        have := Rat.floor_intCast_div_natCast j factor.toNat
        have e : ((factor.toNat : ℕ) : ℚ) = (factor : ℚ) := by
          have : ((factor.toNat : ℕ) : ℤ) = factor := Int.toNat_of_nonneg hfp.le
          exact_mod_cast this
        rw [e] at this
        rw [this]
        congr 1
        exact Int.toNat_of_nonneg hfp.le
      rw [hfl]
      have e : (((j % factor).toNat : ℕ) : ℚ) = ((j % factor : ℤ) : ℚ) := by
        have : (((j % factor).toNat : ℕ) : ℤ) = j % factor :=
          Int.toNat_of_nonneg (Int.emod_nonneg _ (by omega))
        exact_mod_cast this
      rw [e]
      have : (j : ℚ) = factor * ((j / factor : ℤ) : ℚ) + ((j % factor : ℤ) : ℚ) := by
        have := Int.mul_ediv_add_emod j factor
        exact_mod_cast this.symm
      field_simp
      linarith
  · intro k t h
    obtain ⟨_, _, _, i, hi, e⟩ := (const_lookup hc k t).1 h
    refine ⟨⌊k⌋ * factor + i, ?_⟩
    have a := round8_near (k - ⌊k⌋)
    have b := round8_near ((i : ℚ) / factor)
    rw [e] at a
    have e2 : k - (((⌊k⌋ * factor + (i : ℤ) : ℤ)) : ℚ) / factor = (k - ⌊k⌋) - (i : ℚ) / factor := by
      push_cast
      field_simp
      ring
    rw [e2]
    rw [abs_le] at a b ⊢
    have c1 : (1 : ℚ) / (2 * 10 ^ 8) + 1 / (2 * 10 ^ 8) = 1 / 10 ^ 8 := by norm_num
    constructor <;> linarith [a.1, a.2, b.1, b.2]

/-- **C14, order.** Later instants have later times, and a time interval can be made exactly between
an earlier and a later instant, with the positive length `(k' - k) * dt`. -/
theorem const_strict {t0 tmax : ℚ} {n factor : ℤ} {c : Const} (hc : mkConst t0 tmax n factor = some c)
    {k k' t t' : ℚ} (h : getConst c k = some t) (h' : getConst c k' = some t') :
    (k < k' ↔ t < t') ∧
    (k < k' → interval t t' = some ((k' - k) * c.dt) ∧ 0 < (k' - k) * c.dt) ∧
    (k' ≤ k → interval t t' = none) := by
  obtain ⟨h0, hm, hf, hfp, hdt, hk, hend, _⟩ := const_fields hc
  obtain ⟨rfl, _⟩ := (const_lookup hc k t).1 h
  obtain ⟨rfl, _⟩ := (const_lookup hc k' t').1 h'
  have key : t0 + k' * c.dt - (t0 + k * c.dt) = (k' - k) * c.dt := by ring
  have hlt : k < k' ↔ 0 < (k' - k) * c.dt := by
    constructor
    · intro h; exact mul_pos (by linarith) hdt
    · intro h; have := pos_of_mul_pos_left h hdt.le; linarith
  refine ⟨?_, ?_, ?_⟩
  · rw [hlt, ← key]; constructor <;> intro h <;> linarith
  · intro hh
    have := hlt.1 hh
    exact ⟨by unfold interval; rw [key, if_pos this], this⟩
  · intro hh
    unfold interval
    rw [key, if_neg]
    intro hpos
    have := hlt.2 hpos
    linarith

/-- `ph.time_sequence` with t0 = 0, t_max = 5, 15 minor intervals, factor 3. -/
example : ∃ c, mkConst 0 5 15 3 = some c ∧ c.kmax = 5 ∧ c.dt = 1 ∧
    getConst c (4 / 3) = some (4 / 3) ∧ getConst c (-1) = some (-1) ∧ getConst c (3 / 2) = none ∧
    getConst c 7 = none := ⟨⟨0, 5, 15, 3, 1, 5⟩, by decide +kernel⟩

/-! ### C15 -/

/-- The step numbers: 0, h, 2h, … (each rounded to eight decimals). -/
def stepAt (h : ℚ) : ℕ → ℚ
  | 0 => 0
  | i + 1 => round8 (stepAt h i + h)

/-- The time of step `i`: `t0` plus the first `i` step sizes. -/
def timeAt (f : ℕ → ℚ) (t0 : ℚ) : ℕ → ℚ
  | 0 => t0
  | i + 1 => timeAt f t0 i + f i

/-- `t` is the time of instant `k`: the linear interpolation between the steps around `k`. -/
def IsTime (f : ℕ → ℚ) (h t0 k t : ℚ) : Prop :=
  ∃ i, stepAt h i ≤ k ∧ k ≤ stepAt h (i + 1) ∧
    t = timeAt f t0 i + (k - stepAt h i) / (stepAt h (i + 1) - stepAt h i) *
      (timeAt f t0 (i + 1) - timeAt f t0 i)

theorem stepAt_int (h : ℚ) (i : ℕ) : ∃ m : ℤ, stepAt h i = m / 10 ^ 8 := by
  cases i with
  | zero => exact ⟨0, by simp [stepAt]⟩
  | succ i => exact ⟨_, rfl⟩

theorem roundEven_ge {x : ℚ} {m : ℤ} (h : (m : ℚ) ≤ x) : m ≤ Cochain.roundEven x := by
  have : m ≤ ⌊x⌋ := Int.le_floor.2 h
  unfold Cochain.roundEven
  simp only
  split_ifs <;> omega

theorem stepAt_lt (h : ℚ) (hh : 1 / 10 ^ 8 ≤ h) (i : ℕ) : stepAt h i < stepAt h (i + 1) := by
  obtain ⟨m, hm⟩ := stepAt_int h i
  have e : stepAt h (i + 1) = Cochain.roundEven ((stepAt h i + h) * 10 ^ 8) / 10 ^ 8 := rfl
  rw [e, hm]
  have h1 : ((m + 1 : ℤ) : ℚ) ≤ (m / 10 ^ 8 + h) * 10 ^ 8 := by
    push_cast
    have : (m / 10 ^ 8 + h) * (10 : ℚ) ^ 8 = m + h * 10 ^ 8 := by field_simp
    rw [this]
    have : (1 : ℚ) ≤ h * 10 ^ 8 := by
      rw [div_le_iff₀ (by norm_num)] at hh; exact hh
    linarith
  have h2 := roundEven_ge h1
  have h3 : (m : ℚ) < Cochain.roundEven ((m / 10 ^ 8 + h) * 10 ^ 8) := by
    have : m < Cochain.roundEven ((m / 10 ^ 8 + h) * 10 ^ 8) := by omega
    exact_mod_cast this
  exact div_lt_div_of_pos_right h3 (by norm_num)

theorem stepAt_mono (h : ℚ) (hh : 1 / 10 ^ 8 ≤ h) : StrictMono (stepAt h) :=
  strictMono_nat_of_lt_succ (stepAt_lt h hh)

theorem timeAt_mono (f : ℕ → ℚ) (t0 : ℚ) (hf : ∀ i, 0 < f i) : StrictMono (timeAt f t0) :=
  strictMono_nat_of_lt_succ fun i => by
    have := hf i
    show timeAt f t0 i < timeAt f t0 i + f i
    linarith

theorem lerp_strict {a b c d x y : ℚ} (hab : a < b) (hcd : c < d) (hxy : x < y) :
    c + (x - a) / (b - a) * (d - c) < c + (y - a) / (b - a) * (d - c) := by
  have h1 : 0 < b - a := by linarith
  have h2 : 0 < d - c := by linarith
  have : (x - a) / (b - a) < (y - a) / (b - a) := div_lt_div_of_pos_right (by linarith) h1
  have := mul_lt_mul_of_pos_right this h2
  linarith

theorem lerp_end {a b c d : ℚ} (hab : a < b) : c + (b - a) / (b - a) * (d - c) = d := by
  rw [div_self (by linarith)]; ring

theorem lerp_start {a b c d : ℚ} : c + (a - a) / (b - a) * (d - c) = c := by
  rw [sub_self, zero_div]; ring

/-- The time of an instant is strictly increasing in the instant. -/
theorem isTime_strict (f : ℕ → ℚ) (h t0 : ℚ) (hh : 1 / 10 ^ 8 ≤ h) (hf : ∀ i, 0 < f i)
    {k k' t t' : ℚ} (h1 : IsTime f h t0 k t) (h2 : IsTime f h t0 k' t') (hk : k < k') : t < t' := by
  obtain ⟨i, a1, a2, rfl⟩ := h1
  obtain ⟨j, b1, b2, rfl⟩ := h2
  have S := stepAt_mono h hh
  have T := timeAt_mono f t0 hf
  have Si := S (Nat.lt_succ_self i)
  have Sj := S (Nat.lt_succ_self j)
  have Ti := T (Nat.lt_succ_self i)
  have Tj := T (Nat.lt_succ_self j)
  simp only [Nat.succ_eq_add_one] at Si Sj Ti Tj
  rcases lt_trichotomy i j with hij | rfl | hij
  · have hS : stepAt h (i + 1) ≤ stepAt h j := S.monotone hij
    have hT : timeAt f t0 (i + 1) ≤ timeAt f t0 j := T.monotone hij
    rcases lt_or_eq_of_le a2 with a2 | a2
    · have l1 := lerp_strict Si Ti a2
      rw [lerp_end Si] at l1
      rcases lt_or_eq_of_le b1 with b1 | b1
      · have l2 := lerp_strict Sj Tj b1
        rw [lerp_start] at l2
        linarith
      · rw [← b1, lerp_start]; linarith
    · rw [a2, lerp_end Si]
      rcases lt_or_eq_of_le b1 with b1 | b1
      · have l2 := lerp_strict Sj Tj b1
        rw [lerp_start] at l2
        linarith
      · rw [← b1, lerp_start]
        have : stepAt h (i + 1) < stepAt h j := by linarith
        exact T (S.lt_iff_lt.1 this)
  · exact lerp_strict Si Ti hk
  · exfalso
    have : stepAt h (j + 1) ≤ stepAt h i := S.monotone hij
    linarith

/-- The time of an instant is unique. -/
theorem isTime_unique (f : ℕ → ℚ) (h t0 : ℚ) (hh : 1 / 10 ^ 8 ≤ h)
    {k t t' : ℚ} (h1 : IsTime f h t0 k t) (h2 : IsTime f h t0 k t') : t = t' := by
  obtain ⟨i, a1, a2, rfl⟩ := h1
  obtain ⟨j, b1, b2, rfl⟩ := h2
  have S := stepAt_mono h hh
  have Si := S (Nat.lt_succ_self i)
  have Sj := S (Nat.lt_succ_self j)
  simp only [Nat.succ_eq_add_one] at Si Sj
  have main : ∀ i j, i < j → stepAt h i ≤ k → k ≤ stepAt h (i + 1) → stepAt h j ≤ k →
      k ≤ stepAt h (j + 1) → stepAt h i < stepAt h (i + 1) →
      timeAt f t0 i + (k - stepAt h i) / (stepAt h (i + 1) - stepAt h i) *
        (timeAt f t0 (i + 1) - timeAt f t0 i) =
      timeAt f t0 j + (k - stepAt h j) / (stepAt h (j + 1) - stepAt h j) *
        (timeAt f t0 (j + 1) - timeAt f t0 j) := by
    intro i j hij a1 a2 b1 b2 Si
    have hS : stepAt h (i + 1) ≤ stepAt h j := S.monotone hij
    have e1 : k = stepAt h (i + 1) := le_antisymm a2 (le_trans hS b1)
    have e2 : stepAt h (i + 1) = stepAt h j := le_antisymm hS (le_trans b1 a2)
    have e3 : i + 1 = j := S.injective e2
    subst e3
    rw [e1, lerp_end Si, lerp_start]
  rcases lt_trichotomy i j with hij | rfl | hij
  · exact main i j hij a1 a2 b1 b2 Si
  · rfl
  · exact (main j i hij b1 b2 a1 a2 Sj).symm

/-- The state after `n` advances. -/
def stateAt (f : ℕ → ℚ) (h t0 : ℚ) (n : ℕ) : Fun :=
  ⟨(List.range (n + 1)).map (stepAt h), (List.range (n + 1)).map (timeAt f t0), n⟩

theorem getLastD_map_range (g : ℕ → ℚ) (n : ℕ) :
    ((List.range (n + 1)).map g).getLastD 0 = g n := by
  rw [List.range_succ, List.map_append]
  simp [List.getLastD_eq_getLast?]

theorem advance_stateAt (f : ℕ → ℚ) (h t0 : ℚ) (hf : ∀ i, 0 < f i) (n : ℕ) :
    advance f h (stateAt f h t0 n) = (false, stateAt f h t0 (n + 1)) := by
  have h1 := getLastD_map_range (stepAt h) n
  have h2 := getLastD_map_range (timeAt f t0) n
  unfold advance stateAt
  simp only [h1, h2, gt_iff_lt, hf, if_true, Prod.mk.injEq, true_and]
  rw [List.range_succ (n := n + 1), List.map_append, List.map_append]
  rfl

theorem search_stateAt (f : ℕ → ℚ) (h t0 : ℚ) (n : ℕ)
    (k : ℚ) (i : ℕ) (hi : i < n) (h0 : stepAt h 0 < k) (h1 : k < stepAt h (i + 1))
    (hne : ∀ j ≤ n, k ≠ stepAt h j) :
    ∃ t, search (stateAt f h t0 n) k i = some t ∧ IsTime f h t0 k t := by
  have getS : ∀ j, j ≤ n → (stateAt f h t0 n).steps[j]? = some (stepAt h j) := by
    intro j hj; simp [stateAt, Nat.lt_succ_of_le hj]
  have getT : ∀ j, j ≤ n → fromEnd (stateAt f h t0 n).times (stateAt f h t0 n).steps.length j =
      some (timeAt f t0 j) := by
    intro j hj
    have : j < n + 1 := by omega
    simp [fromEnd, stateAt, this]
  induction i with
  | zero =>
    unfold search segment
    rw [getS 0 (by omega)]
    simp only [gt_iff_lt, h0, if_true, getS (0 + 1) (by omega), getT 0 (by omega),
      getT (0 + 1) (by omega), h1]
    exact ⟨_, rfl, 0, h0.le, h1.le, rfl⟩
  | succ i ih =>
    unfold search segment
    rw [getS (i + 1) (by omega)]
    simp only
    by_cases hk : k > stepAt h (i + 1)
    · simp only [hk, if_true, getS (i + 1 + 1) (by omega), getT (i + 1) (by omega),
        getT (i + 1 + 1) (by omega), h1]
      exact ⟨_, rfl, i + 1, le_of_lt hk, h1.le, rfl⟩
    · rw [if_neg hk]
      exact ih (by omega) (lt_of_le_of_ne (not_lt.1 hk) (hne (i + 1) (by omega)))

theorem lookup_stateAt (f : ℕ → ℚ) (h t0 : ℚ) (hh : 1 / 10 ^ 8 ≤ h) (n : ℕ) (k : ℚ) :
    (0 ≤ k → k ≤ stepAt h n → ∃ t, lookup (stateAt f h t0 n) k = some t ∧ IsTime f h t0 k t) ∧
    (¬ (0 ≤ k ∧ k ≤ stepAt h n) → lookup (stateAt f h t0 n) k = none) := by
  have S := stepAt_mono h hh
  have hlast : (stateAt f h t0 n).steps.getLastD 0 = stepAt h n := getLastD_map_range _ _
  have hhead : (stateAt f h t0 n).steps.headD 0 = 0 := by
    simp [stateAt, List.range_succ_eq_map, stepAt]
  have hlen : (stateAt f h t0 n).steps.length = n + 1 := by simp [stateAt]
  have hmem : k ∈ (stateAt f h t0 n).steps ↔ ∃ j ≤ n, k = stepAt h j := by
    simp only [stateAt, List.mem_map, List.mem_range]
    constructor
    · rintro ⟨j, hj, rfl⟩; exact ⟨j, by omega, rfl⟩
    · rintro ⟨j, hj, rfl⟩; exact ⟨j, by omega, rfl⟩
  constructor
  · intro h0 hn
    unfold lookup
    by_cases hm : k ∈ (stateAt f h t0 n).steps
    · rw [if_pos hm]
      have hi : (stateAt f h t0 n).steps.idxOf k < n + 1 := by
        rw [← hlen]; exact List.idxOf_lt_length_iff.2 hm
      set i := (stateAt f h t0 n).steps.idxOf k with hidef
      have hk : stepAt h i = k := by
        have h1 : (stateAt f h t0 n).steps[i]? = some k := by
          rw [hidef, List.getElem?_eq_getElem (by rw [← hidef, hlen]; exact hi)]
          simp
        simp only [stateAt, List.getElem?_map, List.getElem?_range hi, Option.map_some,
          Option.some.injEq] at h1
        exact h1
      refine ⟨timeAt f t0 i, ?_, i, le_of_eq hk, ?_, ?_⟩
      · simp [stateAt, hi]
      · rw [← hk]; exact (S (Nat.lt_succ_self i)).le
      · rw [← hk, lerp_start]
    · rw [if_neg hm, hlast, hhead, if_neg (not_lt.2 hn), if_neg (not_lt.2 h0), hlen]
      have hne : ∀ j ≤ n, k ≠ stepAt h j := fun j hj e => hm (hmem.2 ⟨j, hj, e⟩)
      have hn0 : n ≠ 0 := by
        rintro rfl
        exact hne 0 le_rfl (le_antisymm hn h0)
      obtain ⟨m, rfl⟩ := Nat.exists_eq_succ_of_ne_zero hn0
      rw [if_neg (by omega)]
      have : m.succ + 1 - 2 = m := by omega
      rw [this]
      exact search_stateAt f h t0 m.succ k m (by omega)
        (lt_of_le_of_ne h0 (fun e => hne 0 (by omega) e.symm)) (lt_of_le_of_ne hn (hne _ le_rfl)) hne
  · intro hnot
    have hm : k ∉ (stateAt f h t0 n).steps := by
      rw [hmem]
      rintro ⟨j, hj, rfl⟩
      exact hnot ⟨S.monotone (Nat.zero_le j), S.monotone hj⟩
    unfold lookup
    rw [if_neg hm, hlast, hhead]
    by_cases h1 : k > stepAt h n
    · rw [if_pos h1]
    · have h2 : k < 0 := by
        by_contra h2
        exact hnot ⟨not_lt.1 h2, not_lt.1 h1⟩
      rw [if_neg h1, if_pos h2]

theorem getFun_stateAt (f : ℕ → ℚ) (h t0 : ℚ) (hf : ∀ i, 0 < f i) (n : ℕ) (k : ℚ) :
    getFun f h (stateAt f h t0 n) k =
      if round8 k > stepAt h n then
        (lookup (stateAt f h t0 (n + 1)) (round8 k), stateAt f h t0 (n + 1))
      else (lookup (stateAt f h t0 n) (round8 k), stateAt f h t0 n) := by
  have hlast : (stateAt f h t0 n).steps.getLastD 0 = stepAt h n := getLastD_map_range _ _
  unfold getFun
  simp only [hlast, advance_stateAt f h t0 hf n]
  simp

theorem run_stateAt (f : ℕ → ℚ) (h t0 : ℚ) (hf : ∀ i, 0 < f i) (ks : List ℚ) :
    ∃ n, runFun f h t0 ks = stateAt f h t0 n := by
  induction ks using List.reverseRecOn with
  | nil => exact ⟨0, rfl⟩
  | append_singleton ks k ih =>
    obtain ⟨n, hn⟩ := ih
    have e : runFun f h t0 (ks ++ [k]) = (getFun f h (runFun f h t0 ks) k).2 := by simp [runFun]
    rw [e, hn, getFun_stateAt f h t0 hf n k]
    split_ifs
    · exact ⟨n + 1, rfl⟩
    · exact ⟨n, rfl⟩

/-- **C15, partial: one time per instant.** For positive step sizes and any history of look-ups: a
look-up of `k` either raises or returns the one time of the instant `k` (rounded to eight decimals),
the same in every history. Missing: step sizes that are not positive, and look-ups that raise, see the two
refutations below. -/
theorem fun_lookup_partial (f : ℕ → ℚ) (h t0 : ℚ) (hh : 1 / 10 ^ 8 ≤ h) (hf : ∀ i, 0 < f i)
    (ks : List ℚ) (k t : ℚ) (ht : (getFun f h (runFun f h t0 ks) k).1 = some t) :
    IsTime f h t0 (round8 k) t := by
  obtain ⟨n, hn⟩ := run_stateAt f h t0 hf ks
  rw [hn, getFun_stateAt f h t0 hf n k] at ht
  have main : ∀ m, lookup (stateAt f h t0 m) (round8 k) = some t → IsTime f h t0 (round8 k) t := by
    intro m hm
    obtain ⟨h1, h2⟩ := lookup_stateAt f h t0 hh m (round8 k)
    by_cases hc : 0 ≤ round8 k ∧ round8 k ≤ stepAt h m
    · obtain ⟨t', ht', ht''⟩ := h1 hc.1 hc.2
      rw [hm] at ht'
      cases ht'
      exact ht''
    · rw [h2 hc] at hm; cases hm
  split_ifs at ht
  · exact main _ ht
  · exact main _ ht

/-- **C15, partial: looked-up times never change and are strictly increasing.** Two look-ups in any two
histories of the same sequence return the same time for the same instant and ordered times for ordered
instants. -/
theorem fun_consistent_partial (f : ℕ → ℚ) (h t0 : ℚ) (hh : 1 / 10 ^ 8 ≤ h) (hf : ∀ i, 0 < f i)
    (ks ks' : List ℚ) (k k' t t' : ℚ) (ht : (getFun f h (runFun f h t0 ks) k).1 = some t)
    (ht' : (getFun f h (runFun f h t0 ks') k').1 = some t') :
    (round8 k = round8 k' → t = t') ∧ (round8 k < round8 k' → t < t') := by
  have a := fun_lookup_partial f h t0 hh hf ks k t ht
  have b := fun_lookup_partial f h t0 hh hf ks' k' t' ht'
  refine ⟨fun e => ?_, fun l => isTime_strict f h t0 hh hf a b l⟩
  rw [e] at a
  exact isTime_unique f h t0 hh a b

/-- **C15, partial: availability.** An instant that could be looked up stays available: the look-up
succeeds again after any further look-ups. -/
theorem fun_stays_available_partial (f : ℕ → ℚ) (h t0 : ℚ) (hh : 1 / 10 ^ 8 ≤ h)
    (hf : ∀ i, 0 < f i) (ks more : List ℚ) (k t : ℚ)
    (ht : (getFun f h (runFun f h t0 ks) k).1 = some t) :
    (getFun f h (runFun f h t0 (ks ++ k :: more)) k).1 = some t := by
  have S := stepAt_mono h hh
  have grow : ∀ (more : List ℚ) (n : ℕ), ∃ m, n ≤ m ∧
      more.foldl (fun s k => (getFun f h s k).2) (stateAt f h t0 n) = stateAt f h t0 m := by
    intro more
    induction more with
    | nil => intro n; exact ⟨n, le_rfl, rfl⟩
    | cons x more ih =>
      intro n
      rw [List.foldl_cons, getFun_stateAt f h t0 hf n x]
      split_ifs
      · obtain ⟨m, h1, h2⟩ := ih (n + 1); exact ⟨m, by omega, h2⟩
      · exact ih n
  obtain ⟨n, hn⟩ := run_stateAt f h t0 hf ks
  have hrun : runFun f h t0 (ks ++ k :: more) =
      more.foldl (fun s k => (getFun f h s k).2) (getFun f h (runFun f h t0 ks) k).2 := by
    simp [runFun]
  have hav : ∃ m0, (getFun f h (runFun f h t0 ks) k).2 = stateAt f h t0 m0 ∧ 0 ≤ round8 k ∧
      round8 k ≤ stepAt h m0 := by
    rw [hn, getFun_stateAt f h t0 hf n k] at ht ⊢
    split_ifs at ht ⊢ with hgt
    · refine ⟨n + 1, rfl, ?_⟩
      by_contra hc
      rw [(lookup_stateAt f h t0 hh (n + 1) (round8 k)).2 hc] at ht; cases ht
    · refine ⟨n, rfl, ?_⟩
      by_contra hc
      rw [(lookup_stateAt f h t0 hh n (round8 k)).2 hc] at ht; cases ht
  obtain ⟨m0, e0, p0, p1⟩ := hav
  obtain ⟨m, hm, e1⟩ := grow more m0
  have hfin : runFun f h t0 (ks ++ k :: more) = stateAt f h t0 m := by rw [hrun, e0, e1]
  have hle : round8 k ≤ stepAt h m := le_trans p1 (S.monotone hm)
  have hres : (getFun f h (runFun f h t0 (ks ++ k :: more)) k).1 =
      lookup (stateAt f h t0 m) (round8 k) := by
    rw [hfin, getFun_stateAt f h t0 hf m k, if_neg (not_lt.2 hle)]
  obtain ⟨t', ht', _⟩ := (lookup_stateAt f h t0 hh m (round8 k)).1 p0 hle
  rw [hres, ht']
  have := (fun_consistent_partial f h t0 hh hf ks (ks ++ k :: more) k k t t' ht
    (by rw [hres, ht'])).1 rfl
  rw [this]

/-- **C15 refuted: a look-up that raises changes the sequence.** Looking up instant 2 before
instant 1 raises, and looking it up again then succeeds. -/
theorem fun_raising_lookup_refuted : ∃ (f : ℕ → ℚ) (k : ℚ), (∀ i, 0 < f i) ∧
    (getFun f 1 (Fun.init 0) k).1 = none ∧
    (getFun f 1 (getFun f 1 (Fun.init 0) k).2 k).1 ≠ none :=
  ⟨fun _ => 1, 2, fun _ => by norm_num, by decide +kernel, by decide +kernel⟩

/-- **C15 refuted: a non-positive step size damages the sequence.** It raises, but the step stays
recorded without a time, and the next look-ups of the same step raise, although the step sizes are
positive again. -/
theorem fun_bad_step_refuted : ∃ (f : ℕ → ℚ) (ks : List ℚ), (∀ i, 0 < i → 0 < f i) ∧
    (getFun f 1 (runFun f 1 0 ks) 1).1 = none ∧
    (runFun f 1 0 ks).steps.length ≠ (runFun f 1 0 ks).times.length :=
  ⟨fun i => if i = 0 then 0 else 1, [1, 1], fun i hi => by simp [show i ≠ 0 by omega],
    by decide +kernel, by decide +kernel⟩

/-- Look-ups at 1, 1/2, 2 and 3/2 with step sizes 1, 3, 1, 1, …. -/
example : let f : ℕ → ℚ := fun i => if i = 1 then 3 else 1
    (∀ i, 0 < f i) ∧ (getFun f 1 (runFun f 1 0 [1, 1 / 2, 2]) (3 / 2)).1 = some (5 / 2) ∧
    (getFun f 1 (runFun f 1 0 [1]) (1 / 2)).1 = some (1 / 2) := by
  refine ⟨fun i => ?_, by decide +kernel, by decide +kernel⟩
  show (0 : ℚ) < if i = 1 then 3 else 1
  split_ifs <;> norm_num

end Phyem.TimeSeq
