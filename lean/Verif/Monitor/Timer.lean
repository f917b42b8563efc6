import Verif.Monitor.Model
import Mathlib.Tactic.Linarith
import Mathlib.Tactic.NormNum
import Mathlib.Tactic.IntervalCases
import Mathlib.Tactic.FieldSimp
import Mathlib.Tactic.Ring

/-! # Times as strings and back -/

namespace Phyem.Monitor

lemma digitChar_spec {d : ℕ} (h : d < 10) : (Nat.digitChar d).isDigit = true ∧ (Nat.digitChar d).toNat - '0'.toNat = d := by
  interval_cases d <;> decide

/-- All characters are digits. -/
def AllDigits (l : List Char) : Prop := ∀ c ∈ l, c.isDigit = true

lemma natChars_digits (n : ℕ) : AllDigits (natChars n) ∧ natChars n ≠ [] := by
  unfold natChars
  split_ifs with h
  · refine ⟨?_, by simp⟩
    intro c hc
    simp only [List.mem_singleton] at hc
    subst hc
    rfl
  · refine ⟨?_, ?_⟩
    · intro c hc
      simp only [List.mem_map, List.mem_reverse] at hc
      obtain ⟨d, hd, rfl⟩ := hc
      exact (digitChar_spec (Nat.digits_lt_base (by norm_num) hd)).1
    · simp [Nat.digits_eq_nil_iff_eq_zero, h]

lemma fold_digits : ∀ l : List ℕ, (∀ d ∈ l, d < 10) → (l.reverse.map Nat.digitChar).foldl (fun a c => 10 * a + (c.toNat - '0'.toNat)) 0 = Nat.ofDigits 10 l
  | [], _ => rfl
  | x :: l, h => by
    rw [List.reverse_cons, List.map_append, List.foldl_append, fold_digits l (fun d hd => h d (List.mem_cons_of_mem _ hd))]
    simp only [List.map_cons, List.map_nil, List.foldl_cons, List.foldl_nil, Nat.ofDigits_cons]
    rw [(digitChar_spec (h x (by simp))).2]
    omega

lemma fold_natChars (n : ℕ) : (natChars n).foldl (fun a c => 10 * a + (c.toNat - '0'.toNat)) 0 = n := by
  unfold natChars
  split_ifs with h
  · rw [h]; rfl
  · rw [fold_digits _ (fun d hd => Nat.digits_lt_base (by norm_num) hd), Nat.ofDigits_digits]

lemma fold_zeros (l : List Char) : ∀ k, (List.replicate k '0' ++ l).foldl (fun a c => 10 * a + (c.toNat - '0'.toNat)) 0 =
    l.foldl (fun a c => 10 * a + (c.toNat - '0'.toNat)) 0
  | 0 => rfl
  | k + 1 => by
    rw [List.replicate_succ, List.cons_append, List.foldl_cons]
    exact fold_zeros l k

lemma padded_digits (k n : ℕ) : AllDigits (List.replicate k '0' ++ natChars n) ∧ List.replicate k '0' ++ natChars n ≠ [] := by
  refine ⟨?_, by simp [(natChars_digits n).2]⟩
  intro c hc
  rcases List.mem_append.1 hc with hc | hc
  · rw [List.eq_of_mem_replicate hc]; rfl
  · exact (natChars_digits n).1 c hc

lemma natOf_padded (k n : ℕ) : natOf (List.replicate k '0' ++ natChars n) = some n := by
  obtain ⟨h1, h2⟩ := padded_digits k n
  have h3 := fold_zeros (natChars n) k
  rw [fold_natChars] at h3
  generalize List.replicate k '0' ++ natChars n = l at *
  cases l with
  | nil => exact absurd rfl h2
  | cons c l =>
    unfold natOf
    dsimp only
    rw [if_pos (List.all_eq_true.2 h1), h3]

lemma intOf_digits {l : List Char} (h : AllDigits l) : intOf l = (natOf l).map fun n => (n : ℤ) := by
  cases l with
  | nil => rfl
  | cons c l =>
    unfold intOf
    split
    · rename_i heq
      have := (List.cons.inj heq).1
      subst this
      exact absurd (h '-' (by simp)) (by decide)
    · rfl

lemma intOf_pad (w : ℕ) (z : ℤ) : intOf (pad w z) = some z := by
  unfold pad
  split_ifs with h
  · simp only [intOf]
    rw [natOf_padded]
    show some _ = some _
    congr 1
    dsimp only
    omega
  · rw [intOf_digits (padded_digits _ _).1, natOf_padded]
    show some _ = some _
    congr 1
    dsimp only
    omega

lemma pad_free (w : ℕ) (z : ℤ) {c : Char} (h1 : c ≠ '-') (h2 : c.isDigit = false) : c ∉ pad w z := by
  intro hc
  unfold pad at hc
  split_ifs at hc with h
  · rcases List.mem_cons.1 hc with hc | hc
    · exact h1 hc
    · rw [(padded_digits _ _).1 c hc] at h2; cases h2
  · rw [(padded_digits _ _).1 c hc] at h2; cases h2

lemma pad_colon (w : ℕ) (z : ℤ) : ':' ∉ pad w z := pad_free w z (by decide) (by decide)
lemma pad_dot (w : ℕ) (z : ℤ) : '.' ∉ pad w z := pad_free w z (by decide) (by decide)

lemma inner_bracket (l : List Char) : inner ('[' :: (l ++ [']'])) = l := by
  unfold inner
  simp

lemma split3 {a b c : List Char} (ha : ':' ∉ a) (hb : ':' ∉ b) (hc : ':' ∉ c) : (a ++ ':' :: (b ++ ':' :: c)).splitOn ':' = [a, b, c] := by
  rw [List.splitOn_append_cons_self_of_not_mem ha, List.splitOn_append_cons_self_of_not_mem hb, List.splitOn_eq_singleton hc]

lemma split4 {a b c d : List Char} (ha : ':' ∉ a) (hb : ':' ∉ b) (hc : ':' ∉ c) (hd : ':' ∉ d) :
    (a ++ ':' :: (b ++ ':' :: (c ++ ':' :: d))).splitOn ':' = [a, b, c, d] := by
  rw [List.splitOn_append_cons_self_of_not_mem ha, split3 hb hc hd]

lemma trunc_floor {x : ℚ} (h : 0 ≤ x) : trunc x = ⌊x⌋ := if_pos h

/-- The parts of a time: minutes and seconds are below sixty, and together they are the seconds rounded down. -/
lemma divs_spec (x : ℚ) : 0 ≤ (divs x).2.1 ∧ (divs x).2.1 < 60 ∧ 0 ≤ (divs x).2.2 ∧ (divs x).2.2 < 60 ∧
    (divs x).1 * 3600 + (divs x).2.1 * 60 + trunc (divs x).2.2 = ⌊x⌋ := by
  have h1 := Int.floor_le (x / 60)
  have h2 := Int.lt_floor_add_one (x / 60)
  have h3 := Int.floor_le ((⌊x / 60⌋ : ℚ) / 60)
  have h4 := Int.lt_floor_add_one ((⌊x / 60⌋ : ℚ) / 60)
  have h0 : 0 ≤ (divs x).2.2 := by simp only [divs]; rw [le_div_iff₀ (by norm_num)] at h1; linarith
  refine ⟨?_, ?_, h0, ?_, ?_⟩
  · simp only [divs]
    rw [le_div_iff₀ (by norm_num)] at h3
    have : (⌊(⌊x / 60⌋ : ℚ) / 60⌋ * 60 : ℤ) ≤ ⌊x / 60⌋ := by exact_mod_cast h3
    omega
  · simp only [divs]
    rw [div_lt_iff₀ (by norm_num)] at h4
    have : (⌊x / 60⌋ : ℤ) < (⌊(⌊x / 60⌋ : ℚ) / 60⌋ + 1) * 60 := by exact_mod_cast h4
    omega
  · simp only [divs]
    rw [div_lt_iff₀ (by norm_num)] at h2
    linarith
  · rw [trunc_floor h0]
    simp only [divs]
    have : ⌊x - 60 * (⌊x / 60⌋ : ℚ)⌋ = ⌊x⌋ - 60 * ⌊x / 60⌋ := by
      rw [show (60 * (⌊x / 60⌋ : ℚ)) = ((60 * ⌊x / 60⌋ : ℤ) : ℚ) by push_cast; ring, Int.floor_sub_intCast]
    rw [this]
    ring

/-- Seconds written as hours, minutes and seconds and read again are the seconds rounded down, also for negative ones. -/
theorem hms_roundtrip (x : ℚ) : hms2 (hms x) = some ⌊x⌋ := by
  unfold hms2 hms
  simp only
  have e : ('[' :: (pad 2 (divs x).1 ++ ':' :: (pad 2 (divs x).2.1 ++ ':' :: (pad 2 (trunc (divs x).2.2) ++ [']'])))) =
      '[' :: ((pad 2 (divs x).1 ++ ':' :: (pad 2 (divs x).2.1 ++ ':' :: pad 2 (trunc (divs x).2.2))) ++ [']']) := by simp
  rw [e, inner_bracket, split3 (pad_colon _ _) (pad_colon _ _) (pad_colon _ _)]
  simp only [intOf_pad]
  show some _ = some _
  rw [(divs_spec x).2.2.2.2]

example : hms (7384 + 9 / 10) = "[02:03:04]".toList := by decide +kernel

lemma floor_days (x : ℚ) (d : ℤ) : d * 86400 + ⌊x - 86400 * (d : ℚ)⌋ = ⌊x⌋ := by
  rw [show (86400 * (d : ℚ)) = ((86400 * d : ℤ) : ℚ) by push_cast; ring, Int.floor_sub_intCast]
  ring

/-- The same with days. -/
theorem dhms_roundtrip (x : ℚ) : dhms2 (dhms x) = some ⌊x⌋ := by
  unfold dhms2 dhms
  simp only
  set d := trunc (x / 86400)
  set y := x - 86400 * (d : ℚ) with hy
  have e : ('[' :: (pad 0 d ++ ':' :: (pad 2 (divs y).1 ++ ':' :: (pad 2 (divs y).2.1 ++ ':' :: (pad 2 (trunc (divs y).2.2) ++ [']']))))) =
      '[' :: ((pad 0 d ++ ':' :: (pad 2 (divs y).1 ++ ':' :: (pad 2 (divs y).2.1 ++ ':' :: pad 2 (trunc (divs y).2.2)))) ++ [']']) := by simp
  rw [e, inner_bracket, split4 (pad_colon _ _) (pad_colon _ _) (pad_colon _ _) (pad_colon _ _)]
  simp only [intOf_pad]
  show some _ = some _
  have := (divs_spec y).2.2.2.2
  have h2 := floor_days x d
  rw [← hy] at h2
  congr 1
  linarith

example : dhms (90000 + 61) = "[1:01:01:01]".toList ∧ dhms (-1) = "[0:-1:59:59]".toList := by decide +kernel

lemma dhmsm_eq (x : ℚ) : ∃ body, '.' ∉ body ∧ dhmsm x = body ++ '.' :: (pad 3 (trunc ((x - trunc x) * 1000)) ++ [']']) ∧ dhms x = body ++ [']'] ∧
    ∃ d : ℤ, (body.drop 1).splitOn ':' = [pad 0 d, pad 2 (divs (x - 86400 * (d : ℚ))).1, pad 2 (divs (x - 86400 * (d : ℚ))).2.1,
      pad 2 (trunc (divs (x - 86400 * (d : ℚ))).2.2)] := by
  set d := trunc (x / 86400) with hd
  set y := x - 86400 * (d : ℚ) with hy
  refine ⟨'[' :: (pad 0 d ++ ':' :: (pad 2 (divs y).1 ++ ':' :: (pad 2 (divs y).2.1 ++ ':' :: pad 2 (trunc (divs y).2.2)))), ?_, ?_, ?_, d, ?_⟩
  · simp [pad_dot]
  · unfold dhmsm
    simp [← hd, ← hy]
  · unfold dhms
    simp [← hd, ← hy]
  · rw [List.drop_one, List.tail_cons, split4 (pad_colon _ _) (pad_colon _ _) (pad_colon _ _) (pad_colon _ _)]

lemma dhmsm_value (x : ℚ) : dhmsm2 (dhmsm x) = some ((⌊x⌋ : ℚ) + (trunc ((x - trunc x) * 1000) : ℚ) / 1000) := by
  obtain ⟨body, h1, h2, _, d, h3⟩ := dhmsm_eq x
  have hm : '.' ∉ pad 3 (trunc ((x - trunc x) * 1000)) ++ [']'] := by simp [pad_dot]
  unfold dhmsm2
  rw [h2, List.splitOn_append_cons_self_of_not_mem h1, List.splitOn_eq_singleton hm]
  simp only [List.dropLast_concat, intOf_pad, h3]
  show some _ = some _
  have e := (divs_spec (x - 86400 * (d : ℚ))).2.2.2.2
  have e2 := floor_days x d
  congr 2
  rw [← e] at e2
  rw [← e2]
  push_cast
  ring

/-- With milliseconds, what is read differs by less than one from the time, if it is not negative. -/
theorem dhmsm_roundtrip {x : ℚ} (h : 0 ≤ x) : ∃ y, dhmsm2 (dhmsm x) = some y ∧ y ≤ x ∧ x < y + 1 / 1000 := by
  refine ⟨_, dhmsm_value x, ?_⟩
  rw [trunc_floor h, trunc_floor (mul_nonneg (by linarith [Int.floor_le x]) (by norm_num))]
  have h1 := Int.floor_le ((x - (⌊x⌋ : ℚ)) * 1000)
  have h2 := Int.lt_floor_add_one ((x - (⌊x⌋ : ℚ)) * 1000)
  constructor <;> linarith

example : dhmsm (90061 + 1 / 4) = "[1:01:01:01.250]".toList := by decide +kernel

/-- For negative times it is wrong: half a second before zero becomes one and a half. -/
theorem dhmsm_negative_refuted : dhmsm2 (dhmsm (-1 / 2)) = some (-3 / 2) := by
  rw [dhmsm_value]
  have h1 : ⌊(-1 / 2 : ℚ)⌋ = -1 := by decide +kernel
  have h2 : trunc (-1 / 2) = 0 := by decide +kernel
  have h3 : trunc ((-1 / 2 - ((0 : ℤ) : ℚ)) * 1000) = -500 := by decide +kernel
  rw [h2, h1, h3]
  norm_num

/-- What the report shows is the time without milliseconds. -/
theorem shown_eq (x : ℚ) : shown x = dhms x := by
  obtain ⟨body, h1, h2, h3, _⟩ := dhmsm_eq x
  unfold shown
  rw [h2, List.splitOn_append_cons_self_of_not_mem h1, h3]
  rfl

end Phyem.Monitor
