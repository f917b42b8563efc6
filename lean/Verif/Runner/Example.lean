import Verif.Runner.Spec
import Mathlib.Tactic.IntervalCases

/-!
Natural numbers in decimal notation, and a runner for them.
-/

namespace Phyem.Runner

/-- The digits of a number, the first ones first. -/
def digits : ℕ → ℕ → Str
  | 0, _ => ['0']
  | f + 1, n => if n < 10 then [Char.ofNat (48 + n)] else digits f (n / 10) ++ [Char.ofNat (48 + n % 10)]

def decimal (n : ℕ) : Str := digits n n

/-- The number with these digits. -/
def undecimal (s : Str) : Option ℕ :=
  if s ≠ [] ∧ s.all (fun c => decide (48 ≤ c.toNat ∧ c.toNat ≤ 57)) then
    some (s.foldl (fun a c => a * 10 + (c.toNat - 48)) 0)
  else none

lemma digit_toNat (n : ℕ) (h : n < 10) : (Char.ofNat (48 + n)).toNat = 48 + n := by
  interval_cases n <;> rfl

lemma digit_token (n : ℕ) (h : n < 10) : ws (Char.ofNat (48 + n)) = false ∧ Char.ofNat (48 + n) ≠ '|' := by
  interval_cases n <;> decide

lemma digits_token (f n : ℕ) : Token (digits f n) := by
  induction f generalizing n with
  | zero => exact ⟨by simp [digits], by simp [digits, ws]⟩
  | succ f ih =>
    rw [digits]
    split_ifs with h
    · exact ⟨by simp, fun c hc => by rw [List.mem_singleton] at hc; rw [hc]; exact digit_token n h⟩
    · refine ⟨by simp, fun c hc => ?_⟩
      rcases List.mem_append.1 hc with hc | hc
      · exact (ih _).2 c hc
      · rw [List.mem_singleton] at hc; rw [hc]; exact digit_token _ (Nat.mod_lt _ (by omega))

lemma digits_all (f n : ℕ) : (digits f n).all (fun c => decide (48 ≤ c.toNat ∧ c.toNat ≤ 57)) = true := by
  induction f generalizing n with
  | zero => rfl
  | succ f ih =>
    rw [digits]
    split_ifs with h
    · simp [digit_toNat n h]; omega
    · have := digit_toNat (n % 10) (Nat.mod_lt _ (by omega))
      rw [List.all_append, ih]
      simp [this]; omega

lemma digits_value (f n : ℕ) (h : n ≤ f) : (digits f n).foldl (fun a c => a * 10 + (c.toNat - 48)) 0 = n := by
  induction f generalizing n with
  | zero => obtain rfl : n = 0 := by omega
            rfl
  | succ f ih =>
    rw [digits]
    split_ifs with h10
    · simp [digit_toNat n h10]
    · rw [List.foldl_append, ih _ (by omega)]
      simp [digit_toNat (n % 10) (Nat.mod_lt _ (by omega))]
      omega

/-- Natural numbers in decimal notation. -/
def decimalFormat : Format ℕ := ⟨decimal, decimal, decimal, undecimal, undecimal⟩

lemma undecimal_decimal (n : ℕ) : undecimal (decimal n) = some n := by
  unfold undecimal decimal
  rw [if_pos ⟨(digits_token n n).1, digits_all n n⟩, digits_value n n le_rfl]

lemma decimalFormat_good : decimalFormat.Good :=
  ⟨fun _ => digits_token _ _, fun _ => digits_token _ _, fun _ => digits_token _ _, undecimal_decimal, undecimal_decimal,
    undecimal_decimal⟩

/-- A runner with two outputs. -/
def exampleConfig : Config :=
  { task := ['t'], time := ['n', 'o', 'w'], dir := ['d'], solverDir := ['s'], source := [['d', 'e', 'f'], ['x']],
    inputNames := [['a'], ['b'], ['c']], outputNames := [['p'], ['q']], criterion := ['m'], kwargs := ['{', '}'],
    info := ['N'] }

lemma exampleConfig_good : exampleConfig.Good := by
  refine ⟨rfl, by decide, ?_⟩
  unfold Plain
  decide

def exampleSolver (x : List ℕ) : List ℕ := [x.sum, 2 * x.sum + 1]

lemma exampleSolver_good : GoodSolver exampleConfig exampleSolver := fun _ _ => rfl

def exampleTimes (_ : ℕ) : Str × Str × Str := (['1'], ['2'], ['0', ':', '3'])

lemma exampleTimes_good : GoodTimes exampleTimes := by
  intro m
  show Token ['1'] ∧ Token ['2'] ∧ Token ['0', ':', '3']
  unfold Token
  decide

def exampleSlots : List (Option (List ℕ)) := [some [1, 2, 3], none, some [12, 0, 4], some [1, 2, 3], some [1, 2, 5]]

lemma exampleSlots_good : GoodSlots exampleSlots := by
  intro x hx
  simp [exampleSlots] at hx
  rcases hx with rfl | rfl | rfl | rfl <;> rfl

end Phyem.Runner
