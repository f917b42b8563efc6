import Verif.Ranking.Props
import Verif.Runner.Example

/-!
# A ranking, and where it goes wrong

Costs are given in tenths of a second, and written as Python does it: `12.5`.
-/

namespace Phyem.Ranking

open Phyem.Dict Phyem.Runner

/-- `12.5` for 125 tenths; `12.` and `12.5` are read. -/
def tenths : Format ℕ :=
  ⟨decimal, undecimal, fun n => decimal (n / 10) ++ '.' :: decimal (n % 10), fun s =>
    match s.splitOn '.' with
    | [a, []] => (undecimal a).map fun x => 10 * x
    | [a, b] => (undecimal a).bind fun x => (undecimal b).map fun y => 10 * x + y
    | _ => none⟩

lemma digits_no (c : Char) (hc : c.toNat < 48) (f n : ℕ) : c ∉ Runner.digits f n := by
  intro hm
  have := List.all_eq_true.1 (digits_all f n) c hm
  simp only [decide_eq_true_eq] at this
  omega

lemma digits_ne (f n : ℕ) : Runner.digits f n ≠ [] := (digits_token f n).1

lemma tenths_good : tenths.Good := by
  have w : ∀ n, Word (decimal n) := fun n => ⟨digits_ne n n, digits_no _ (by decide) n n, digits_no _ (by decide) n n⟩
  refine ⟨w, fun t => ⟨by simp [tenths], ?_, ?_⟩, undecimal_decimal, fun t => ?_⟩
  · simp [tenths, (w _).2.1]
  · simp [tenths, (w _).2.2]
  · have h1 : (decimal (t / 10) ++ '.' :: decimal (t % 10)).splitOn '.' = [decimal (t / 10), decimal (t % 10)] := by
      have d : ∀ n, '.' ∉ decimal n := fun n => digits_no '.' (by decide) n n
      rw [List.splitOn_append_cons_self_of_not_mem (d _), List.splitOn_eq_singleton (d _)]
    simp only [tenths]
    rw [h1]
    have h2 := (w (t % 10)).1
    cases h : decimal (t % 10) with
    | nil => exact absurd h h2
    | cons c s =>
      simp only [← h, undecimal_decimal, Option.bind_some, Option.map_some]
      congr 1
      omega

/-- Three machines. -/
def board : List (Rec ℕ) := [⟨['a'], 4, 95⟩, ⟨['b'], 2, 125⟩, ⟨['c', '1'], 16, 125⟩]

lemma board_ranking : IsRanking board := by
  refine ⟨by unfold board; decide, by unfold board; decide, ?_⟩
  unfold board Word
  decide

example : text tenths board = "0 a 4 9.5\n1 b 2 12.5\n2 c1 16 12.5".toList := by decide +kernel

example : one tenths 3 (text tenths board) ⟨['b'], 8, 80⟩ = some ("0 b 8 8.0\n1 a 4 9.5\n2 c1 16 12.5".toList, some 1) := by decide +kernel

example : one tenths 3 (text tenths board) ⟨['d'], 8, 200⟩ = some ("0 a 4 9.5\n1 c1 16 12.5\n2 b 2 12.5".toList, none) ∧
    one tenths 3 (text tenths board) ⟨['d'], 8, 100⟩ = some ("0 a 4 9.5\n1 d 8 10.0\n2 c1 16 12.5".toList, some 2) := by decide +kernel

example : (∀ x ∈ board, Word x.host) ∧ (board.map Rec.host).dedup.length ≤ 3 := by unfold board Word; decide

/-- **C180, against the code.** That the file holds the best `top` of the last records of all the machines is not so: a machine that has once left the
file does not come back when one of those in it has become slower. -/
theorem best_refuted : ¬ ∀ (F : Format ℕ), F.Good → ∀ (top : ℕ) (xs l : List (Rec ℕ)), (∀ x ∈ xs, Word x.host) → IsRanking l →
    after F top [] xs = some (text F l) → ∀ h x, lastOf xs h = some x → (∀ y ∈ l, x.cost < y.cost) → x ∈ l := by
  intro h
  have := h tenths tenths_good 1 [⟨['a'], 1, 10⟩, ⟨['b'], 1, 20⟩, ⟨['a'], 1, 30⟩] [⟨['a'], 1, 30⟩] (by unfold Word; decide)
    ⟨by decide, by decide, by unfold Word; decide⟩ (by decide +kernel) ['b'] ⟨['b'], 1, 20⟩ (by decide +kernel) (by decide)
  exact absurd this (by decide)

/-- **C180, against the code.** Two machines that share the file: the one that reports first is not in the file afterwards, if the other one has
started before. -/
theorem shared_refuted : ¬ ∀ (F : Format ℕ), F.Good → ∀ (top : ℕ) (l : List (Rec ℕ)), IsRanking l → ∀ (s s' : Session ℕ) (x y : Rec ℕ),
    x.host ≠ y.host → l.length + 2 ≤ top → start F (text F l) = some s → start F (text F l) = some s' →
    ∀ f r f' r' l', report F top s x = some (f, r) → report F top s' y = some (f', r') → IsRanking l' → f' = text F l' → x ∈ l' := by
  intro h
  have := h tenths tenths_good 2 [] ⟨List.Pairwise.nil, List.nodup_nil, by simp⟩ ⟨[], []⟩ ⟨[], []⟩ ⟨['a'], 1, 10⟩ ⟨['b'], 1, 20⟩ (by decide) (by decide) rfl rfl
    (text tenths [⟨['a'], 1, 10⟩]) (some 1) (text tenths [⟨['b'], 1, 20⟩]) (some 1) [⟨['b'], 1, 20⟩] (by decide +kernel) (by decide +kernel)
    ⟨by decide, by decide, by unfold Word; decide⟩ rfl
  exact absurd this (by decide)

/-- **C181, against the code.** The cost of the last machine is not the one in the file: 12.5 seconds are printed as 12 seconds. -/
theorem printed_refuted : ¬ ∀ (F : Format ℕ), F.Good → ∀ l : List (Rec ℕ), IsRanking l →
    printed F (text F l) = some (l.map fun x => (x.host, F.showI x.size, x.cost)) := by
  intro h
  have h1 : printed tenths (text tenths board) = some [(['a'], ['4'], 95), (['b'], ['2'], 125), (['c', '1'], ['1', '6'], 120)] := by decide +kernel
  have h2 := h tenths tenths_good board board_ranking
  rw [h1] at h2
  revert h2
  decide +kernel

end Phyem.Ranking
