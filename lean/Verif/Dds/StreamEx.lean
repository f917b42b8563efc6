import Verif.Dds.Values
import Mathlib.Tactic.Positivity
import Mathlib.Tactic.FieldSimp

/-!
# Cases of stream functions, and what does not hold
-/

namespace Phyem.Dds

/-- The points of a rectangle with the lower corner `(a, b)` and the sides `h` and `k`, and the values of two functions. -/
def box (key n0 n1 : ℕ) (a b h k : ℚ) (u v : ℚ → ℚ → ℚ) : Reg :=
  ⟨key, n0, n1, fun i _ => a + h * i, fun _ j => b + k * j, fun i j => u (a + h * i) (b + k * j),
    fun i j => v (a + h * i) (b + k * j)⟩

/-- Three squares in a row and the velocity of `x y`; the third region is to the left of the second one. -/
def row : List Reg :=
  [box 0 2 3 0 0 1 (1 / 2) (fun x _ => x) (fun _ y => - y), box 1 2 2 2 0 1 1 (fun x _ => x) (fun _ y => - y),
    box 2 3 2 1 0 (1 / 2) 1 (fun x _ => x) (fun _ y => - y)]

/-- `stream_exists` and `stream_regions` with three regions; the second one is found in the second call. -/
example : (row.map Reg.key).Nodup ∧ (∀ r ∈ row, r.HasPoints) ∧
    (streamfunction id row none 5).map (List.map Prod.fst) = some [1, 2, 0] := by
  refine ⟨by decide, ?_, by decide +kernel⟩
  intro r hr
  simp only [row, List.mem_cons, List.not_mem_nil, or_false] at hr
  rcases hr with rfl | rfl | rfl <;> simp [Reg.HasPoints, box]

lemma row_carries : ∀ r ∈ row, r.Carries fun x y => 0 * x ^ 2 + 1 * x * y + 0 * y ^ 2 + 0 * x + 0 * y + 0 := by
  intro r hr
  apply quadratic_carries
  intro i j _ _
  simp only [row, List.mem_cons, List.not_mem_nil, or_false] at hr
  rcases hr with rfl | rfl | rfl <;> simp only [box] <;> constructor <;> ring

/-- `stream_values` with three regions. -/
example : Fits row (fun x y => 0 * x ^ 2 + 1 * x * y + 0 * y ^ 2 + 0 * x + 0 * y + 0) ∧
    (streamfunction id row none 5).map (fun l => (l.lookup 1).map fun f => f 1 1) = some (some 8) ∧
    (streamfunction id row (some ((2, 1), 10)) 0).map (fun l => (l.lookup 0).map fun f => f 0 1) = some (some 8) := by
  refine ⟨?_, by decide +kernel, by decide +kernel⟩
  intro r hr r' hr' c c' h
  simp only [row, List.mem_cons, List.not_mem_nil, or_false] at hr hr'
  rcases hr with rfl | rfl | rfl <;> rcases hr' with rfl | rfl | rfl <;> revert h <;> cases c <;> cases c' <;>
    decide +kernel

/-- `compute_way`, `compute_potential` and `quadratic_carries` with a region of three times four points. -/
example : let r := box 0 3 4 (-1) 2 (1 / 2) (1 / 3) (fun x y => 3 * x + 8 * y + 1) (fun x y => - (2 * x + 3 * y + 5))
    r.HasPoints ∧ r.Quadratic 1 3 4 5 1 ∧ compute id r .pp 7 2 3 = 7 ∧ compute id r .pp 7 0 0 = -24 := by
  refine ⟨by simp [Reg.HasPoints, box], ?_, by decide +kernel, by decide +kernel⟩
  intro i j _ _
  simp only [box]
  constructor <;> ring

/-- Regions that share a side but no corner have no stream function: an exception says so. -/
theorem stream_hanging_refuted :
    streamfunction id [box 0 2 2 0 0 1 1 (fun x _ => x) (fun _ y => - y),
      box 1 2 2 1 (1 / 4) 1 (1 / 2) (fun x _ => x) (fun _ y => - y)] none 0 = none := by
  have : (streamfunction id [box 0 2 2 0 0 1 1 (fun x _ => x) (fun _ y => - y),
      box 1 2 2 1 (1 / 4) 1 (1 / 2) (fun x _ => x) (fun _ y => - y)] none 0).isSome = false := by decide +kernel
  simpa using this

/-- The values at a common point of two regions differ when the velocity comes from no stream function, even though it is
the same velocity `(x, 0)` in both regions. -/
theorem stream_continuous_refuted :
    ¬ ∀ (u v : ℚ → ℚ → ℚ) (regs : List Reg),
      (∀ r ∈ regs, ∃ a b h k, r = box r.key r.n0 r.n1 a b h k u v) →
      ∀ out, streamfunction id regs none 0 = some out → ∀ r ∈ regs, ∀ r' ∈ regs, ∀ f f',
        out.lookup r.key = some f → out.lookup r'.key = some f' →
        ∀ i j i' j', i < r.n0 → j < r.n1 → i' < r'.n0 → j' < r'.n1 →
          r.x i j = r'.x i' j' → r.y i j = r'.y i' j' → f i j = f' i' j' := by
  intro h
  have e1 : (streamfunction id [box 0 2 2 0 0 1 1 (fun x _ => x) (fun _ _ => 0),
      box 1 2 2 1 0 1 1 (fun x _ => x) (fun _ _ => 0)] none 0).map (fun l => ((l.lookup 0).map fun f => f 1 1,
        (l.lookup 1).map fun f => f 0 1)) = some (some 0, some 1) := by decide +kernel
  rw [Option.map_eq_some_iff] at e1
  obtain ⟨out, ho, e1⟩ := e1
  simp only [Prod.mk.injEq, Option.map_eq_some_iff] at e1
  obtain ⟨⟨f, hf, hf1⟩, f', hf', hf1'⟩ := e1
  have := h (fun x _ => x) (fun _ _ => 0) [box 0 2 2 0 0 1 1 (fun x _ => x) (fun _ _ => 0),
      box 1 2 2 1 0 1 1 (fun x _ => x) (fun _ _ => 0)]
    (by
      intro r hr
      simp only [List.mem_cons, List.not_mem_nil, or_false] at hr
      rcases hr with rfl | rfl
      · exact ⟨0, 0, 1, 1, rfl⟩
      · exact ⟨1, 0, 1, 1, rfl⟩)
    out ho (box 0 2 2 0 0 1 1 (fun x _ => x) (fun _ _ => 0)) (by simp) (box 1 2 2 1 0 1 1 (fun x _ => x) (fun _ _ => 0)) (by simp) f f' hf hf' 1 1 0 1
    (by decide) (by decide) (by decide) (by decide) (by simp [box]) (by simp [box])
  rw [hf1, hf1'] at this
  exact absurd this (by norm_num)

/-- Putting a number into an array of integers. -/
def cut (q : ℚ) : ℚ := if 0 ≤ q then ⌊q⌋ else ⌈q⌉

/-- With integer coordinates the stream function is cut to integers: for the velocity `(1/2, 0)` it is constant. -/
theorem stream_integer_refuted :
    ¬ ∀ (r : Reg) (ψ : ℚ → ℚ → ℚ), r.HasPoints → r.Carries ψ → ∀ out, streamfunction cut [r] none 0 = some out →
      ∃ C f, out.lookup r.key = some f ∧ ∀ i j, i < r.n0 → j < r.n1 → f i j = ψ (r.x i j) (r.y i j) + C := by
  intro h
  have e1 : (streamfunction cut [box 0 2 2 0 0 1 1 (fun _ _ => 1 / 2) (fun _ _ => 0)] none 0).map
      (fun l => (l.lookup 0).map fun f => (f 0 0, f 0 1)) = some (some (0, 0)) := by decide +kernel
  rw [Option.map_eq_some_iff] at e1
  obtain ⟨out, ho, e1⟩ := e1
  rw [Option.map_eq_some_iff] at e1
  obtain ⟨f, hf, e1⟩ := e1
  have hq : (box 0 2 2 0 0 1 1 (fun _ _ => 1 / 2) (fun _ _ => 0)).Quadratic 0 0 0 0 (1 / 2) := by
    intro i j _ _
    simp only [box]
    constructor <;> ring
  obtain ⟨C, g, hg, hv⟩ := h _ _ (by simp [Reg.HasPoints, box]) (quadratic_carries hq 0) out ho
  have hg' : out.lookup 0 = some g := hg
  rw [hf] at hg'
  obtain rfl : f = g := by simpa using hg'
  have h1 := hv 0 0 (by decide) (by decide)
  have h2 := hv 0 1 (by decide) (by decide)
  simp only [Prod.mk.injEq] at e1
  rw [e1.1] at h1
  rw [e1.2] at h2
  simp only [box] at h1 h2
  norm_num at h1 h2
  linarith

lemma fmt_err (q : ℚ) : |(|q| * 10000000 - (fmt q).2)| ≤ 1 / 2 := by
  unfold fmt
  dsimp only
  have h0 : 0 ≤ |q| * 10000000 := by positivity
  have h1 := Nat.floor_le h0
  have h2 := Nat.lt_floor_add_one (|q| * 10000000)
  rw [abs_le]
  split_ifs with a b c
  · constructor <;> linarith
  · push_cast; constructor <;> linarith
  · constructor <;> linarith
  · push_cast; constructor <;> linarith

/-- Numbers that are shown with the same seven decimals differ by less than these can tell. -/
theorem fmt_close {a b : ℚ} (h : fmt a = fmt b) : |a - b| ≤ 1 / 10000000 := by
  have ha := abs_le.1 (fmt_err a)
  have hb := abs_le.1 (fmt_err b)
  rw [h] at ha
  have hs : (a < 0 ↔ b < 0) := by
    have := congrArg Prod.fst h
    simpa [fmt] using this
  rw [abs_le]
  rcases lt_or_ge a 0 with h0 | h0
  · have h0' := hs.1 h0
    rw [abs_of_neg h0] at ha
    rw [abs_of_neg h0'] at hb
    constructor <;> linarith [ha.1, ha.2, hb.1, hb.2]
  · have h0' : 0 ≤ b := not_lt.1 fun hb0 => absurd (hs.2 hb0) (not_lt.2 h0)
    rw [abs_of_nonneg h0] at ha
    rw [abs_of_nonneg h0'] at hb
    constructor <;> linarith [ha.1, ha.2, hb.1, hb.2]

example : fmt (1 / 3) = fmt (3333333 / 10000000) ∧ fmt (-1 / 3) = (true, 3333333) := by decide +kernel

/-- A corner whose coordinate is a tiny negative number is not recognised as the corner with coordinate zero: all decimals
are zero in both, but the signs are shown. Two squares with such a corner in common have no stream function. -/
theorem corner_sign_refuted :
    fmt (-1 / 1000000000000) = (true, 0) ∧ fmt 0 = (false, 0) ∧
    streamfunction id [box 0 2 2 (-1) 0 1 1 (fun x _ => x) (fun _ y => - y),
      box 1 2 2 0 0 1 1 (fun x _ => x) (fun _ y => - y)] none 0 ≠ none ∧
    streamfunction id [box 0 2 2 (-1) 0 (999999999999 / 1000000000000) 1 (fun x _ => x) (fun _ y => - y),
      box 1 2 2 0 0 1 1 (fun x _ => x) (fun _ y => - y)] none 0 = none := by
  refine ⟨by decide +kernel, by decide +kernel, ?_, ?_⟩
  · have : (streamfunction id [box 0 2 2 (-1) 0 1 1 (fun x _ => x) (fun _ y => - y),
      box 1 2 2 0 0 1 1 (fun x _ => x) (fun _ y => - y)] none 0).isSome = true := by decide +kernel
    intro h
    rw [h] at this
    cases this
  · have : (streamfunction id [box 0 2 2 (-1) 0 (999999999999 / 1000000000000) 1 (fun x _ => x) (fun _ y => - y),
      box 1 2 2 0 0 1 1 (fun x _ => x) (fun _ y => - y)] none 0).isSome = false := by decide +kernel
    simpa using this

end Phyem.Dds
