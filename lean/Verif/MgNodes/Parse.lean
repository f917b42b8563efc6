import Verif.MgNodes.Levels
import Mathlib.Tactic.NormNum
import Mathlib.Tactic.IntervalCases

/-! # The degrees of the levels -/

namespace Phyem.MgNodes

lemma below_spec {N : ℕ} {fine : List ℚ} (hN : 3 ≤ N) (hn : Nodes N fine) (he : Spread N fine) : ∀ t, ∃ n, below N fine t = some n ∧
    Nodes N n ∧ Spread N n
  | 0 => ⟨fine, rfl, hn, he⟩
  | t + 1 => by
    obtain ⟨n, h1, h2, h3⟩ := below_spec hN hn he t
    obtain ⟨n', h4, h5, _⟩ := coarse_step hN h2 h3
    exact ⟨n', by rw [below, h1, Option.bind_some, h4], h5.1, h5.2⟩

lemma parse_eq {N : ℕ} {fine : List ℚ} {lvl k : ℕ} (hN : 3 ≤ N) (hl : lvl < k) :
    parse N 2 fine lvl k = (below N fine (k - 1 - lvl)).map fun n => (N, n) := by
  unfold parse
  rw [if_pos ⟨rfl, by exact_mod_cast hN, hl⟩, Int.toNat_natCast]

/-- Every level of a multigrid gets `N + 1` nodes, increasing from -1 to 1 and symmetric, whatever the number of levels; the finest level has the
given ones. -/
theorem levels_nodes {N : ℕ} {fine : List ℚ} (hN : 3 ≤ N) (hn : Nodes N fine) (he : Spread N fine) {lvl k : ℕ} (hl : lvl < k) :
    (∃ n, parse N 2 fine lvl k = some (N, n) ∧ Nodes N n) ∧ (lvl + 1 = k → parse N 2 fine lvl k = some (N, fine)) := by
  rw [parse_eq hN hl]
  obtain ⟨n, h1, h2, _⟩ := below_spec hN hn he (k - 1 - lvl)
  refine ⟨⟨n, by rw [h1]; rfl, h2⟩, fun h => ?_⟩
  rw [show k - 1 - lvl = 0 by omega]
  rfl

/-- The levels conform: every node of a level is a node of one of the two elements of the next finer level, in either half of the element. -/
theorem levels_conform {N : ℕ} {fine : List ℚ} (hN : 3 ≤ N) (hn : Nodes N fine) (he : Spread N fine) {lvl k : ℕ} (hl : lvl + 1 < k)
    {n f : List ℚ} (h1 : parse N 2 fine lvl k = some (N, n)) (h2 : parse N 2 fine (lvl + 1) k = some (N, f)) :
    ∀ x ∈ n, ∃ a ∈ f, x = (a - 1) / 2 ∨ x = (a + 1) / 2 := by
  rw [parse_eq hN (by omega)] at h1 h2
  obtain ⟨g, hg, hg2, hg3⟩ := below_spec hN hn he (k - 1 - (lvl + 1))
  rw [hg, Option.map_some, Option.some.injEq, Prod.mk.injEq] at h2
  obtain ⟨_, rfl⟩ := h2
  obtain ⟨n', h4, _, h6⟩ := coarse_step hN hg2 hg3
  rw [show k - 1 - lvl = k - 1 - (lvl + 1) + 1 by omega, below, hg, Option.bind_some, h4, Option.map_some, Option.some.injEq,
    Prod.mk.injEq] at h1
  obtain ⟨_, rfl⟩ := h1
  exact h6

/-- And so every node of a level is a node of the finest one, in one of the `2 ^ t` intervals of the same size that the element is cut into. -/
theorem levels_in_finest {N : ℕ} {fine : List ℚ} (hN : 3 ≤ N) (hn : Nodes N fine) (he : Spread N fine) {lvl k : ℕ} (hl : lvl < k)
    {n : List ℚ} (h : parse N 2 fine lvl k = some (N, n)) :
    ∀ x ∈ n, ∃ a ∈ fine, ∃ r : ℕ, r < 2 ^ (k - 1 - lvl) ∧ x = (a + (2 * (r : ℚ) + 1 - 2 ^ (k - 1 - lvl))) / 2 ^ (k - 1 - lvl) := by
  rw [parse_eq hN hl] at h
  generalize k - 1 - lvl = t at h ⊢
  induction t generalizing n with
  | zero =>
    simp only [below, Option.map_some, Option.some.injEq, Prod.mk.injEq] at h
    obtain ⟨_, rfl⟩ := h
    exact fun x hx => ⟨x, hx, 0, by simp, by simp⟩
  | succ t ih =>
    obtain ⟨g, hg, hg2, hg3⟩ := below_spec hN hn he t
    obtain ⟨n', h4, _, h6⟩ := coarse_step hN hg2 hg3
    rw [below, hg, Option.bind_some, h4, Option.map_some, Option.some.injEq, Prod.mk.injEq] at h
    obtain ⟨_, rfl⟩ := h
    intro x hx
    obtain ⟨y, hy, hxy⟩ := h6 x hx
    obtain ⟨a, ha, r, hr, hya⟩ := ih (by rw [hg]; rfl) y hy
    have hp : (2 : ℚ) ^ t ≠ 0 := by positivity
    rcases hxy with hxy | hxy
    · refine ⟨a, ha, r, by rw [pow_succ]; omega, ?_⟩
      rw [hxy, hya, pow_succ]
      field_simp
      ring
    · refine ⟨a, ha, r + 2 ^ t, by rw [pow_succ]; omega, ?_⟩
      rw [hxy, hya, pow_succ]
      push_cast
      field_simp
      ring

/-- Whatever the nodes of the next finer level are: nodes are returned only if those start at -1 and end at 1, and if each one returned is a node
of one of the two halves up to `1e-12`. -/
theorem coarse_only {N : ℕ} {b n : List ℚ} (h : coarse N b = some n) : b.head? = some (-1 : ℚ) ∧ b.getLast? = some 1 ∧
    ∀ x ∈ n, ∃ a ∈ b, |(a - 1) / 2 - x| < 1 / 10 ^ 12 ∨ |(a + 1) / 2 - x| < 1 / 10 ^ 12 := by
  unfold coarse at h
  by_cases h0 : b.head? = some (-1 : ℚ) ∧ b.getLast? = some 1
  · rw [if_pos h0] at h
    refine ⟨h0.1, h0.2, ?_⟩
    all_goals
      dsimp only at h
      rw [Option.bind_eq_some_iff] at h
      obtain ⟨n', _, h1⟩ := h
      split_ifs at h1 with h2
      cases h1
      intro x hx
      rw [List.all_eq_true] at h2
      have := h2 x hx
      rw [List.any_eq_true] at this
      obtain ⟨c, hc, h3⟩ := this
      rw [decide_eq_true_eq] at h3
      unfold children at hc
      simp only [List.map_map, List.mem_append, List.mem_map, Function.comp] at hc
      rcases hc with ⟨a, ha, rfl⟩ | hc
      · exact ⟨a, ha, Or.inl (by rwa [show (a - 1) / 2 = (a + 1) / 2 - 1 by ring])⟩
      · have := List.mem_of_mem_tail hc
        simp only [List.mem_map] at this
        obtain ⟨a, ha, rfl⟩ := this
        exact ⟨a, ha, Or.inr h3⟩
  · rw [if_neg h0] at h; cases h

/-- Other refinements than by two, degrees below three and levels that are not there are refused. -/
theorem parse_refused {N rff : ℤ} {fine : List ℚ} {lvl k : ℕ} (h : rff ≠ 2 ∨ N < 3 ∨ k ≤ lvl) : parse N rff fine lvl k = none := by
  unfold parse
  rw [if_neg]
  rintro ⟨h1, h2, h3⟩
  rcases h with h | h | h
  · exact h h1
  · omega
  · omega

/-- The Lobatto nodes of degree three and six, rounded, meet the hypotheses. -/
example : (Nodes 3 [-1, -447/1000, 447/1000, 1] ∧ Spread 3 [-1, -447/1000, 447/1000, 1]) ∧
    (Nodes 6 [-1, -830/1000, -469/1000, 0, 469/1000, 830/1000, 1] ∧ Spread 6 [-1, -830/1000, -469/1000, 0, 469/1000, 830/1000, 1]) := by
  have p3 : parts 3 = 2 := rfl
  have p6 : parts 6 = 3 := rfl
  have w3 : weight 3 = 4 := by unfold weight; rw [p3]; norm_num
  have w6 : weight 6 = 12 := by unfold weight; rw [p6]; norm_num
  refine ⟨⟨⟨rfl, by decide +kernel, rfl, by decide +kernel⟩, ⟨?_, ?_, ?_⟩⟩, ⟨⟨rfl, by decide +kernel, rfl, by decide +kernel⟩, ⟨?_, ?_, ?_⟩⟩⟩
  · rw [w3, p3]; norm_num [List.isChain_cons_cons]
  · rw [w3]; intro x hx; simp at hx; rw [← hx]; norm_num
  · rw [w3, p3]; intro i x hx hi
    have hi : i < 1 := by omega
    interval_cases i
    simp at hx; rw [← hx]; norm_num
  · rw [w6, p6]; norm_num [List.isChain_cons_cons]
  · rw [w6]; intro x hx; simp at hx; rw [← hx]; norm_num
  · rw [w6, p6]; intro i x hx hi
    have hi : i < 2 := by omega
    interval_cases i <;> simp at hx <;> rw [← hx] <;> norm_num

/-- What comes out for degree three on four levels: the first node of each level is that of the finest one, halved again and again. -/
example : (List.range 4).map (fun lvl => parse 3 2 [-1, -447/1000, 447/1000, 1] lvl 4) =
    [some (3, [-1, -7447/8000, 7447/8000, 1]), some (3, [-1, -3447/4000, 3447/4000, 1]), some (3, [-1, -1447/2000, 1447/2000, 1]),
      some (3, [-1, -447/1000, 447/1000, 1])] := by
  decide +kernel

/-- Nodes that are too far from each other would not do: a node is found twice. -/
theorem spread_needed : Nodes 4 [-1, -1/10, 0, 1/10, 1] ∧ coarse 4 [-1, -1/10, 0, 1/10, 1] = some [-1, -1, 0, 1, 1] :=
  ⟨⟨rfl, by decide +kernel, rfl, by decide +kernel⟩, by decide +kernel⟩

end Phyem.MgNodes
