import Verif.Dds.StreamSpec
import Mathlib.Tactic.Ring
import Mathlib.Tactic.Linarith
import Mathlib.Algebra.BigOperators.Group.Finset.Basic
import Mathlib.Algebra.BigOperators.Intervals

/-!
# The stream function in one region
-/

namespace Phyem.Dds

lemma up_inv {P : ℕ → (ℕ → ℕ → ℚ) → Prop} {f : (ℕ → ℕ → ℚ) → ℕ → ℕ → ℕ → ℚ} {sf : ℕ → ℕ → ℚ} {n : ℕ}
    (h0 : P 0 sf) (hs : ∀ k s, k + 1 < n → P k s → P (k + 1) (f s (k + 1))) : P (n - 1) (up n f sf) := by
  unfold up
  have key : ∀ m, m ≤ n - 1 → P m ((List.range' 1 m).foldl f sf) := by
    intro m
    induction m with
    | zero => intro _; simpa using h0
    | succ m ih =>
      intro hm
      rw [List.range'_concat, List.foldl_append]
      simp only [List.foldl_cons, List.foldl_nil]
      have := hs m _ (by omega) (ih (by omega))
      have e : 1 + 1 * m = m + 1 := by omega
      rw [e]; exact this
  exact key (n - 1) le_rfl

lemma down_inv {P : ℕ → (ℕ → ℕ → ℚ) → Prop} {f : (ℕ → ℕ → ℚ) → ℕ → ℕ → ℕ → ℚ} {n : ℕ} :
    ∀ {sf : ℕ → ℕ → ℚ}, P (n - 1) sf → (∀ k s, k + 1 < n → P (k + 1) s → P k (f s (k + 1))) →
      P 0 (down n f sf) := by
  unfold down
  intro sf h0 hs
  have key : ∀ m, m ≤ n - 1 → ∀ sf, P m sf → P 0 ((List.range' 1 m).reverse.foldl f sf) := by
    intro m
    induction m with
    | zero => intro _ sf h; simpa using h
    | succ m ih =>
      intro hm sf h
      rw [List.range'_concat, List.reverse_append]
      simp only [List.reverse_cons, List.reverse_nil, List.nil_append, List.singleton_append, List.foldl_cons]
      apply ih (by omega)
      have e : 1 + 1 * m = m + 1 := by omega
      rw [e]; exact hs m sf (by omega) h
  exact key (n - 1) le_rfl sf h0

lemma go_at (r : Reg) (sf : ℕ → ℕ → ℚ) (a b : ℕ × ℕ) (k l : ℕ) :
    go id r sf a b k l = if k = b.1 ∧ l = b.2 then sf a.1 a.2 + r.flow a b else sf k l := by
  simp only [go, put, id, Reg.flow]
  split_ifs
  · ring
  · rfl

lemma flow_neg (r : Reg) (a b : ℕ × ℕ) : r.flow b a = - r.flow a b := by
  simp only [Reg.flow]; ring

/-- `G` changes by the flow along the edges of the first row and of all columns. -/
def Tree (r : Reg) (G : ℕ → ℕ → ℚ) : Prop :=
  (∀ i j, i + 1 < r.n0 → j < r.n1 → G (i + 1) j - G i j = r.flow (i, j) (i + 1, j)) ∧
  (∀ j, j + 1 < r.n1 → G 0 (j + 1) - G 0 j = r.flow (0, j) (0, j + 1))

lemma columns_tree {r : Reg} {G sf : ℕ → ℕ → ℚ} (hp : r.HasPoints) (hG : Tree r G)
    (h : ∀ i, i < r.n0 → sf i 0 = G i 0) :
    ∀ i j, i < r.n0 → j < r.n1 → columns id r sf i j = G i j := by
  have hp0 := hp.1
  have hp1 := hp.2
  unfold columns
  have := up_inv (n := r.n1) (sf := sf)
    (P := fun m s => ∀ i j, i < r.n0 → j ≤ m → s i j = G i j)
    (f := fun sf j => up r.n0 (fun sf i => go id r sf (i - 1, j) (i, j)) (go id r sf (0, j - 1) (0, j)))
    (by intro i j hi hj; obtain rfl : j = 0 := by omega
        exact h i hi)
    (by
      intro k s hk hs
      have h2 := up_inv (n := r.n0) (sf := go id r s (0, k + 1 - 1) (0, k + 1))
        (P := fun m t => (∀ i j, i < r.n0 → j ≤ k → t i j = G i j) ∧ ∀ i, i ≤ m → t i (k + 1) = G i (k + 1))
        (f := fun sf i => go id r sf (i - 1, k + 1) (i, k + 1))
        (by
          refine ⟨fun i j hi hj => ?_, fun i hi => ?_⟩
          · rw [go_at]
            dsimp only
            rw [if_neg (by omega)]
            exact hs i j hi hj
          · obtain rfl : i = 0 := by omega
            rw [go_at]
            dsimp only
            rw [if_pos ⟨rfl, rfl⟩]
            have e := hG.2 k hk
            simp only [Nat.add_sub_cancel]
            rw [hs 0 k hp0 le_rfl]; linarith)
        (by
          intro m t hm ht
          refine ⟨fun i j hi hj => ?_, fun i hi => ?_⟩
          · rw [go_at]
            dsimp only
            rw [if_neg (by omega)]
            exact ht.1 i j hi hj
          · rw [go_at]
            dsimp only
            by_cases e : i = m + 1
            · subst e
              rw [if_pos ⟨rfl, rfl⟩]
              have e := hG.1 m (k + 1) hm hk
              simp only [Nat.add_sub_cancel]
              rw [ht.2 m le_rfl]; linarith
            · rw [if_neg (by omega)]
              exact ht.2 i (by omega))
      intro i j hi hj
      by_cases e : j = k + 1
      · subst e; exact h2.2 i (by omega)
      · exact h2.1 i j hi (by omega))
  intro i j hi hj
  exact this i j hi (by omega)

lemma fromMM_tree {r : Reg} {G : ℕ → ℕ → ℚ} (hp : r.HasPoints) (hG : Tree r G) :
    ∀ i j, i < r.n0 → j < r.n1 → fromMM id r (G 0 0) i j = G i j := by
  apply columns_tree hp hG
  have hp0 := hp.1
  have := up_inv (n := r.n0) (sf := put (fun _ _ => 1) 0 0 (id (G 0 0)))
    (P := fun m s => ∀ i, i ≤ m → s i 0 = G i 0)
    (f := fun sf i => go id r sf (i - 1, 0) (i, 0))
    (by intro i hi; obtain rfl : i = 0 := by omega
        simp [put])
    (by
      intro k s hk hs i hi
      rw [go_at]
      dsimp only
      by_cases e : i = k + 1
      · subst e
        rw [if_pos ⟨rfl, rfl⟩]
        have e := hG.1 k 0 hk hp.2
        simp only [Nat.add_sub_cancel]
        rw [hs k le_rfl]; linarith
      · rw [if_neg (by omega)]
        exact hs i (by omega))
  intro i hi
  exact this i (by omega)

lemma fromPM_tree {r : Reg} {G : ℕ → ℕ → ℚ} (hp : r.HasPoints) (hG : Tree r G) :
    ∀ i j, i < r.n0 → j < r.n1 → fromPM id r (G (r.n0 - 1) 0) i j = G i j := by
  apply columns_tree hp hG
  have hp0 := hp.1
  have := down_inv (n := r.n0) (sf := put (fun _ _ => 1) (r.n0 - 1) 0 (id (G (r.n0 - 1) 0)))
    (P := fun m s => ∀ i, m ≤ i → i < r.n0 → s i 0 = G i 0)
    (f := fun sf i => go id r sf (i, 0) (i - 1, 0))
    (by intro i hi hi'; obtain rfl : i = r.n0 - 1 := by omega
        simp [put])
    (by
      intro k s hk hs i hi hi'
      rw [go_at]
      dsimp only
      by_cases e : i = k
      · subst e
        rw [if_pos ⟨by omega, rfl⟩]
        have e := hG.1 i 0 hk hp.2
        simp only [Nat.add_sub_cancel]
        rw [hs (i + 1) le_rfl hk, flow_neg]; linarith
      · rw [if_neg (by omega)]
        exact hs i (by omega) hi')
  intro i hi
  exact this i (by omega) hi

lemma fromMP_tree {r : Reg} {G : ℕ → ℕ → ℚ} (hp : r.HasPoints) (hG : Tree r G) :
    ∀ i j, i < r.n0 → j < r.n1 → fromMP id r (G 0 (r.n1 - 1)) i j = G i j := by
  have hp1 := hp.2
  have := down_inv (n := r.n1) (sf := put (fun _ _ => 1) 0 (r.n1 - 1) (id (G 0 (r.n1 - 1))))
    (P := fun m s => s 0 m = G 0 m)
    (f := fun sf j => go id r sf (0, j) (0, j - 1))
    (by simp [put])
    (by
      intro k s hk hs
      rw [go_at]
      dsimp only
      rw [if_pos ⟨rfl, by omega⟩]
      have e := hG.2 k hk
      simp only [Nat.add_sub_cancel]
      rw [hs, flow_neg]; linarith)
  unfold fromMP
  rw [this]
  exact fromMM_tree hp hG

lemma fromPP_tree {r : Reg} {G : ℕ → ℕ → ℚ} (hp : r.HasPoints) (hG : Tree r G) :
    ∀ i j, i < r.n0 → j < r.n1 → fromPP id r (G (r.n0 - 1) (r.n1 - 1)) i j = G i j := by
  have hp1 := hp.2
  have := down_inv (n := r.n0)
    (sf := put (fun _ _ => 1) (r.n0 - 1) (r.n1 - 1) (id (G (r.n0 - 1) (r.n1 - 1))))
    (P := fun m s => s m (r.n1 - 1) = G m (r.n1 - 1))
    (f := fun sf i => go id r sf (i, r.n1 - 1) (i - 1, r.n1 - 1))
    (by simp [put])
    (by
      intro k s hk hs
      rw [go_at]
      dsimp only
      rw [if_pos ⟨by omega, rfl⟩]
      have e := hG.1 k (r.n1 - 1) hk (by omega)
      simp only [Nat.add_sub_cancel]
      rw [hs, flow_neg]; linarith)
  unfold fromPP
  rw [this]
  exact fromMP_tree hp hG

lemma compute_tree {r : Reg} {G : ℕ → ℕ → ℚ} (hp : r.HasPoints) (hG : Tree r G) (c : Corner) {s : ℚ}
    (hs : s = G (r.index c).1 (r.index c).2) :
    ∀ i j, i < r.n0 → j < r.n1 → compute id r c s i j = G i j := by
  subst hs
  cases c
  · exact fromMM_tree hp hG
  · exact fromPM_tree hp hG
  · exact fromMP_tree hp hG
  · exact fromPP_tree hp hG

/-- The flow through the edges of the way that goes along the first row and then along a column. -/
def Reg.way (r : Reg) (i j : ℕ) : ℚ :=
  (∑ k ∈ Finset.range j, r.flow (0, k) (0, k + 1)) + ∑ k ∈ Finset.range i, r.flow (k, j) (k + 1, j)

lemma way_tree (r : Reg) (C : ℚ) : Tree r fun i j => r.way i j + C := by
  refine ⟨fun i j _ _ => ?_, fun j _ => ?_⟩
  · simp only [Reg.way, Finset.sum_range_succ]; ring
  · simp only [Reg.way, Finset.sum_range_succ, Finset.range_zero, Finset.sum_empty]; ring

lemma index_lt {r : Reg} (hp : r.HasPoints) (c : Corner) : (r.index c).1 < r.n0 ∧ (r.index c).2 < r.n1 := by
  have := hp.1
  have := hp.2
  cases c <;> simp only [Reg.index] <;> omega

/-- From any corner, the computed function is the flow along the way over the first row and the column, up to the constant
that gives the corner its value. In particular the corner has the given value. -/
theorem compute_way {r : Reg} (hp : r.HasPoints) (c : Corner) (s : ℚ) :
    (∀ i j, i < r.n0 → j < r.n1 →
      compute id r c s i j = r.way i j - r.way (r.index c).1 (r.index c).2 + s) ∧
    compute id r c s (r.index c).1 (r.index c).2 = s := by
  have h := compute_tree hp (way_tree r (s - r.way (r.index c).1 (r.index c).2)) c (s := s) (by ring)
  refine ⟨fun i j hi hj => ?_, ?_⟩
  · rw [h i j hi hj]; ring
  · rw [h _ _ (index_lt hp c).1 (index_lt hp c).2]; ring

/-- If the values belong to `ψ` then the computed function is `ψ` up to a constant, from any corner. -/
theorem compute_potential {r : Reg} (hp : r.HasPoints) {ψ : ℚ → ℚ → ℚ} (h : r.Carries ψ) (c : Corner) (s : ℚ) :
    ∀ i j, i < r.n0 → j < r.n1 →
      compute id r c s i j = ψ (r.x i j) (r.y i j) + (s - r.atCorner ψ c) := by
  apply compute_tree hp (G := fun i j => ψ (r.x i j) (r.y i j) + (s - r.atCorner ψ c))
  · refine ⟨fun i j hi hj => ?_, fun j hj => ?_⟩
    · rw [← h.1 i j hi hj]; ring
    · rw [← h.2 0 j hp.1 hj]; ring
  · simp only [Reg.atCorner]; ring

/-- The values are the velocity of a stream function of degree two. -/
def Reg.Quadratic (r : Reg) (a b c d e : ℚ) : Prop :=
  ∀ i j, i < r.n0 → j < r.n1 →
    r.u i j = b * r.x i j + 2 * c * r.y i j + e ∧ r.v i j = - (2 * a * r.x i j + b * r.y i j + d)

/-- For a velocity that is linear in the coordinates and comes from a stream function, the stream function is found
without error, whatever the points are. -/
theorem quadratic_carries {r : Reg} {a b c d e : ℚ} (h : r.Quadratic a b c d e) (f : ℚ) :
    r.Carries fun x y => a * x ^ 2 + b * x * y + c * y ^ 2 + d * x + e * y + f := by
  refine ⟨fun i j hi hj => ?_, fun i j hi hj => ?_⟩
  · obtain ⟨h1, h2⟩ := h i j (by omega) hj
    obtain ⟨h3, h4⟩ := h (i + 1) j hi hj
    simp only [Reg.flow, h1, h2, h3, h4]; ring
  · obtain ⟨h1, h2⟩ := h i j hi (by omega)
    obtain ⟨h3, h4⟩ := h i (j + 1) hi hj
    simp only [Reg.flow, h1, h2, h3, h4]; ring

end Phyem.Dds
