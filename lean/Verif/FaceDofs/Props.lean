import Verif.FaceDofs.Model
import Mathlib.Tactic.Linarith
import Mathlib.Tactic.Ring
import Mathlib.Data.List.Pairwise

/-! Which dofs are on the faces. -/

namespace Phyem.FaceDofs

/-- Number `n` of an array with `nx`, `ny` and `nz` entries along the axes has the place `n % nx` along x, `n / nx % ny` along y and `n / (nx * ny)` along z.
It is on face `f` if this is the first or the last one. The faces are x-, x+, y-, y+, z- and z+. -/
def OnFace (nx ny nz f n : ℕ) : Prop :=
  (f = 0 ∧ n % nx = 0) ∨ (f = 1 ∧ n % nx + 1 = nx) ∨ (f = 2 ∧ n / nx % ny = 0) ∨ (f = 3 ∧ n / nx % ny + 1 = ny) ∨
    (f = 4 ∧ n / (nx * ny) = 0) ∨ (f = 5 ∧ n / (nx * ny) + 1 = nz)

lemma plane_lt {nx ny i j : ℕ} (hi : i < nx) (hj : j < ny) : i + nx * j < nx * ny := by
  calc i + nx * j < nx + nx * j := by omega
    _ = nx * (j + 1) := by ring
    _ ≤ nx * ny := Nat.mul_le_mul_left _ hj

lemma idx_lt {nx ny nz i j k : ℕ} (hi : i < nx) (hj : j < ny) (hk : k < nz) : i + nx * j + nx * ny * k < nx * ny * nz := by
  have := plane_lt hi hj
  calc i + nx * j + nx * ny * k < nx * ny + nx * ny * k := by omega
    _ = nx * ny * (k + 1) := by ring
    _ ≤ nx * ny * nz := Nat.mul_le_mul_left _ hk

lemma idx_x {nx ny i j k : ℕ} (hi : i < nx) : (i + nx * j + nx * ny * k) % nx = i := by
  rw [show i + nx * j + nx * ny * k = i + nx * (j + ny * k) by ring, Nat.add_mul_mod_self_left, Nat.mod_eq_of_lt hi]

lemma idx_y {nx ny i j k : ℕ} (hi : i < nx) (hj : j < ny) : (i + nx * j + nx * ny * k) / nx % ny = j := by
  rw [show i + nx * j + nx * ny * k = i + nx * (j + ny * k) by ring, Nat.add_mul_div_left _ _ (by omega), Nat.div_eq_of_lt hi, Nat.zero_add,
    Nat.add_mul_mod_self_left, Nat.mod_eq_of_lt hj]

lemma idx_z {nx ny i j k : ℕ} (hi : i < nx) (hj : j < ny) : (i + nx * j + nx * ny * k) / (nx * ny) = k := by
  have := plane_lt hi hj
  rw [Nat.add_mul_div_left _ _ (by omega), Nat.div_eq_of_lt this, Nat.zero_add]

lemma idx_of (nx ny n : ℕ) : n % nx + nx * (n / nx % ny) + nx * ny * (n / (nx * ny)) = n := by
  rw [← Nat.div_div_eq_div_mul, Nat.mul_assoc, Nat.add_assoc, ← Nat.mul_add, Nat.mod_add_div, Nat.mod_add_div]

lemma at_grid (a : ℕ) {nx ny nz i j k : ℕ} (hi : i < nx) (hj : j < ny) (hk : k < nz) :
    (grid a nx ny nz).at i j k = ((a + (i + nx * j + nx * ny * k) : ℕ) : ℤ) := by
  have := idx_lt hi hj hk
  simp only [grid, Arr.at, List.getD_eq_getElem?_getD, List.getElem?_map, List.getElem?_range this, Option.map_some, Option.getD_some]

/-- The two loops of a slice. -/
lemma two_loops (g : ℕ → ℕ → ℤ) (m n : ℕ) (h1 : ∀ b a a', a < a' → a' < m → b < n → g a b < g a' b)
    (h2 : ∀ b b' a a', b < b' → b' < n → a < m → a' < m → g a b < g a' b') :
    ((List.range n).flatMap fun b => (List.range m).map fun a => g a b).Pairwise (· < ·) := by
  rw [List.pairwise_flatMap]
  refine ⟨fun b hb => ?_, ?_⟩
  · rw [List.pairwise_map]
    refine List.Pairwise.imp_of_mem ?_ List.pairwise_lt_range
    intro a a' _ ha' h
    exact h1 b a a' h (List.mem_range.1 ha') (List.mem_range.1 hb)
  · refine List.Pairwise.imp_of_mem ?_ List.pairwise_lt_range
    intro b b' _ hb' h x hx y hy
    obtain ⟨a, ha, rfl⟩ := List.mem_map.1 hx
    obtain ⟨a', ha', rfl⟩ := List.mem_map.1 hy
    exact h2 b b' a a' h (List.mem_range.1 hb') (List.mem_range.1 ha) (List.mem_range.1 ha')

lemma step_le {c k k' x : ℕ} (hx : x < c) (h : k < k') : x + c * k < c * k' := by
  calc x + c * k < c + c * k := by omega
    _ = c * (k + 1) := by ring
    _ ≤ c * k' := Nat.mul_le_mul_left _ h

/-- The slices of a numbering along x: they are increasing, and hold the numbers with this place. -/
lemma cutX_spec (a nx ny nz i : ℕ) (hi : i < nx) :
    (cutX (grid a nx ny nz) i).Pairwise (· < ·) ∧
      ∀ z, z ∈ cutX (grid a nx ny nz) i ↔ ∃ n < nx * ny * nz, z = ((a + n : ℕ) : ℤ) ∧ n % nx = i := by
  constructor
  · unfold cutX
    refine two_loops (fun j k => (grid a nx ny nz).at i j k) ny nz ?_ ?_
    · intro k j j' h hj' hk
      simp only [at_grid a hi hj' hk, at_grid a hi (h.trans hj') hk]
      have := step_le (c := nx) (x := 0) (by omega) h
      omega
    · intro k k' j j' h hk' hj hj'
      simp only [at_grid a hi hj (h.trans hk'), at_grid a hi hj' hk']
      have := step_le (plane_lt hi hj) h
      omega
  · intro z
    simp only [cutX, List.mem_flatMap, List.mem_map, List.mem_range]
    constructor
    · rintro ⟨k, hk, j, hj, rfl⟩
      exact ⟨_, idx_lt hi hj hk, at_grid a hi hj hk, idx_x hi⟩
    · rintro ⟨n, hn, rfl, h⟩
      have hny : 0 < ny := by rcases Nat.eq_zero_or_pos ny with e | e; · simp [e] at hn
                              · exact e
      have hk : n / (nx * ny) < nz := Nat.div_lt_of_lt_mul hn
      refine ⟨n / (nx * ny), hk, n / nx % ny, Nat.mod_lt _ hny, ?_⟩
      rw [at_grid a hi (Nat.mod_lt _ hny) hk, ← h, idx_of]

lemma cutY_spec (a nx ny nz j : ℕ) (hj : j < ny) :
    (cutY (grid a nx ny nz) j).Pairwise (· < ·) ∧
      ∀ z, z ∈ cutY (grid a nx ny nz) j ↔ ∃ n < nx * ny * nz, z = ((a + n : ℕ) : ℤ) ∧ n / nx % ny = j := by
  constructor
  · unfold cutY
    refine two_loops (fun i k => (grid a nx ny nz).at i j k) nx nz ?_ ?_
    · intro k i i' h hi' hk
      simp only [at_grid a hi' hj hk, at_grid a (h.trans hi') hj hk]
      omega
    · intro k k' i i' h hk' hi hi'
      simp only [at_grid a hi hj (h.trans hk'), at_grid a hi' hj hk']
      have := step_le (plane_lt hi hj) h
      omega
  · intro z
    simp only [cutY, List.mem_flatMap, List.mem_map, List.mem_range]
    constructor
    · rintro ⟨k, hk, i, hi, rfl⟩
      exact ⟨_, idx_lt hi hj hk, at_grid a hi hj hk, idx_y hi hj⟩
    · rintro ⟨n, hn, rfl, h⟩
      have hnx : 0 < nx := by rcases Nat.eq_zero_or_pos nx with e | e; · simp [e] at hn
                              · exact e
      have hk : n / (nx * ny) < nz := Nat.div_lt_of_lt_mul hn
      refine ⟨n / (nx * ny), hk, n % nx, Nat.mod_lt _ hnx, ?_⟩
      rw [at_grid a (Nat.mod_lt _ hnx) hj hk, ← h, idx_of]

lemma cutZ_spec (a nx ny nz k : ℕ) (hk : k < nz) :
    (cutZ (grid a nx ny nz) k).Pairwise (· < ·) ∧
      ∀ z, z ∈ cutZ (grid a nx ny nz) k ↔ ∃ n < nx * ny * nz, z = ((a + n : ℕ) : ℤ) ∧ n / (nx * ny) = k := by
  constructor
  · unfold cutZ
    refine two_loops (fun i j => (grid a nx ny nz).at i j k) nx ny ?_ ?_
    · intro j i i' h hi' hj
      simp only [at_grid a hi' hj hk, at_grid a (h.trans hi') hj hk]
      omega
    · intro j j' i i' h hj' hi hi'
      simp only [at_grid a hi (h.trans hj') hk, at_grid a hi' hj' hk]
      have := step_le hi h
      omega
  · intro z
    simp only [cutZ, List.mem_flatMap, List.mem_map, List.mem_range]
    constructor
    · rintro ⟨j, hj, i, hi, rfl⟩
      exact ⟨_, idx_lt hi hj hk, at_grid a hi hj hk, idx_z hi hj⟩
    · rintro ⟨n, hn, rfl, h⟩
      have hnx : 0 < nx := by rcases Nat.eq_zero_or_pos nx with e | e; · simp [e] at hn
                              · exact e
      have hny : 0 < ny := by rcases Nat.eq_zero_or_pos ny with e | e; · simp [e] at hn
                              · exact e
      refine ⟨n / nx % ny, Nat.mod_lt _ hny, n % nx, Nat.mod_lt _ hnx, ?_⟩
      rw [at_grid a (Nat.mod_lt _ hnx) (Nat.mod_lt _ hny) hk, ← h, idx_of]

/-- A list holds, in increasing order, the numbers on a face of an array that is numbered from `a` on. -/
def Holds (l : List ℤ) (a nx ny nz f : ℕ) : Prop :=
  l.Pairwise (· < ·) ∧ ∀ z, z ∈ l ↔ ∃ n < nx * ny * nz, z = ((a + n : ℕ) : ℤ) ∧ OnFace nx ny nz f n

lemma edge_spec (a nx ny nz f : ℕ) (hx : 0 < nx) (hy : 0 < ny) (hz : 0 < nz) (hf : f < 6) :
    ∃ l, edge (grid a nx ny nz) f = some l ∧ Holds l a nx ny nz f := by
  have key : ∀ (P Q : ℕ → Prop) (l : List ℤ), (∀ n, P n ↔ Q n) →
      (∀ z, z ∈ l ↔ ∃ n < nx * ny * nz, z = ((a + n : ℕ) : ℤ) ∧ P n) → ∀ z, z ∈ l ↔ ∃ n < nx * ny * nz, z = ((a + n : ℕ) : ℤ) ∧ Q n := by
    intro P Q l h hl z
    rw [hl]
    exact exists_congr fun n => and_congr_right fun _ => and_congr_right fun _ => h n
  match f, hf with
  | 0, _ =>
    obtain ⟨h1, h2⟩ := cutX_spec a nx ny nz 0 hx
    exact ⟨_, rfl, h1, key _ _ _ (fun n => by simp [OnFace]) h2⟩
  | 1, _ =>
    obtain ⟨h1, h2⟩ := cutX_spec a nx ny nz (nx - 1) (by omega)
    refine ⟨_, rfl, h1, key _ _ _ (fun n => ?_) h2⟩
    simp only [OnFace, one_ne_zero, false_and, false_or, true_and, OfNat.one_ne_ofNat, or_false]
    generalize n % nx = q
    omega
  | 2, _ =>
    obtain ⟨h1, h2⟩ := cutY_spec a nx ny nz 0 hy
    exact ⟨_, rfl, h1, key _ _ _ (fun n => by simp [OnFace]) h2⟩
  | 3, _ =>
    obtain ⟨h1, h2⟩ := cutY_spec a nx ny nz (ny - 1) (by omega)
    refine ⟨_, rfl, h1, key _ _ _ (fun n => ?_) h2⟩
    simp only [OnFace, OfNat.ofNat_ne_zero, false_and, false_or, true_and, Nat.reduceEqDiff, or_false]
    generalize n / nx % ny = q
    omega
  | 4, _ =>
    obtain ⟨h1, h2⟩ := cutZ_spec a nx ny nz 0 hz
    exact ⟨_, rfl, h1, key _ _ _ (fun n => by simp [OnFace]) h2⟩
  | 5, _ =>
    obtain ⟨h1, h2⟩ := cutZ_spec a nx ny nz (nz - 1) (by omega)
    refine ⟨_, rfl, h1, key _ _ _ (fun n => ?_) h2⟩
    simp only [OnFace, OfNat.ofNat_ne_zero, false_and, false_or, true_and, Nat.reduceEqDiff]
    generalize n / (nx * ny) = q
    omega

lemma edge_none (A : Arr) (f : ℕ) (hf : ¬ f < 6) : edge A f = none := by
  unfold edge
  split <;> first | omega | rfl

/-- C188: on each face of a hexahedron are, in increasing order, exactly the nodes that have the first or the last place along the axis of the face; there
are six faces. -/
theorem nodes_on_face (px py pz f : ℕ) :
    (f < 6 → ∃ l, nodesOn px py pz f = some l ∧ Holds l 0 (px + 1) (py + 1) (pz + 1) f) ∧ (¬ f < 6 → nodesOn px py pz f = none) :=
  ⟨edge_spec 0 _ _ _ f (by omega) (by omega) (by omega), edge_none _ f⟩

/-- C188: on each face are exactly the edges along its two axes that are in it; first those of the one axis in increasing order, then those of the
other one: y and z on the faces x- and x+, z and x on y- and y+, x and y on z- and z+. The edges along x are numbered first, then those along y and z. -/
theorem edges_on_face (px py pz f : ℕ) (hx : 0 < px) (hy : 0 < py) (hz : 0 < pz) :
    ((f = 0 ∨ f = 1) → ∃ l r, edgesOn px py pz f = some (l ++ r) ∧ Holds l (px * (py + 1) * (pz + 1)) (px + 1) py (pz + 1) f ∧
      Holds r (px * (py + 1) * (pz + 1) + (px + 1) * py * (pz + 1)) (px + 1) (py + 1) pz f) ∧
    ((f = 2 ∨ f = 3) → ∃ l r, edgesOn px py pz f = some (l ++ r) ∧
      Holds l (px * (py + 1) * (pz + 1) + (px + 1) * py * (pz + 1)) (px + 1) (py + 1) pz f ∧ Holds r 0 px (py + 1) (pz + 1) f) ∧
    ((f = 4 ∨ f = 5) → ∃ l r, edgesOn px py pz f = some (l ++ r) ∧ Holds l 0 px (py + 1) (pz + 1) f ∧
      Holds r (px * (py + 1) * (pz + 1)) (px + 1) py (pz + 1) f) ∧
    (¬ f < 6 → edgesOn px py pz f = none) := by
  refine ⟨fun h => ?_, fun h => ?_, fun h => ?_, fun h => ?_⟩
  · obtain ⟨l, hl, h1⟩ := edge_spec (px * (py + 1) * (pz + 1)) (px + 1) py (pz + 1) f (by omega) hy (by omega) (by omega)
    obtain ⟨r, hr, h2⟩ := edge_spec (px * (py + 1) * (pz + 1) + (px + 1) * py * (pz + 1)) (px + 1) (py + 1) pz f (by omega) (by omega) hz (by omega)
    exact ⟨l, r, by simp only [edgesOn, lnDy, lnDz]; rw [if_pos h, hl, hr]; rfl, h1, h2⟩
  · obtain ⟨l, hl, h1⟩ := edge_spec (px * (py + 1) * (pz + 1) + (px + 1) * py * (pz + 1)) (px + 1) (py + 1) pz f (by omega) (by omega) hz (by omega)
    obtain ⟨r, hr, h2⟩ := edge_spec 0 px (py + 1) (pz + 1) f hx (by omega) (by omega) (by omega)
    exact ⟨l, r, by simp only [edgesOn, lnDz, lnDx]; rw [if_neg (by omega), if_pos h, hl, hr]; rfl, h1, h2⟩
  · obtain ⟨l, hl, h1⟩ := edge_spec 0 px (py + 1) (pz + 1) f hx (by omega) (by omega) (by omega)
    obtain ⟨r, hr, h2⟩ := edge_spec (px * (py + 1) * (pz + 1)) (px + 1) py (pz + 1) f (by omega) hy (by omega) (by omega)
    exact ⟨l, r, by simp only [edgesOn, lnDx, lnDy]; rw [if_neg (by omega), if_neg (by omega), if_pos h, hl, hr]; rfl, h1, h2⟩
  · simp only [edgesOn]
    rw [if_neg (by omega), if_neg (by omega), if_neg (by omega)]

/-- C188: on each face are exactly the faces of cells that are in it, in increasing order; those across x are numbered first, then those across y and z. -/
theorem faces_on_face (px py pz f : ℕ) (hx : 0 < px) (hy : 0 < py) (hz : 0 < pz) :
    ((f = 0 ∨ f = 1) → ∃ l, facesOn (fresh px py pz) f = some l ∧ Holds l 0 (px + 1) py pz f) ∧
    ((f = 2 ∨ f = 3) → ∃ l, facesOn (fresh px py pz) f = some l ∧ Holds l ((px + 1) * py * pz) px (py + 1) pz f) ∧
    ((f = 4 ∨ f = 5) → ∃ l, facesOn (fresh px py pz) f = some l ∧ Holds l ((px + 1) * py * pz + px * (py + 1) * pz) px py (pz + 1) f) ∧
    (¬ f < 6 → facesOn (fresh px py pz) f = none) := by
  refine ⟨fun h => ?_, fun h => ?_, fun h => ?_, fun h => ?_⟩
  · simp only [facesOn, fresh]
    rw [if_pos h]
    exact edge_spec _ _ _ _ f (by omega) hy hz (by omega)
  · simp only [facesOn, fresh]
    rw [if_neg (by omega), if_pos h]
    exact edge_spec _ _ _ _ f hx (by omega) hz (by omega)
  · simp only [facesOn, fresh]
    rw [if_neg (by omega), if_neg (by omega), if_pos h]
    exact edge_spec _ _ _ _ f hx hy (by omega) (by omega)
  · simp only [facesOn]
    rw [if_neg (by omega), if_neg (by omega), if_neg (by omega)]

lemma flat_map (g g' : ℕ → ℕ → ℤ) (m n : ℕ) (d : ℤ) (h : ∀ a < m, ∀ b < n, g' a b = g a b + d) :
    ((List.range n).flatMap fun b => (List.range m).map fun a => g' a b) =
      ((List.range n).flatMap fun b => (List.range m).map fun a => g a b).map (· + d) := by
  rw [List.map_flatMap]
  apply List.flatMap_congr
  intro b hb
  rw [List.map_map]
  apply List.map_congr_left
  intro a ha
  exact h a (List.mem_range.1 ha) b (List.mem_range.1 hb)

/-- C188: opposite faces fit: what is at the same place of their lists is at the same place along the other two axes. -/
theorem opposite_fit (a nx ny nz : ℕ) (hx : 0 < nx) (hy : 0 < ny) (hz : 0 < nz) :
    (∃ l, edge (grid a nx ny nz) 0 = some l ∧ edge (grid a nx ny nz) 1 = some (l.map (· + ((nx - 1 : ℕ) : ℤ)))) ∧
    (∃ l, edge (grid a nx ny nz) 2 = some l ∧ edge (grid a nx ny nz) 3 = some (l.map (· + ((nx * (ny - 1) : ℕ) : ℤ)))) ∧
    (∃ l, edge (grid a nx ny nz) 4 = some l ∧ edge (grid a nx ny nz) 5 = some (l.map (· + ((nx * ny * (nz - 1) : ℕ) : ℤ)))) := by
  refine ⟨⟨_, rfl, congrArg some ?_⟩, ⟨_, rfl, congrArg some ?_⟩, ⟨_, rfl, congrArg some ?_⟩⟩
  · refine flat_map (fun j k => (grid a nx ny nz).at 0 j k) (fun j k => (grid a nx ny nz).at (nx - 1) j k) ny nz _ ?_
    intro j hj k hk
    simp only [at_grid a hx hj hk, at_grid a (show nx - 1 < nx by omega) hj hk]
    push_cast; ring
  · refine flat_map (fun i k => (grid a nx ny nz).at i 0 k) (fun i k => (grid a nx ny nz).at i (ny - 1) k) nx nz _ ?_
    intro i hi k hk
    simp only [at_grid a hi hy hk, at_grid a hi (show ny - 1 < ny by omega) hk]
    push_cast; ring
  · refine flat_map (fun i j => (grid a nx ny nz).at i j 0) (fun i j => (grid a nx ny nz).at i j (nz - 1)) nx ny _ ?_
    intro i hi j hj
    simp only [at_grid a hi hj hz, at_grid a hi hj (show nz - 1 < nz by omega)]
    push_cast; ring

end Phyem.FaceDofs
