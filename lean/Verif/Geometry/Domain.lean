import Verif.Geometry.Crazy

/-!
C75: the regions of a predefined multi-region domain fit together. Model of the region tables and region mappings of
`crazy_multi.py`, `backward_step.py` and `cylinder_channel.py` (msepy/manifold/predefined), the specification
`Conforming`, and the proofs.
-/

namespace Phyem.Geometry

open Real

/-! ### Specification -/

/-- The face `m` of the unit cube (`x-, x+, y-, y+, …`) over the point `x`: the coordinate of axis `m / 2` is replaced by 0
or 1. -/
noncomputable def face (m : ℕ) (x : List ℝ) : List ℝ := x.set (m / 2) (if m % 2 = 0 then 0 else 1)

/-- The opposite face. -/
def opp (m : ℕ) : ℕ := if m % 2 = 0 then m + 1 else m - 1

/-- The regions fit together: every region is listed once with one entry per side; if a side has a neighbour, the neighbour
has this region as its neighbour on the opposite side and the two mappings agree (`glue`) on the common side, point by
point; if it has none, the whole side satisfies `bdry`. -/
def Conforming (dim : ℕ) (table : List (ℕ × List (Option ℕ))) (f : ℕ → List ℝ → Option (List ℝ))
    (bdry : ℕ → List ℝ → Prop) (glue : ℕ → List ℝ → List ℝ → Prop) : Prop :=
  (table.map Prod.fst).Nodup ∧ ∀ n row, (n, row) ∈ table → row.length = 2 * dim ∧
    ∀ m, m < 2 * dim → ∀ x : List ℝ, x.length = dim → (∀ t ∈ x, 0 ≤ t ∧ t ≤ 1) → ∃ p,
      f n (face m x) = some p ∧ p.length = dim ∧
      match row.getD m none with
      | none => bdry m p
      | some j => (∃ rowj, (j, rowj) ∈ table ∧ rowj.getD (opp m) none = some n) ∧
          ∃ q, f j (face (opp m) x) = some q ∧ glue m p q

/-- `p` and `q` are the same point of a domain with period `hi - lo` in direction `a`. -/
def Wrapped (lo hi : ℝ) (a m : ℕ) (p q : List ℝ) : Prop :=
  p.set a 0 = q.set a 0 ∧
    if m % 2 = 0 then p.getD a 0 = lo ∧ q.getD a 0 = hi else p.getD a 0 = hi ∧ q.getD a 0 = lo

/-! ### Model: crazy_multi -/

/-- `_MesPyRegionCrazyMapping.mapping` for any number of axes (`crazy.py:210-268`). -/
noncomputable def crazyAt : List (ℝ × ℝ) → ℝ → List ℝ → Option (List ℝ)
  | [ab], k, [r] => some [crazy1 ab.1 ab.2 k r]
  | [ab, cd], k, [r, s] => some [(crazy2 ab.1 ab.2 cd.1 cd.2 k r s).1, (crazy2 ab.1 ab.2 cd.1 cd.2 k r s).2]
  | [ab, cd, ef], k, [r, s, t] =>
    some [(crazy3 ab.1 ab.2 cd.1 cd.2 ef.1 ef.2 k r s t).1, (crazy3 ab.1 ab.2 cd.1 cd.2 ef.1 ef.2 k r s t).2.1,
      (crazy3 ab.1 ab.2 cd.1 cd.2 ef.1 ef.2 k r s t).2.2]
  | _, _, _ => none

/-- The indices of region `i` along the axes: `meshgrid(..., indexing='ij')` ravelled in Fortran order
(`crazy_multi.py:358-360,366`). -/
def unravel : List ℕ → ℕ → List ℕ
  | [], _ => []
  | N :: Ns, i => i % N :: unravel Ns (i / N)

/-- The bounds of one region along one axis (`crazy_multi.py:369-373`). -/
noncomputable def regionBound (b : ℝ × ℝ) (N i : ℕ) : ℝ × ℝ :=
  (b.1 + (b.2 - b.1) / N * i, b.1 + (b.2 - b.1) / N * (i + 1))

/-- The bounds of region `i` along the axes (`crazy_multi.py:365-373`). -/
noncomputable def regionBounds : List (ℝ × ℝ) → List ℕ → List ℕ → List (ℝ × ℝ)
  | b :: bs, N :: Ns, i :: is => regionBound b N i :: regionBounds bs Ns is
  | _, _, _ => []

/-- The mapping of region `i` of the multi-crazy domain (`crazy_multi.py:312-315,364-374`). -/
noncomputable def multiMap (bounds : List (ℝ × ℝ)) (Ns : List ℕ) (k : ℝ) (i : ℕ) (x : List ℝ) : Option (List ℝ) :=
  crazyAt (regionBounds bounds Ns (unravel Ns i)) k x

/-- The neighbour on the lower side of an axis: the wrapped one, none, or the previous (the five-line pattern
`if x_m < 0: ... else: ...` of `crazy_multi.py:124-305`). `reg` is the row of `region_map_nd` along the axis. -/
def lower (per : Bool) (N n : ℕ) (reg : ℕ → ℕ) : Option ℕ :=
  if n = 0 then (if per then some (reg (N - 1)) else none) else some (reg (n - 1))

/-- The neighbour on the upper side of an axis (same lines). -/
def upper (per : Bool) (N n : ℕ) (reg : ℕ → ℕ) : Option ℕ :=
  if N ≤ n + 1 then (if per then some (reg 0) else none) else some (reg (n + 1))

/-- The region map in one dimension (`crazy_multi.py:121-158`). -/
def multi1 (per : Bool) (N : ℕ) : List (ℕ × List (Option ℕ)) :=
  (List.range N).map fun n => (n, [lower per N n fun i => i, upper per N n fun i => i])

/-- The region map in two dimensions (`crazy_multi.py:159-219`); `region_map_nd[i, j]` is `i + j * Nx` (`:118`). -/
def multi2 (per : Bool) (Nx Ny : ℕ) : List (ℕ × List (Option ℕ)) :=
  (List.range Ny).flatMap fun ny => (List.range Nx).map fun nx => (nx + ny * Nx,
    [lower per Nx nx fun i => i + ny * Nx, upper per Nx nx fun i => i + ny * Nx,
      lower per Ny ny fun j => nx + j * Nx, upper per Ny ny fun j => nx + j * Nx])

/-- The region map in three dimensions (`crazy_multi.py:220-305`). -/
def multi3 (per : Bool) (Nx Ny Nz : ℕ) : List (ℕ × List (Option ℕ)) :=
  (List.range Nz).flatMap fun nz => (List.range Ny).flatMap fun ny => (List.range Nx).map fun nx =>
    (nx + ny * Nx + nz * Nx * Ny,
      [lower per Nx nx fun i => i + ny * Nx + nz * Nx * Ny, upper per Nx nx fun i => i + ny * Nx + nz * Nx * Ny,
        lower per Ny ny fun j => nx + j * Nx + nz * Nx * Ny, upper per Ny ny fun j => nx + j * Nx + nz * Nx * Ny,
        lower per Nz nz fun k => nx + ny * Nx + k * Nx * Ny, upper per Nz nz fun k => nx + ny * Nx + k * Nx * Ny])

/-! ### Proofs: crazy_multi -/

/-- Boundary of the box: the whole side is on the bound of its axis, and the domain is not periodic. -/
def OnBox (per : Bool) (bounds : List (ℝ × ℝ)) (m : ℕ) (p : List ℝ) : Prop :=
  per = false ∧ p.getD (m / 2) 0 = if m % 2 = 0 then (bounds.getD (m / 2) (0, 0)).1 else (bounds.getD (m / 2) (0, 0)).2

/-- Same point, or, in a periodic domain, the same point up to the period. -/
def SameOrWrapped (per : Bool) (bounds : List (ℝ × ℝ)) (m : ℕ) (p q : List ℝ) : Prop :=
  p = q ∨ (per = true ∧ Wrapped (bounds.getD (m / 2) (0, 0)).1 (bounds.getD (m / 2) (0, 0)).2 (m / 2) m p q)

theorem bound_next (b : ℝ × ℝ) (N n : ℕ) : (regionBound b N n).2 = (regionBound b N (n + 1)).1 := by
  simp [regionBound]

theorem bound_first (b : ℝ × ℝ) (N : ℕ) : (regionBound b N 0).1 = b.1 := by simp [regionBound]

theorem bound_last (b : ℝ × ℝ) (N n : ℕ) (h : n + 1 = N) : (regionBound b N n).2 = b.2 := by
  subst h
  have : ((n : ℝ) + 1) ≠ 0 := by positivity
  simp only [regionBound, Nat.cast_add, Nat.cast_one]
  field_simp
  ring

/-- What `lower` returns, along one axis. -/
theorem lower_cases (per : Bool) (N n : ℕ) (reg : ℕ → ℕ) (hn : n < N) (b : ℝ × ℝ) :
    (lower per N n reg = none ∧ per = false ∧ (regionBound b N n).1 = b.1) ∨
    (∃ j, lower per N n reg = some (reg j) ∧ j < N ∧ upper per N j reg = some (reg n) ∧
      ((regionBound b N n).1 = (regionBound b N j).2 ∨
        (per = true ∧ (regionBound b N n).1 = b.1 ∧ (regionBound b N j).2 = b.2))) := by
  unfold lower
  by_cases h0 : n = 0
  · subst h0
    cases per
    · exact Or.inl ⟨rfl, rfl, bound_first b N⟩
    · refine Or.inr ⟨N - 1, by simp, by omega, ?_, Or.inr ⟨rfl, bound_first b N, bound_last b N _ (by omega)⟩⟩
      unfold upper
      rw [if_pos (by omega)]
      simp
  · rw [if_neg h0]
    refine Or.inr ⟨n - 1, rfl, by omega, ?_, Or.inl ?_⟩
    · unfold upper
      rw [if_neg (by omega)]
      congr 2
      omega
    · rw [bound_next]
      congr 2
      omega

/-- What `upper` returns, along one axis. -/
theorem upper_cases (per : Bool) (N n : ℕ) (reg : ℕ → ℕ) (hn : n < N) (b : ℝ × ℝ) :
    (upper per N n reg = none ∧ per = false ∧ (regionBound b N n).2 = b.2) ∨
    (∃ j, upper per N n reg = some (reg j) ∧ j < N ∧ lower per N j reg = some (reg n) ∧
      ((regionBound b N n).2 = (regionBound b N j).1 ∨
        (per = true ∧ (regionBound b N n).2 = b.2 ∧ (regionBound b N j).1 = b.1))) := by
  unfold upper
  by_cases h0 : N ≤ n + 1
  · rw [if_pos h0]
    cases per
    · exact Or.inl ⟨rfl, rfl, bound_last b N n (by omega)⟩
    · refine Or.inr ⟨0, by simp, by omega, ?_, Or.inr ⟨rfl, bound_last b N n (by omega), bound_first b N⟩⟩
      unfold lower
      simp only [if_true]
      congr 2
      omega
  · rw [if_neg h0]
    refine Or.inr ⟨n + 1, rfl, by omega, ?_, Or.inl (bound_next b N n)⟩
    unfold lower
    simp

theorem crazy1_sides (a b k : ℝ) : crazy1 a b k 0 = a ∧ crazy1 a b k 1 = b := by simp [crazy1]

/-- One dimension. -/
theorem crazy_multi1_conforming (per : Bool) (b : ℝ × ℝ) (N : ℕ) (k : ℝ) :
    Conforming 1 (multi1 per N) (multiMap [b] [N] k) (OnBox per [b]) (SameOrWrapped per [b]) := by
  refine ⟨?_, ?_⟩
  · simp only [multi1, List.map_map]
    simpa [Function.comp_def] using List.nodup_range
  · intro n row h
    simp only [multi1, List.mem_map, List.mem_range, Prod.mk.injEq] at h
    obtain ⟨n', hn, rfl, rfl⟩ := h
    refine ⟨rfl, fun m hm x hx _ => ?_⟩
    obtain ⟨r, rfl⟩ : ∃ r, x = [r] := by
      match x, hx with
      | [r], _ => exact ⟨r, rfl⟩
    have row_mem : ∀ j, j < N → (j, [lower per N j fun i => i, upper per N j fun i => i]) ∈ multi1 per N := by
      intro j hj
      simp only [multi1, List.mem_map, List.mem_range]
      exact ⟨j, hj, rfl⟩
    have val : ∀ j, j < N → ∀ r, multiMap [b] [N] k j [r] =
        some [crazy1 (regionBound b N j).1 (regionBound b N j).2 k r] := by
      intro j hj r
      simp only [multiMap, unravel, regionBounds, Nat.mod_eq_of_lt hj, crazyAt]
    have hm' : m = 0 ∨ m = 1 := by omega
    rcases hm' with rfl | rfl
    · refine ⟨[(regionBound b N n').1], ?_, rfl, ?_⟩
      · simp [face, val n' hn, crazy1_sides]
      · rcases lower_cases per N n' (fun i => i) hn b with ⟨h1, h2, h3⟩ | ⟨j, h1, h2, h3, h4⟩
        · simp only [List.getD_cons_zero, h1]
          exact ⟨h2, by simpa using h3⟩
        · simp only [List.getD_cons_zero, h1]
          refine ⟨⟨_, row_mem j h2, ?_⟩, [(regionBound b N j).2], ?_, ?_⟩
          · simpa [opp] using h3
          · simp [face, opp, val j h2, crazy1_sides]
          · rcases h4 with h4 | ⟨h5, h6, h7⟩
            · exact Or.inl (by rw [h4])
            · exact Or.inr ⟨h5, by simp [Wrapped, h6, h7]⟩
    · refine ⟨[(regionBound b N n').2], ?_, rfl, ?_⟩
      · simp [face, val n' hn, crazy1_sides]
      · rcases upper_cases per N n' (fun i => i) hn b with ⟨h1, h2, h3⟩ | ⟨j, h1, h2, h3, h4⟩
        · simp only [List.getD_cons_zero, List.getD_cons_succ, h1]
          exact ⟨h2, by simpa using h3⟩
        · simp only [List.getD_cons_zero, List.getD_cons_succ, h1]
          refine ⟨⟨_, row_mem j h2, ?_⟩, [(regionBound b N j).1], ?_, ?_⟩
          · simpa [opp] using h3
          · simp [face, opp, val j h2, crazy1_sides]
          · rcases h4 with h4 | ⟨h5, h6, h7⟩
            · exact Or.inl (by rw [h4])
            · exact Or.inr ⟨h5, by simp [Wrapped, h6, h7]⟩

theorem unravel2 (Nx Ny nx ny : ℕ) (hx : nx < Nx) (hy : ny < Ny) : unravel [Nx, Ny] (nx + ny * Nx) = [nx, ny] := by
  simp only [unravel]
  rw [Nat.add_mul_mod_self_right, Nat.mod_eq_of_lt hx, Nat.add_mul_div_right _ _ (by omega), Nat.div_eq_of_lt hx]
  simp [Nat.mod_eq_of_lt hy]

theorem unravel3 (Nx Ny Nz nx ny nz : ℕ) (hx : nx < Nx) (hy : ny < Ny) (hz : nz < Nz) :
    unravel [Nx, Ny, Nz] (nx + ny * Nx + nz * Nx * Ny) = [nx, ny, nz] := by
  have e : nx + ny * Nx + nz * Nx * Ny = nx + (ny + nz * Ny) * Nx := by ring
  rw [e]
  simp only [unravel]
  rw [Nat.add_mul_mod_self_right, Nat.mod_eq_of_lt hx, Nat.add_mul_div_right _ _ (by omega), Nat.div_eq_of_lt hx,
    Nat.zero_add, Nat.add_mul_mod_self_right, Nat.mod_eq_of_lt hy, Nat.add_mul_div_right _ _ (by omega),
    Nat.div_eq_of_lt hy]
  simp [Nat.mod_eq_of_lt hz]

/-- Two dimensions. -/
theorem crazy_multi2_conforming (per : Bool) (b c : ℝ × ℝ) (Nx Ny : ℕ) (k : ℝ) :
    Conforming 2 (multi2 per Nx Ny) (multiMap [b, c] [Nx, Ny] k) (OnBox per [b, c]) (SameOrWrapped per [b, c]) := by
  have row_mem : ∀ nx ny, nx < Nx → ny < Ny → (nx + ny * Nx,
    [lower per Nx nx fun i => i + ny * Nx, upper per Nx nx fun i => i + ny * Nx,
      lower per Ny ny fun j => nx + j * Nx, upper per Ny ny fun j => nx + j * Nx]) ∈ multi2 per Nx Ny := by
    intro nx ny hx hy
    simp only [multi2, List.mem_flatMap, List.mem_map, List.mem_range]
    exact ⟨ny, hy, nx, hx, rfl⟩
  have val : ∀ nx ny, nx < Nx → ny < Ny → ∀ r s, multiMap [b, c] [Nx, Ny] k (nx + ny * Nx) [r, s] =
      crazyAt [regionBound b Nx nx, regionBound c Ny ny] k [r, s] := by
    intro nx ny hx hy r s
    simp only [multiMap, unravel2 Nx Ny nx ny hx hy, regionBounds]
  refine ⟨?_, ?_⟩
  · simp only [multi2, List.map_flatMap, List.map_map]
    rw [List.nodup_flatMap]
    refine ⟨fun ny _ => ?_, ?_⟩
    · apply List.Nodup.map _ List.nodup_range
      intro a a' h
      simpa using h
    · apply List.Pairwise.imp _ (List.nodup_range (n := Ny))
      intro y y' hne
      simp only [Function.onFun, List.disjoint_left, List.mem_map, List.mem_range, Function.comp_apply]
      rintro _ ⟨a, ha, rfl⟩ ⟨a', ha', e⟩
      apply hne
      have h1 := congrArg (· / Nx) e
      simp only [Nat.add_mul_div_right _ _ (by omega : 0 < Nx), Nat.div_eq_of_lt ha, Nat.div_eq_of_lt ha'] at h1
      omega
  · intro n row h
    simp only [multi2, List.mem_flatMap, List.mem_map, List.mem_range, Prod.mk.injEq] at h
    obtain ⟨ny, hy, nx, hx, rfl, rfl⟩ := h
    refine ⟨rfl, fun m hm x hxl _ => ?_⟩
    obtain ⟨r, s, rfl⟩ : ∃ r s, x = [r, s] := by
      match x, hxl with
      | [r, s], _ => exact ⟨r, s, rfl⟩
    have hm' : m = 0 ∨ m = 1 ∨ m = 2 ∨ m = 3 := by omega
    rcases hm' with rfl | rfl | rfl | rfl
    · refine ⟨_, (val nx ny hx hy 0 s).trans rfl, rfl, ?_⟩
      simp only [List.getD_cons_zero, crazy2_sides]
      rcases lower_cases per Nx nx (fun i => i + ny * Nx) hx b with ⟨h1, h2, h3⟩ | ⟨j, h1, h2, h3, h4⟩
      · rw [h1]; exact ⟨h2, by simpa using h3⟩
      · rw [h1]
        refine ⟨⟨_, row_mem j ny h2 hy, by simpa [opp] using h3⟩, _, (val j ny h2 hy 1 s).trans rfl, ?_⟩
        simp only [crazy2_sides]
        rcases h4 with h4 | ⟨h5, h6, h7⟩
        · exact Or.inl (by rw [h4])
        · exact Or.inr ⟨h5, by simp [Wrapped, h6, h7]⟩
    · refine ⟨_, (val nx ny hx hy 1 s).trans rfl, rfl, ?_⟩
      simp only [List.getD_cons_zero, List.getD_cons_succ, crazy2_sides]
      rcases upper_cases per Nx nx (fun i => i + ny * Nx) hx b with ⟨h1, h2, h3⟩ | ⟨j, h1, h2, h3, h4⟩
      · rw [h1]; exact ⟨h2, by simpa using h3⟩
      · rw [h1]
        refine ⟨⟨_, row_mem j ny h2 hy, by simpa [opp] using h3⟩, _, (val j ny h2 hy 0 s).trans rfl, ?_⟩
        simp only [crazy2_sides]
        rcases h4 with h4 | ⟨h5, h6, h7⟩
        · exact Or.inl (by rw [h4])
        · exact Or.inr ⟨h5, by simp [Wrapped, h6, h7]⟩
    · refine ⟨_, (val nx ny hx hy r 0).trans rfl, rfl, ?_⟩
      simp only [List.getD_cons_zero, List.getD_cons_succ, crazy2_sides]
      rcases lower_cases per Ny ny (fun j => nx + j * Nx) hy c with ⟨h1, h2, h3⟩ | ⟨j, h1, h2, h3, h4⟩
      · rw [h1]; exact ⟨h2, by simpa using h3⟩
      · rw [h1]
        refine ⟨⟨_, row_mem nx j hx h2, by simpa [opp] using h3⟩, _, (val nx j hx h2 r 1).trans rfl, ?_⟩
        simp only [crazy2_sides]
        rcases h4 with h4 | ⟨h5, h6, h7⟩
        · exact Or.inl (by rw [h4])
        · exact Or.inr ⟨h5, by simp [Wrapped, h6, h7]⟩
    · refine ⟨_, (val nx ny hx hy r 1).trans rfl, rfl, ?_⟩
      simp only [List.getD_cons_zero, List.getD_cons_succ, crazy2_sides]
      rcases upper_cases per Ny ny (fun j => nx + j * Nx) hy c with ⟨h1, h2, h3⟩ | ⟨j, h1, h2, h3, h4⟩
      · rw [h1]; exact ⟨h2, by simpa using h3⟩
      · rw [h1]
        refine ⟨⟨_, row_mem nx j hx h2, by simpa [opp] using h3⟩, _, (val nx j hx h2 r 0).trans rfl, ?_⟩
        simp only [crazy2_sides]
        rcases h4 with h4 | ⟨h5, h6, h7⟩
        · exact Or.inl (by rw [h4])
        · exact Or.inr ⟨h5, by simp [Wrapped, h6, h7]⟩

/-- Three dimensions. -/
theorem crazy_multi3_conforming (per : Bool) (b c d : ℝ × ℝ) (Nx Ny Nz : ℕ) (k : ℝ) :
    Conforming 3 (multi3 per Nx Ny Nz) (multiMap [b, c, d] [Nx, Ny, Nz] k) (OnBox per [b, c, d])
      (SameOrWrapped per [b, c, d]) := by
  have row_mem : ∀ nx ny nz, nx < Nx → ny < Ny → nz < Nz → (nx + ny * Nx + nz * Nx * Ny,
      [lower per Nx nx fun i => i + ny * Nx + nz * Nx * Ny, upper per Nx nx fun i => i + ny * Nx + nz * Nx * Ny,
        lower per Ny ny fun j => nx + j * Nx + nz * Nx * Ny, upper per Ny ny fun j => nx + j * Nx + nz * Nx * Ny,
        lower per Nz nz fun k => nx + ny * Nx + k * Nx * Ny, upper per Nz nz fun k => nx + ny * Nx + k * Nx * Ny]) ∈
      multi3 per Nx Ny Nz := by
    intro nx ny nz hx hy hz
    simp only [multi3, List.mem_flatMap, List.mem_map, List.mem_range]
    exact ⟨nz, hz, ny, hy, nx, hx, rfl⟩
  have val : ∀ nx ny nz, nx < Nx → ny < Ny → nz < Nz → ∀ r s t,
      multiMap [b, c, d] [Nx, Ny, Nz] k (nx + ny * Nx + nz * Nx * Ny) [r, s, t] =
      crazyAt [regionBound b Nx nx, regionBound c Ny ny, regionBound d Nz nz] k [r, s, t] := by
    intro nx ny nz hx hy hz r s t
    simp only [multiMap, unravel3 Nx Ny Nz nx ny nz hx hy hz, regionBounds]
  refine ⟨?_, ?_⟩
  · have inj : ∀ nx ny nz nx' ny' nz', nx < Nx → ny < Ny → nz < Nz → nx' < Nx → ny' < Ny → nz' < Nz →
        nx + ny * Nx + nz * Nx * Ny = nx' + ny' * Nx + nz' * Nx * Ny → nx = nx' ∧ ny = ny' ∧ nz = nz' := by
      intro nx ny nz nx' ny' nz' hx hy hz hx' hy' hz' e
      have := congrArg (unravel [Nx, Ny, Nz]) e
      rw [unravel3 _ _ _ _ _ _ hx hy hz, unravel3 _ _ _ _ _ _ hx' hy' hz'] at this
      simpa using this
    simp only [multi3, List.map_flatMap, List.map_map]
    rw [List.nodup_flatMap]
    refine ⟨fun nz hz => ?_, ?_⟩
    · rw [List.nodup_flatMap]
      refine ⟨fun ny _ => ?_, ?_⟩
      · apply List.Nodup.map _ List.nodup_range
        intro a a' h
        simpa using h
      · apply List.Pairwise.imp_of_mem _ (List.nodup_range (n := Ny))
        intro y y' hy hy' hne
        simp only [Function.onFun, List.disjoint_left, List.mem_map, List.mem_range, Function.comp_apply]
        rintro _ ⟨a, ha, rfl⟩ ⟨a', ha', e⟩
        exact hne (inj _ _ _ _ _ _ ha' (List.mem_range.1 hy') (List.mem_range.1 hz) ha (List.mem_range.1 hy)
          (List.mem_range.1 hz) e).2.1.symm
    · apply List.Pairwise.imp_of_mem _ (List.nodup_range (n := Nz))
      intro z z' hz hz' hne
      simp only [Function.onFun, List.disjoint_left, List.mem_flatMap, List.mem_map, List.mem_range, Function.comp_apply]
      rintro _ ⟨y, hy, a, ha, rfl⟩ ⟨y', hy', a', ha', e⟩
      exact hne (inj _ _ _ _ _ _ ha' hy' (List.mem_range.1 hz') ha hy (List.mem_range.1 hz) e).2.2.symm
  · intro n row h
    simp only [multi3, List.mem_flatMap, List.mem_map, List.mem_range, Prod.mk.injEq] at h
    obtain ⟨nz, hz, ny, hy, nx, hx, rfl, rfl⟩ := h
    refine ⟨rfl, fun m hm x hxl _ => ?_⟩
    obtain ⟨r, s, t, rfl⟩ : ∃ r s t, x = [r, s, t] := by
      match x, hxl with
      | [r, s, t], _ => exact ⟨r, s, t, rfl⟩
    have hm' : m = 0 ∨ m = 1 ∨ m = 2 ∨ m = 3 ∨ m = 4 ∨ m = 5 := by omega
    rcases hm' with rfl | rfl | rfl | rfl | rfl | rfl
    · refine ⟨_, (val nx ny nz hx hy hz 0 s t).trans rfl, rfl, ?_⟩
      simp only [List.getD_cons_zero, crazy3_sides]
      rcases lower_cases per Nx nx (fun i => i + ny * Nx + nz * Nx * Ny) hx b with ⟨h1, h2, h3⟩ | ⟨j, h1, h2, h3, h4⟩
      · rw [h1]; exact ⟨h2, by simpa using h3⟩
      · rw [h1]
        refine ⟨⟨_, row_mem j ny nz h2 hy hz, by simpa [opp] using h3⟩, _, (val j ny nz h2 hy hz 1 s t).trans rfl, ?_⟩
        simp only [crazy3_sides]
        rcases h4 with h4 | ⟨h5, h6, h7⟩
        · exact Or.inl (by rw [h4])
        · exact Or.inr ⟨h5, by simp [Wrapped, h6, h7]⟩
    · refine ⟨_, (val nx ny nz hx hy hz 1 s t).trans rfl, rfl, ?_⟩
      simp only [List.getD_cons_zero, List.getD_cons_succ, crazy3_sides]
      rcases upper_cases per Nx nx (fun i => i + ny * Nx + nz * Nx * Ny) hx b with ⟨h1, h2, h3⟩ | ⟨j, h1, h2, h3, h4⟩
      · rw [h1]; exact ⟨h2, by simpa using h3⟩
      · rw [h1]
        refine ⟨⟨_, row_mem j ny nz h2 hy hz, by simpa [opp] using h3⟩, _, (val j ny nz h2 hy hz 0 s t).trans rfl, ?_⟩
        simp only [crazy3_sides]
        rcases h4 with h4 | ⟨h5, h6, h7⟩
        · exact Or.inl (by rw [h4])
        · exact Or.inr ⟨h5, by simp [Wrapped, h6, h7]⟩
    · refine ⟨_, (val nx ny nz hx hy hz r 0 t).trans rfl, rfl, ?_⟩
      simp only [List.getD_cons_zero, List.getD_cons_succ, crazy3_sides]
      rcases lower_cases per Ny ny (fun j => nx + j * Nx + nz * Nx * Ny) hy c with ⟨h1, h2, h3⟩ | ⟨j, h1, h2, h3, h4⟩
      · rw [h1]; exact ⟨h2, by simpa using h3⟩
      · rw [h1]
        refine ⟨⟨_, row_mem nx j nz hx h2 hz, by simpa [opp] using h3⟩, _, (val nx j nz hx h2 hz r 1 t).trans rfl, ?_⟩
        simp only [crazy3_sides]
        rcases h4 with h4 | ⟨h5, h6, h7⟩
        · exact Or.inl (by rw [h4])
        · exact Or.inr ⟨h5, by simp [Wrapped, h6, h7]⟩
    · refine ⟨_, (val nx ny nz hx hy hz r 1 t).trans rfl, rfl, ?_⟩
      simp only [List.getD_cons_zero, List.getD_cons_succ, crazy3_sides]
      rcases upper_cases per Ny ny (fun j => nx + j * Nx + nz * Nx * Ny) hy c with ⟨h1, h2, h3⟩ | ⟨j, h1, h2, h3, h4⟩
      · rw [h1]; exact ⟨h2, by simpa using h3⟩
      · rw [h1]
        refine ⟨⟨_, row_mem nx j nz hx h2 hz, by simpa [opp] using h3⟩, _, (val nx j nz hx h2 hz r 0 t).trans rfl, ?_⟩
        simp only [crazy3_sides]
        rcases h4 with h4 | ⟨h5, h6, h7⟩
        · exact Or.inl (by rw [h4])
        · exact Or.inr ⟨h5, by simp [Wrapped, h6, h7]⟩
    · refine ⟨_, (val nx ny nz hx hy hz r s 0).trans rfl, rfl, ?_⟩
      simp only [List.getD_cons_zero, List.getD_cons_succ, crazy3_sides]
      rcases lower_cases per Nz nz (fun k => nx + ny * Nx + k * Nx * Ny) hz d with ⟨h1, h2, h3⟩ | ⟨j, h1, h2, h3, h4⟩
      · rw [h1]; exact ⟨h2, by simpa using h3⟩
      · rw [h1]
        refine ⟨⟨_, row_mem nx ny j hx hy h2, by simpa [opp] using h3⟩, _, (val nx ny j hx hy h2 r s 1).trans rfl, ?_⟩
        simp only [crazy3_sides]
        rcases h4 with h4 | ⟨h5, h6, h7⟩
        · exact Or.inl (by rw [h4])
        · exact Or.inr ⟨h5, by simp [Wrapped, h6, h7]⟩
    · refine ⟨_, (val nx ny nz hx hy hz r s 1).trans rfl, rfl, ?_⟩
      simp only [List.getD_cons_zero, List.getD_cons_succ, crazy3_sides]
      rcases upper_cases per Nz nz (fun k => nx + ny * Nx + k * Nx * Ny) hz d with ⟨h1, h2, h3⟩ | ⟨j, h1, h2, h3, h4⟩
      · rw [h1]; exact ⟨h2, by simpa using h3⟩
      · rw [h1]
        refine ⟨⟨_, row_mem nx ny j hx hy h2, by simpa [opp] using h3⟩, _, (val nx ny j hx hy h2 r s 0).trans rfl, ?_⟩
        simp only [crazy3_sides]
        rcases h4 with h4 | ⟨h5, h6, h7⟩
        · exact Or.inl (by rw [h4])
        · exact Or.inr ⟨h5, by simp [Wrapped, h6, h7]⟩

/-- Two by three blocks: region 1 has 0 on its left, nothing on its right, 3 above. -/
example : (1, [some 0, none, none, some 3]) ∈ multi2 false 2 3 := by decide

end Phyem.Geometry
