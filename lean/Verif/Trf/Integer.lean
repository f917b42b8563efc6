import Verif.Trf.Uniform

/-! Integers as the argument `trf`. -/

namespace Phyem.Trf

variable {B : Base} {L : List Elem}

/-! Counting. -/

/-- All lists of halves of a length. -/
def paths : ℕ → List (List Half)
  | 0 => [[]]
  | n + 1 => (paths n).map (.zero :: ·) ++ (paths n).map (.two :: ·)

lemma paths_length (n : ℕ) : (paths n).length = 2 ^ n := by
  induction n with
  | zero => rfl
  | succ n ih => simp only [paths, List.length_append, List.length_map, ih]; ring

lemma mem_paths {n : ℕ} {p : List Half} : p ∈ paths n ↔ p.length = n := by
  induction n generalizing p with
  | zero => simp [paths]
  | succ n ih =>
    simp only [paths, List.mem_append, List.mem_map]
    constructor
    · rintro (⟨q, hq, rfl⟩ | ⟨q, hq, rfl⟩) <;> simp [ih.mp hq]
    · intro h
      rcases p with _ | ⟨k, p⟩
      · simp at h
      · simp only [List.length_cons, Nat.add_right_cancel_iff] at h
        cases k
        · exact Or.inl ⟨p, ih.mpr h, rfl⟩
        · exact Or.inr ⟨p, ih.mpr h, rfl⟩

lemma paths_nodup (n : ℕ) : (paths n).Nodup := by
  induction n with
  | zero => simp [paths]
  | succ n ih =>
    simp only [paths]
    rw [List.nodup_append]
    refine ⟨ih.map (fun a b h => by simpa using h), ih.map (fun a b h => by simpa using h), ?_⟩
    intro a ha b hb e
    rw [List.mem_map] at ha hb
    obtain ⟨p, _, rfl⟩ := ha
    obtain ⟨q, _, rfl⟩ := hb
    simp at e

/-- All triangles of one level of a cell. -/
def allTris (n c : ℕ) : List Elem :=
  [Dir.N, .W, .E, .S].flatMap fun d => (paths n).map fun p => .tri ⟨c, d, p⟩

lemma uniform_length (hk : (B.map Prod.fst).Nodup) {n : ℕ} (hL : L.Nodup) (h : Uniform B n L) :
    L.length = 4 * 2 ^ n * B.length := by
  have hperm : L.Perm ((B.map Prod.fst).flatMap (allTris n)) := by
    rw [List.perm_ext_iff_of_nodup hL]
    · intro e
      rw [h e, List.mem_flatMap]
      constructor
      · rintro ⟨⟨c, d, p⟩, rfl, hc, hl⟩
        refine ⟨c, hc, ?_⟩
        rw [allTris, List.mem_flatMap]
        exact ⟨d, by cases d <;> simp, List.mem_map.mpr ⟨p, mem_paths.mpr hl, rfl⟩⟩
      · rintro ⟨c, hc, he⟩
        rw [allTris, List.mem_flatMap] at he
        obtain ⟨d, _, he⟩ := he
        obtain ⟨p, hp, rfl⟩ := List.mem_map.mp he
        exact ⟨_, rfl, hc, mem_paths.mp hp⟩
    · rw [List.nodup_flatMap]
      refine ⟨fun c _ => ?_, ?_⟩
      · rw [allTris, List.nodup_flatMap]
        refine ⟨fun d _ => (paths_nodup n).map (fun a b h => by simpa using h), ?_⟩
        have hd : [Dir.N, .W, .E, .S].Pairwise (· ≠ ·) := by simp
        refine hd.imp ?_
        intro d d' hne
        rw [Function.onFun, List.disjoint_left]
        intro e he he'
        obtain ⟨p, _, rfl⟩ := List.mem_map.mp he
        obtain ⟨q, _, e⟩ := List.mem_map.mp he'
        simp only [Elem.tri.injEq, Tri.mk.injEq] at e
        exact hne e.2.1.symm
      · refine List.Pairwise.imp ?_ hk
        intro c c' hne
        rw [Function.onFun, List.disjoint_left]
        intro e he he'
        rw [allTris, List.mem_flatMap] at he he'
        obtain ⟨d, _, he⟩ := he
        obtain ⟨d', _, he'⟩ := he'
        obtain ⟨p, _, rfl⟩ := List.mem_map.mp he
        obtain ⟨q, _, e⟩ := List.mem_map.mp he'
        simp only [Elem.tri.injEq, Tri.mk.injEq] at e
        exact hne e.1.symm
  rw [hperm.length_eq]
  have hlen : ∀ c, (allTris n c).length = 4 * 2 ^ n := by
    intro c
    simp only [allTris, List.flatMap_cons, List.flatMap_nil, List.length_append, List.length_map, paths_length,
      List.length_nil]
    ring
  clear hperm hk hL h
  induction B with
  | nil => simp
  | cons q B ih =>
    rw [List.map_cons, List.flatMap_cons, List.length_append, ih, hlen, List.length_cons]
    ring

/-! The first level. -/

lemma levelOne_none {w : World} {m : Method} {r : ℚ} (h : ∀ c, ∃ v, cellValue w m c = some v ∧ v < r) (B : Base) :
    levelOne w m r B = some [] := by
  induction B with
  | nil => rfl
  | cons q B ih =>
    obtain ⟨v, h1, h2⟩ := h q.1
    rw [levelOne, h1, ih]
    simp only [Option.bind_some, Option.map_some, if_neg (not_le.mpr h2)]

lemma levelOne_all {w : World} {m : Method} {r : ℚ} (h : ∀ c, ∃ v, cellValue w m c = some v ∧ r ≤ v) (B : Base) :
    levelOne w m r B = some (B.map Prod.fst) := by
  induction B with
  | nil => rfl
  | cons q B ih =>
    obtain ⟨v, h1, h2⟩ := h q.1
    rw [levelOne, h1, ih]
    simp only [Option.bind_some, Option.map_some, if_pos h2, List.map_cons]

lemma split_none (B : Base) : splitCells B [] = B.map fun q => .quad q.1 := by
  unfold splitCells
  induction B with
  | nil => rfl
  | cons q B ih =>
    rw [List.flatMap_cons, ih]
    simp

lemma ones (map : ℕ → Pt → Pt) (b : Bool) (m : Method) (c : ℕ) : cellValue ⟨map, fun _ => some 1, b⟩ m c = some 1 := by
  cases m
  · rfl
  · simp [cellValue, maxAt]

lemma uniform_cells (B : Base) : Uniform B 0 (splitCells B (B.map Prod.fst)) := by
  intro e
  rw [mem_splitCells]
  constructor
  · rintro ⟨c, hc, ⟨h, _⟩ | ⟨_, d, rfl⟩⟩
    · exact absurd hc h
    · exact ⟨_, rfl, hc, rfl⟩
  · rintro ⟨⟨c, d, p⟩, rfl, hc, hl⟩
    obtain rfl := List.length_eq_zero_iff.mp hl
    exact ⟨c, hc, Or.inr ⟨hc, d, rfl⟩⟩

/-! The theorems. -/

/-- When the refining function reaches all thresholds everywhere, all cells are refined as often as there are
thresholds: the mesh consists of all triangles of the last level. -/
theorem all_levels_partial (hp : Proper B) (hal : Aligned B) {w : World} {m : Method} (hn : w.number = true ∨ m = .middle)
    {rft : List ℚ} (hr : rft ≠ []) (h : ∀ r ∈ rft, ∀ p, ∃ v, w.rff p = some v ∧ r ≤ v) {s : State} (hs : s.cache = none) :
    ∃ L, refining B w m rft s = (some L, ⟨none⟩) ∧ L.length = 4 * 2 ^ (rft.length - 1) * B.length ∧
      ∀ e, e ∈ L ↔ ∃ c d p, e = .tri ⟨c, d, p⟩ ∧ c ∈ B.map Prod.fst ∧ p.length = rft.length - 1 := by
  obtain ⟨L, hL, hU⟩ := uniform_levels hp hal hn rft hr h
  obtain ⟨L', hL'⟩ := refining_succeeds_partial hp hal m hr
    (fun p => by
      obtain ⟨r, hr⟩ := List.exists_mem_of_ne_nil _ hr
      obtain ⟨v, hv, _⟩ := h r hr p
      rw [hv]; rfl) hn (s := s) hs
  have es : s = ⟨none⟩ := by cases s; simp only at hs; rw [hs]
  have : L' = L := by
    rw [Reached, ← es, hL'] at hL
    simpa using hL
  subst this
  refine ⟨L', hL', uniform_length hp.keys (refined_covers hp.keys hL').1 hU, fun e => ?_⟩
  rw [hU e]
  constructor
  · rintro ⟨⟨c, d, p⟩, rfl, hc, hl⟩; exact ⟨c, d, p, rfl, hc, hl⟩
  · rintro ⟨c, d, p, rfl, hc, hl⟩; exact ⟨_, rfl, hc, hl⟩

/-- `TRF` with an integer: `0` keeps the cells, `n > 0` makes `4 · 2^(n-1)` triangles of every cell, namely all of the
level `n`, and a negative integer is refused. -/
theorem integer_trf_partial (hp : Proper B) (hal : Aligned B) (map : ℕ → Pt → Pt) {s : State} (hs : s.cache = none) (n : ℕ) :
    trf B map (.int 0) s = (some (B.map fun q => .quad q.1), ⟨none⟩) ∧
    (∃ L, trf B map (.int (n + 1)) s = (some L, ⟨none⟩) ∧ L.length = 4 * 2 ^ n * B.length ∧
      ∀ e, e ∈ L ↔ ∃ c d p, e = .tri ⟨c, d, p⟩ ∧ c ∈ B.map Prod.fst ∧ p.length = n) ∧
    trf B map (.int (-(n + 1))) s = (none, s) := by
  refine ⟨?_, ?_, ?_⟩
  · simp only [trf, parseTrf, Arg.hasMethod, ↓reduceIte, refining]
    rw [levelOne_none (fun c => ⟨1, ones map _ _ c, by norm_num⟩)]
    simp only [levels, split_none]
  · have e : parseTrf (.int (n + 1)) = some ⟨fun _ => some 1, false, List.replicate (n + 1) 0, .center⟩ := by
      rw [parseTrf, if_neg (by omega), if_pos (by omega)]
      congr
    obtain ⟨L, h1, h2, h3⟩ := all_levels_partial hp hal (w := ⟨map, fun _ => some 1, false⟩) (m := .middle) (Or.inr rfl)
      (rft := List.replicate (n + 1) 0) (by simp)
      (fun r hr p => ⟨1, rfl, by rw [List.eq_of_mem_replicate hr]; norm_num⟩) hs
    refine ⟨L, ?_, ?_, ?_⟩
    · simp only [trf, e, Arg.hasMethod]
      exact h1
    · simpa using h2
    · simpa using h3
  · have e : parseTrf (.int (-(n + 1))) = none := by
      rw [parseTrf, if_neg (by omega), if_neg (by omega)]
    rw [trf, e]

lemma select_none {val : Tri → Option ℚ} {r : ℚ} {par : Tri → Option Tri} {fac : Tri → Bool} (hv : ∀ t, val t = none)
    {t : Tri} {M : List Elem} (h : (par t).isSome ∨ fac t = true) : select val r par fac (.tri t :: M) [] = none := by
  rw [select, if_neg (by simp), if_pos h, hv]

/-- A predefined mesh with an integer: `0` and `1` do what they should, but every larger integer raises. -/
theorem integer_predefined_refuted (hp : Proper B) (hal : Aligned B) (hB : B ≠ []) (map : ℕ → Pt → Pt) {s : State}
    (hs : s.cache = none) (n : ℕ) :
    config B map (.int 0) s = (some (B.map fun q => .quad q.1), ⟨none⟩) ∧
    config B map (.int 1) s = (some (splitCells B (B.map Prod.fst)), ⟨none⟩) ∧
    (config B map (.int (n + 2)) s).1 = none := by
  refine ⟨?_, ?_, ?_⟩
  · simp only [config, parseTrf, ↓reduceIte, refining]
    rw [levelOne_none (fun c => ⟨1, ones map _ _ c, by norm_num⟩)]
    simp only [levels, split_none]
  · have e : parseTrf (.int 1) = some ⟨fun _ => some 1, false, [0], .center⟩ := by
      rw [parseTrf, if_neg (by omega), if_pos (by omega)]
      rfl
    simp only [config, e, refining]
    rw [levelOne_all (fun c => ⟨1, ones map _ _ c, by norm_num⟩)]
    simp only [levels]
  · have e : parseTrf (.int (n + 2)) = some ⟨fun _ => some 1, false, 0 :: 0 :: List.replicate n 0, .center⟩ := by
      rw [parseTrf, if_neg (by omega), if_pos (by omega)]
      have : ((n : ℤ) + 2).toNat = n + 2 := by omega
      rw [this]
      rfl
    simp only [config, e, refining]
    rw [levelOne_all (fun c => ⟨1, ones map _ _ c, by norm_num⟩)]
    simp only [levels]
    have hi : Inv B (splitCells B (B.map Prod.fst)) := ⟨leaves_cells hp.keys _, closed_cells _⟩
    obtain ⟨em, hem⟩ := elementMap_some hi.leaves.cell hp.keys
    have hb := bots_of_map hp.keys hi.leaves.nodup hem
    have hbad : (levelHigh B ⟨map, fun _ => some 1, false⟩ .center 0 (splitCells B (B.map Prod.fst)) s).1 = none := by
      unfold levelHigh
      rw [hem]
      simp only [hs, Option.getD_none]
      split_ifs with hok
      · obtain ⟨q, B', rfl⟩ := List.exists_cons_of_ne_nil hB
        have hfirst : ∃ M, splitCells (q :: B') ((q :: B').map Prod.fst) = .tri ⟨q.1, .N, []⟩ :: M := by
          unfold splitCells
          rw [List.flatMap_cons, if_pos (by simp)]
          exact ⟨_, rfl⟩
        obtain ⟨M, hM⟩ := hfirst
        have hin : Elem.tri ⟨q.1, .N, []⟩ ∈ splitCells (q :: B') ((q :: B').map Prod.fst) := by rw [hM]; simp
        have hsel := select_none (val := triValue ⟨map, fun _ => some 1, false⟩ .center) (r := 0)
          (par := partner (bottoms em)) (fac := facing (boundaryMap (q :: B'))) (M := M) (fun t => rfl)
          (t := ⟨q.1, .N, []⟩) (by
            rcases uniform_mate hp hal (uniform_cells _) hin with h | ⟨t', h1, h2⟩
            · exact Or.inr ((facing_iff_bnd hp.keys _).mpr h)
            · exact Or.inl (by rw [(partner_iff hp hal hb hin).mpr ⟨h1, h2⟩]; rfl))
        rw [hM, hsel]
        rfl
      · rfl
    rcases hl : levelHigh B ⟨map, fun _ => some 1, false⟩ .center 0 (splitCells B (B.map Prod.fst)) s with ⟨o, s1⟩
    rw [hl] at hbad
    simp only at hbad
    rw [hbad]

/-- The thresholds of a dictionary: a number is one threshold, and a list is taken exactly when it increases
strictly. -/
theorem thresholds_accepted (rff : Pt → Option ℚ) (b : Bool) (m : Option Method) (l : List ℚ) (q : ℚ) :
    parseTrf (.dict rff b (.one q) m) = some ⟨rff, b, [q], m.getD .center⟩ ∧
    (l.Pairwise (· < ·) → parseTrf (.dict rff b (.many l) m) = some ⟨rff, b, l, m.getD .center⟩) ∧
    (¬ l.Pairwise (· < ·) → parseTrf (.dict rff b (.many l) m) = none) := by
  have key : increasing l = true ↔ l.Pairwise (· < ·) := by
    rw [← List.isChain_iff_pairwise]
    induction l with
    | nil => simp [increasing]
    | cons a l ih =>
      cases l with
      | nil => simp [increasing]
      | cons c l => simp only [increasing, Bool.and_eq_true, decide_eq_true_eq, ih, List.isChain_cons_cons]
  refine ⟨rfl, fun h => ?_, fun h => ?_⟩
  · simp only [parseTrf]; rw [if_pos (key.mpr h)]
  · simp only [parseTrf]; rw [if_neg (fun k => h (key.mp k))]

/-- The hypotheses are met: two cells side by side, refined three times. -/
example : ∃ L, trf twoCells (fun _ p => p) (.int 3) ⟨none⟩ = (some L, ⟨none⟩) ∧ L.length = 32 := by
  obtain ⟨L, h, hl, _⟩ := (integer_trf_partial twoCells_proper twoCells_aligned (fun _ p => p) (s := ⟨none⟩) rfl 2).2.1
  exact ⟨L, h, hl⟩

example : (config twoCells (fun _ p => p) (.int 3) ⟨none⟩).1 = none :=
  (integer_predefined_refuted twoCells_proper twoCells_aligned (by simp [twoCells]) (fun _ p => p) rfl 1).2.2

example : [(1 : ℚ), 2, 5].Pairwise (· < ·) ∧ ¬ [(1 : ℚ), 2, 2].Pairwise (· < ·) := by
  constructor <;> simp <;> norm_num

/-- The areas of the triangles in cells that are no rectangles: the hypotheses of `areas_add_up` are met. -/
example (Q : ℕ → Four) : ∃ L, refining twoCells left .center [1, 1, 2] ⟨none⟩ = (some L, ⟨none⟩) ∧
    areaIn Q 0 L = (Q 0).area := by
  obtain ⟨L, hL⟩ := refining_succeeds_partial twoCells_proper twoCells_aligned (w := left) .center
    (rft := [1, 1, 2]) (by simp) (fun p => rfl) (Or.inl rfl) (s := ⟨none⟩) rfl
  refine ⟨L, hL, areas_add_up twoCells_proper Q hL 0 (by simp [twoCells]) ?_⟩
  have : (refining twoCells left .center [1, 1, 2] ⟨none⟩).1.map (fun L => decide (Elem.quad 0 ∈ L)) = some false := by
    decide +kernel
  rw [hL] at this
  simpa using this

end Phyem.Trf
