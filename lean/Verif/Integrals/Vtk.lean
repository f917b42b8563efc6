import Verif.Integrals.Model
import Mathlib.Tactic.Linarith
import Mathlib.Tactic.NormNum
import Mathlib.Data.List.Nodup
import Mathlib.Data.List.GetD

/-! # The file with a CFL number for each cell -/

namespace Phyem.Integrals

/-- A table of points: different keys, each the key of its point, which is in `S`. -/
structure Table (S : Set (ℚ × ℚ)) (d : Dict ((ℤ × Bool) × (ℤ × Bool)) (ℚ × ℚ)) : Prop where
  nodup : (Dict.keys d).Nodup
  key : ∀ q ∈ d, key q.2 = q.1 ∧ q.2 ∈ S

lemma mem_put {K V : Type} [DecidableEq K] (d : Dict K V) (k : K) (v : V) : ∀ q ∈ Dict.put d k v, q = (k, v) ∨ q ∈ d := by
  induction d with
  | nil => intro q hq; left; simpa [Dict.put] using hq
  | cons p d ih =>
    intro q hq
    unfold Dict.put at hq
    split_ifs at hq with h
    · rcases List.mem_cons.1 hq with hq | hq
      · left; rw [hq, h]
      · right; exact List.mem_cons_of_mem _ hq
    · rcases List.mem_cons.1 hq with hq | hq
      · right; rw [hq]; simp
      · rcases ih q hq with h | h
        · left; exact h
        · right; exact List.mem_cons_of_mem _ h

lemma Table.put {S : Set (ℚ × ℚ)} {d : Dict ((ℤ × Bool) × (ℤ × Bool)) (ℚ × ℚ)} (h : Table S d) {p : ℚ × ℚ} (hp : p ∈ S) :
    Table S (Dict.put d (Integrals.key p) p) := by
  refine ⟨Dict.nodup_put _ _ _ h.nodup, ?_⟩
  intro q hq
  rcases mem_put _ _ _ q hq with rfl | hq
  · exact ⟨rfl, hp⟩
  · exact h.key q hq

lemma fold_points {S : Set (ℚ × ℚ)} : ∀ (l : List (ℚ × ℚ)) (d : Dict ((ℤ × Bool) × (ℤ × Bool)) (ℚ × ℚ)), Table S d → (∀ p ∈ l, p ∈ S) →
    Table S (l.foldl (fun acc p => Dict.put acc (key p) p) d) ∧
      ∀ k, k ∈ Dict.keys (l.foldl (fun acc p => Dict.put acc (key p) p) d) ↔ (∃ p ∈ l, key p = k) ∨ k ∈ Dict.keys d
  | [], d, h, _ => ⟨h, fun k => by simp⟩
  | p :: l, d, h, hl => by
    obtain ⟨h1, h2⟩ := fold_points l _ (h.put (hl p (by simp))) (fun q hq => hl q (List.mem_cons_of_mem _ hq))
    refine ⟨h1, fun k => ?_⟩
    rw [List.foldl_cons, h2, Dict.mem_keys_put]
    simp only [List.mem_cons, exists_eq_or_imp]
    constructor
    · rintro (h | h | h)
      · exact Or.inl (Or.inr h)
      · exact Or.inl (Or.inl h.symm)
      · exact Or.inr h
    · rintro ((h | h) | h)
      · exact Or.inr (Or.inl h.symm)
      · exact Or.inl h
      · exact Or.inr (Or.inr h)

lemma fold_cells {S : Set (ℚ × ℚ)} : ∀ (cs : List Cell) (d : Dict ((ℤ × Bool) × (ℤ × Bool)) (ℚ × ℚ)), Table S d → (∀ c ∈ cs, ∀ p ∈ c.corners, p ∈ S) →
    Table S (cs.foldl (fun acc c => c.corners.foldl (fun acc p => Dict.put acc (key p) p) acc) d) ∧
      ∀ k, k ∈ Dict.keys (cs.foldl (fun acc c => c.corners.foldl (fun acc p => Dict.put acc (key p) p) acc) d) ↔
        (∃ c ∈ cs, ∃ p ∈ c.corners, key p = k) ∨ k ∈ Dict.keys d
  | [], d, h, _ => ⟨h, fun k => by simp⟩
  | c :: cs, d, h, hl => by
    obtain ⟨g1, g2⟩ := fold_points c.corners d h (hl c (by simp))
    obtain ⟨h1, h2⟩ := fold_cells cs _ g1 (fun q hq => hl q (List.mem_cons_of_mem _ hq))
    refine ⟨h1, fun k => ?_⟩
    rw [List.foldl_cons, h2, g2]
    simp only [List.mem_cons, exists_eq_or_imp]
    rw [← or_assoc, or_comm (a := ∃ c ∈ cs, ∃ p ∈ c.corners, key p = k)]

lemma fold_table {S : Set (ℚ × ℚ)} : ∀ (e d : Dict ((ℤ × Bool) × (ℤ × Bool)) (ℚ × ℚ)), Table S d → (∀ q ∈ e, key q.2 = q.1 ∧ q.2 ∈ S) →
    Table S (e.foldl (fun acc p => Dict.put acc p.1 p.2) d) ∧
      ∀ k, k ∈ Dict.keys (e.foldl (fun acc p => Dict.put acc p.1 p.2) d) ↔ k ∈ Dict.keys e ∨ k ∈ Dict.keys d
  | [], d, h, _ => ⟨h, fun k => by simp [Dict.keys]⟩
  | q :: e, d, h, he => by
    have hq := he q (by simp)
    obtain ⟨h1, h2⟩ := fold_table e (Dict.put d q.1 q.2) (by have := h.put hq.2; rwa [hq.1] at this) (fun r hr => he r (List.mem_cons_of_mem _ hr))
    refine ⟨h1, fun k => ?_⟩
    rw [List.foldl_cons, h2, Dict.mem_keys_put]
    simp only [Dict.keys, List.map_cons, List.mem_cons]
    tauto

/-- The table of the points of the file. -/
lemma points_spec (ranks : List (List Cell)) :
    Table {p | ∃ c ∈ ranks.flatten, p ∈ c.corners} (points ranks) ∧
      ∀ k, k ∈ Dict.keys (points ranks) ↔ ∃ c ∈ ranks.flatten, ∃ p ∈ c.corners, key p = k := by
  have main : ∀ (S : Set (ℚ × ℚ)) (ranks : List (List Cell)) (d : Dict ((ℤ × Bool) × (ℤ × Bool)) (ℚ × ℚ)), Table S d →
      (∀ c ∈ ranks.flatten, ∀ p ∈ c.corners, p ∈ S) →
      Table S ((ranks.map fun cs => cs.foldl (fun acc c => c.corners.foldl (fun acc p => Dict.put acc (key p) p) acc) []).foldl
        (fun acc d => d.foldl (fun acc p => Dict.put acc p.1 p.2) acc) d) ∧
      ∀ k, k ∈ Dict.keys ((ranks.map fun cs => cs.foldl (fun acc c => c.corners.foldl (fun acc p => Dict.put acc (key p) p) acc) []).foldl
        (fun acc d => d.foldl (fun acc p => Dict.put acc p.1 p.2) acc) d) ↔ (∃ c ∈ ranks.flatten, ∃ p ∈ c.corners, key p = k) ∨ k ∈ Dict.keys d := by
    intro S ranks
    induction ranks with
    | nil => intro d h _; exact ⟨h, fun k => by simp⟩
    | cons cs ranks ih =>
      intro d h hS
      have e0 : Table S ([] : Dict ((ℤ × Bool) × (ℤ × Bool)) (ℚ × ℚ)) := ⟨by simp [Dict.keys], by simp⟩
      obtain ⟨g1, g2⟩ := fold_cells cs [] e0 (fun c hc p hp => hS c (by simp [hc]) p hp)
      obtain ⟨k1, k2⟩ := fold_table _ d h g1.key
      obtain ⟨h1, h2⟩ := ih _ k1 (fun c hc p hp => hS c (by simp only [List.flatten_cons, List.mem_append]; exact Or.inr hc) p hp)
      refine ⟨h1, fun k => ?_⟩
      rw [List.map_cons, List.foldl_cons, h2, k2, g2]
      simp only [Dict.keys, List.map_nil, List.not_mem_nil, or_false, List.flatten_cons, List.mem_append]
      constructor
      · rintro (⟨c, hc, h⟩ | ⟨c, hc, h⟩ | h)
        · exact Or.inl ⟨c, Or.inr hc, h⟩
        · exact Or.inl ⟨c, Or.inl hc, h⟩
        · exact Or.inr h
      · rintro (⟨c, hc | hc, h⟩ | h)
        · exact Or.inr (Or.inl ⟨c, hc, h⟩)
        · exact Or.inl ⟨c, hc, h⟩
        · exact Or.inr (Or.inr h)
  obtain ⟨h1, h2⟩ := main {p | ∃ c ∈ ranks.flatten, p ∈ c.corners} ranks [] ⟨by simp [Dict.keys], by simp⟩ (fun c hc p hp => ⟨c, hc, hp⟩)
  exact ⟨h1, fun k => by rw [points, h2]; simp [Dict.keys]⟩

lemma cellsLoop_spec (num : (ℤ × Bool) × (ℤ × Bool) → ℕ) : ∀ (cs : List Cell) (o : ℕ),
    (cellsLoop num o cs).1 = cs.flatMap (fun c => c.corners.map fun p => num (key p)) ∧
    (cellsLoop num o cs).2.1 = (List.range cs.length).map (fun i => o + 4 * (i + 1)) ∧ (cellsLoop num o cs).2.2 = cs.map Cell.cfl
  | [], o => by simp [cellsLoop]
  | c :: cs, o => by
    obtain ⟨h1, h2, h3⟩ := cellsLoop_spec num cs (o + 4)
    refine ⟨by simp [cellsLoop, h1], ?_, by simp [cellsLoop, h3]⟩
    simp only [cellsLoop, h2, List.length_cons, List.range_succ_eq_map, List.map_cons, List.map_map]
    congr 1
    apply List.map_congr_left
    intro i _
    simp only [Function.comp]
    omega

/-- Coordinates with the same key differ by at most `1e-7` and have the same sign. -/
theorem key1_close {x y : ℚ} (h : key1 x = key1 y) : |x - y| ≤ 1 / 10 ^ 7 ∧ (x < 0 ↔ y < 0) := by
  simp only [key1, Prod.mk.injEq, decide_eq_decide] at h
  refine ⟨?_, h.2⟩
  have h1 := Int.floor_le (x * 10 ^ 7 + 1 / 2)
  have h2 := Int.lt_floor_add_one (x * 10 ^ 7 + 1 / 2)
  have h3 := Int.floor_le (y * 10 ^ 7 + 1 / 2)
  have h4 := Int.lt_floor_add_one (y * 10 ^ 7 + 1 / 2)
  rw [h.1] at h1 h2
  rw [abs_le]
  constructor <;> linarith

example : key1 (1 / 3) = key1 (1 / 3 + 1 / 10 ^ 9) := by decide +kernel

lemma flatMap_get {α : Type} (f : α → List ℕ) : ∀ (l : List α) (_ : ∀ c ∈ l, (f c).length = 4) (i j : ℕ) (c : α), l[i]? = some c → j < 4 →
    (l.flatMap f)[4 * i + j]? = (f c)[j]?
  | [], _, i, j, c, h, _ => by simp at h
  | a :: l, hl, 0, j, c, h, hj => by
    simp only [List.getElem?_cons_zero, Option.some.injEq] at h
    subst h
    rw [List.flatMap_cons, List.getElem?_append_left (by rw [hl a (by simp)]; omega)]
    simp
  | a :: l, hl, i + 1, j, c, h, hj => by
    have ih := flatMap_get f l (fun c hc => hl c (List.mem_cons_of_mem _ hc)) i j c (by simpa using h) hj
    rw [List.flatMap_cons, List.getElem?_append_right (by rw [hl a (by simp)]; omega), hl a (by simp), ← ih]
    congr 1
    omega

/-- The cells of the file are those of the elements, in order: the `i`-th ends at `4 (i + 1)`, its `j`-th entry is the number of a point with the same
rounded coordinates as the `j`-th corner, and the numbers are in the same order. -/
theorem vtk_cells {ranks : List (List Cell)} (h4 : ∀ c ∈ ranks.flatten, c.corners.length = 4) :
    (vtk ranks).cfl = ranks.flatten.map Cell.cfl ∧ (vtk ranks).offsets = (List.range ranks.flatten.length).map (fun i => 4 * (i + 1)) ∧
    (vtk ranks).connections.length = 4 * ranks.flatten.length ∧
    ∀ i c, ranks.flatten[i]? = some c → ∀ j p, c.corners[j]? = some p →
      ∃ m q, (vtk ranks).connections[4 * i + j]? = some m ∧ (vtk ranks).xy[m]? = some q ∧ key q = key p := by
  obtain ⟨h1, h2, h3⟩ := cellsLoop_spec (fun k => (Dict.keys (points ranks)).idxOf k) ranks.flatten 0
  refine ⟨h3, by simp only [vtk, h2, Nat.zero_add], ?_, ?_⟩
  · simp only [vtk, h1, List.length_flatMap, List.length_map]
    generalize ranks.flatten = cs at h4
    clear h1 h2 h3
    induction cs with
    | nil => rfl
    | cons c cs ih =>
      simp only [List.map_cons, List.sum_cons, List.length_cons]
      rw [ih (fun c hc => h4 c (List.mem_cons_of_mem _ hc)), h4 c (by simp)]
      omega
  · intro i c hc j p hp
    obtain ⟨g1, g2⟩ := points_spec ranks
    have hcm := List.mem_of_getElem? hc
    have hj : j < 4 := by
      rw [← h4 c hcm]
      exact (List.getElem?_eq_some_iff.1 hp).1
    have hk : key p ∈ Dict.keys (points ranks) := (g2 _).2 ⟨c, hcm, p, List.mem_of_getElem? hp, rfl⟩
    have hm := List.idxOf_lt_length_of_mem hk
    have hm' : (Dict.keys (points ranks)).idxOf (key p) < (points ranks).length := by rwa [Dict.keys_length] at hm
    refine ⟨(Dict.keys (points ranks)).idxOf (key p), ((points ranks)[(Dict.keys (points ranks)).idxOf (key p)]'hm').2, ?_, ?_, ?_⟩
    · simp only [vtk, h1]
      rw [flatMap_get _ _ (fun c hc => by simp [h4 c hc]) i j c hc hj]
      simp [hp]
    · simp [vtk, hm']
    · rw [(g1.key _ (List.getElem_mem hm')).1]
      have := List.getElem_idxOf hm
      simp only [Dict.keys, List.getElem_map] at this
      exact this

/-- The points of the file are corners, one for each rounded pair of coordinates. -/
theorem vtk_points (ranks : List (List Cell)) :
    ((vtk ranks).xy.map key).Nodup ∧ (∀ q ∈ (vtk ranks).xy, ∃ c ∈ ranks.flatten, q ∈ c.corners) ∧
    ∀ c ∈ ranks.flatten, ∀ p ∈ c.corners, ∃ q ∈ (vtk ranks).xy, key q = key p := by
  obtain ⟨g1, g2⟩ := points_spec ranks
  refine ⟨?_, ?_, ?_⟩
  · have : (vtk ranks).xy.map key = Dict.keys (points ranks) := by
      simp only [vtk, List.map_map, Dict.keys]
      apply List.map_congr_left
      intro q hq
      exact (g1.key q hq).1
    rw [this]
    exact g1.nodup
  · intro q hq
    obtain ⟨r, hr, rfl⟩ := List.mem_map.1 hq
    exact (g1.key r hr).2
  · intro c hc p hp
    obtain ⟨r, hr, h⟩ := List.mem_map.1 ((g2 _).2 ⟨c, hc, p, hp, rfl⟩)
    exact ⟨r.2, List.mem_map_of_mem hr, by rw [(g1.key r hr).1, h]⟩

/-- Two cells that share an edge, on different ranks, with a coordinate that differs by rounding. -/
def exCells (x : ℚ) : List (List Cell) :=
  [[⟨[(-1, 0), (x, 0), (-1, 1), (x, 1)], 1 / 2⟩], [⟨[(1 / 2, 0), (1, 0), (1 / 2, 1), (1, 1)], 3 / 4⟩]]

example : (∀ c ∈ (exCells (1 / 2 + 1 / 10 ^ 9)).flatten, c.corners.length = 4) ∧ (vtk (exCells (1 / 2 + 1 / 10 ^ 9))).xy.length = 6 ∧
    (vtk (exCells (1 / 2 + 1 / 10 ^ 9))).connections = [0, 1, 2, 3, 1, 4, 3, 5] := by decide +kernel

/-- Corners that are the same up to rounding are not the same point if they lie on both sides of an axis: two cells with the corner `(±1e-16, y)` are
not connected in the file. -/
theorem vtk_sign_refuted : ∃ ranks : List (List Cell), (∀ c ∈ ranks.flatten, c.corners.length = 4) ∧
    (∃ c ∈ ranks.flatten, ∃ p ∈ c.corners, ∃ c' ∈ ranks.flatten, ∃ p' ∈ c'.corners, |p.1 - p'.1| ≤ 1 / 10 ^ 15 ∧ p.2 = p'.2 ∧ p ≠ p') ∧
    (vtk ranks).xy.length = 8 ∧ (vtk ranks).connections = [0, 1, 2, 3, 4, 5, 6, 7] := by
  refine ⟨[[⟨[(-1, 0), (-1 / 10 ^ 16, 0), (-1, 1), (-1 / 10 ^ 16, 1)], 1⟩, ⟨[(1 / 10 ^ 16, 0), (1, 0), (1 / 10 ^ 16, 1), (1, 1)], 1⟩]], ?_, ?_, ?_, ?_⟩
  · decide +kernel
  · exact ⟨_, List.mem_cons_self, (-1 / 10 ^ 16, 0), by simp, _, List.mem_cons_of_mem _ List.mem_cons_self, (1 / 10 ^ 16, 0), by simp, by
      norm_num [abs_le], rfl, by norm_num⟩
  · decide +kernel
  · decide +kernel

end Phyem.Integrals
