import Verif.FaceDofs.Props

import Mathlib.Tactic.Positivity
/-! The dofs of one component, and where nodes are. -/

namespace Phyem.FaceDofs

open Phyem.Dict

lemma top_grid (a nx ny nz : ℕ) (h : 0 < nx * ny * nz) : top (grid a nx ny nz) + 1 = ((a + nx * ny * nz : ℕ) : ℤ) := by
  have key : ∀ m : ℕ, (((List.range (m + 1)).map fun n => ((a + n : ℕ) : ℤ)).foldl max ((a : ℕ) : ℤ)) = ((a + m : ℕ) : ℤ) := by
    intro m
    induction m with
    | zero => simp
    | succ m ih =>
      rw [List.range_succ, List.map_append, List.foldl_append, ih]
      simp only [List.map_cons, List.map_nil, List.foldl_cons, List.foldl_nil]
      apply max_eq_right
      push_cast; omega
  obtain ⟨m, hm⟩ : ∃ m, nx * ny * nz = m + 1 := ⟨nx * ny * nz - 1, by omega⟩
  have hh : ((List.range (m + 1)).map fun n => ((a + n : ℕ) : ℤ)).headD 0 = ((a : ℕ) : ℤ) := by
    rw [List.range_succ_eq_map]; simp
  unfold top grid
  simp only [hm, hh]
  rw [key]
  push_cast; ring

lemma at_shift (a : ℕ) {nx ny nz i j k : ℕ} (f : ℕ) (d : ℤ) (hi : i < nx) (hj : j < ny) (hk : k < nz)
    (hs : inSlice (grid a nx ny nz) f (i + nx * j + nx * ny * k) = true) :
    (shift (grid a nx ny nz) f d).at i j k = (grid a nx ny nz).at i j k + -d := by
  have h := idx_lt hi hj hk
  rw [at_grid a hi hj hk]
  simp only [shift, Arr.at, List.getD_eq_getElem?_getD, List.getElem?_mapIdx]
  simp only [grid] at hs ⊢
  rw [List.getElem?_map, List.getElem?_range h]
  simp only [Option.map_some, Option.getD_some, hs, if_true]
  ring

/-- What is subtracted from a slice is missing in it afterwards. -/
lemma edge_shift (a nx ny nz f : ℕ) (d : ℤ) (hx : 0 < nx) (hy : 0 < ny) (hz : 0 < nz) (hf : f < 6) :
    edge (shift (grid a nx ny nz) f d) f = (edge (grid a nx ny nz) f).map fun l => l.map (· + -d) := by
  match f, hf with
  | 0, _ =>
    simp only [edge, Option.map_some]
    refine congrArg some (flat_map (fun j k => (grid a nx ny nz).at 0 j k) _ ny nz _ ?_)
    intro j hj k hk
    exact at_shift a 0 d hx hj hk (by simp only [inSlice, beq_iff_eq]; exact idx_x hx)
  | 1, _ =>
    simp only [edge, Option.map_some]
    refine congrArg some (flat_map (fun j k => (grid a nx ny nz).at (nx - 1) j k) _ ny nz _ ?_)
    intro j hj k hk
    have h : nx - 1 < nx := by omega
    exact at_shift a 1 d h hj hk (by simp only [inSlice, beq_iff_eq]; exact idx_x h)
  | 2, _ =>
    simp only [edge, Option.map_some]
    refine congrArg some (flat_map (fun i k => (grid a nx ny nz).at i 0 k) _ nx nz _ ?_)
    intro i hi k hk
    exact at_shift a 2 d hi hy hk (by simp only [inSlice, beq_iff_eq]; exact idx_y hi hy)
  | 3, _ =>
    simp only [edge, Option.map_some]
    refine congrArg some (flat_map (fun i k => (grid a nx ny nz).at i (ny - 1) k) _ nx nz _ ?_)
    intro i hi k hk
    have h : ny - 1 < ny := by omega
    exact at_shift a 3 d hi h hk (by simp only [inSlice, beq_iff_eq]; exact idx_y hi h)
  | 4, _ =>
    simp only [edge, Option.map_some]
    refine congrArg some (flat_map (fun i j => (grid a nx ny nz).at i j 0) _ nx ny _ ?_)
    intro i hi j hj
    exact at_shift a 4 d hi hj hz (by simp only [inSlice, beq_iff_eq]; exact idx_z hi hj)
  | 5, _ =>
    simp only [edge, Option.map_some]
    refine congrArg some (flat_map (fun i j => (grid a nx ny nz).at i j (nz - 1)) _ nx ny _ ?_)
    intro i hi j hj
    have h : nz - 1 < nz := by omega
    exact at_shift a 5 d hi hj h (by simp only [inSlice, beq_iff_eq]; exact idx_z hi hj)

lemma holds_sub {l : List ℤ} {a nx ny nz f : ℕ} (h : Holds l a nx ny nz f) : Holds (l.map (· + -(a : ℤ))) 0 nx ny nz f := by
  refine ⟨?_, ?_⟩
  · rw [List.pairwise_map]
    exact h.1.imp fun h => by omega
  · intro z
    rw [List.mem_map]
    constructor
    · rintro ⟨y, hy, rfl⟩
      obtain ⟨n, hn, rfl, ho⟩ := (h.2 y).1 hy
      exact ⟨n, hn, by push_cast; ring, ho⟩
    · rintro ⟨n, hn, rfl, ho⟩
      exact ⟨((a + n : ℕ) : ℤ), (h.2 _).2 ⟨n, hn, rfl, ho⟩, by push_cast; ring⟩

/-- C188: for one component, on the faces x- and x+ it is component 0, with its faces on them, numbered within the component; the numbering that is kept is
not changed. -/
theorem component_x (px py pz f : ℕ) (hy : 0 < py) (hz : 0 < pz) (hf : f = 0 ∨ f = 1) :
    ∃ l, component (fresh px py pz) f = some ((0, l), fresh px py pz) ∧ Holds l 0 (px + 1) py pz f := by
  obtain ⟨l, hl, h⟩ := edge_spec 0 (px + 1) py pz f (by omega) hy hz (by omega)
  refine ⟨l, ?_, h⟩
  simp only [component]
  rw [if_pos hf]
  simp only [fresh, hl, Option.map_some]

/-- C188: on the faces y- and y+ it is component 1, with its faces on them, numbered within the component. -/
theorem component_y (px py pz f : ℕ) (hx : 0 < px) (hy : 0 < py) (hz : 0 < pz) (hf : f = 2 ∨ f = 3) :
    ∃ l s, component (fresh px py pz) f = some ((1, l), s) ∧ Holds l 0 px (py + 1) pz f ∧ facesOn s f = some l := by
  obtain ⟨l, hl, h⟩ := edge_spec ((px + 1) * py * pz) px (py + 1) pz f hx (by omega) hz (by omega)
  have ht : top (grid 0 (px + 1) py pz) + 1 = (((px + 1) * py * pz : ℕ) : ℤ) := by
    have := top_grid 0 (px + 1) py pz (by positivity)
    rwa [Nat.zero_add] at this
  have he := edge_shift ((px + 1) * py * pz) px (py + 1) pz f (((px + 1) * py * pz : ℕ) : ℤ) hx (by omega) hz (by omega)
  rw [hl, Option.map_some] at he
  refine ⟨_, { fresh px py pz with
    dzdx := shift (grid ((px + 1) * py * pz) px (py + 1) pz) f (((px + 1) * py * pz : ℕ) : ℤ) }, ?_, holds_sub h, ?_⟩
  · simp only [component]
    rw [if_neg (by omega), if_pos hf]
    simp only [fresh]
    rw [ht, he]
    rfl
  · simp only [facesOn]
    rw [if_neg (by omega), if_pos hf]
    exact he

/-- C188: on the faces z- and z+ it is component 2; but what is given is less, by the number of faces across x, than the numbers of its faces on them within
the component. -/
theorem component_z_partial (px py pz f : ℕ) (hx : 0 < px) (hy : 0 < py) (hz : 0 < pz) (hf : f = 4 ∨ f = 5) :
    ∃ l s, component (fresh px py pz) f = some ((2, l.map (· + -(((px + 1) * py * pz : ℕ) : ℤ))), s) ∧ Holds l 0 px py (pz + 1) f := by
  obtain ⟨l, hl, h⟩ := edge_spec ((px + 1) * py * pz + px * (py + 1) * pz) px py (pz + 1) f hx hy (by omega) (by omega)
  have ht : top (grid 0 (px + 1) py pz) + 1 = (((px + 1) * py * pz : ℕ) : ℤ) := by
    have := top_grid 0 (px + 1) py pz (by positivity)
    rwa [Nat.zero_add] at this
  have ht' := top_grid ((px + 1) * py * pz) px (py + 1) pz (by positivity)
  have he := edge_shift ((px + 1) * py * pz + px * (py + 1) * pz) px py (pz + 1) f
    ((((px + 1) * py * pz : ℕ) : ℤ) + (((px + 1) * py * pz + px * (py + 1) * pz : ℕ) : ℤ)) hx hy (by omega) (by omega)
  rw [hl, Option.map_some] at he
  refine ⟨_, ⟨(fresh px py pz).dydz, (fresh px py pz).dzdx, shift (grid ((px + 1) * py * pz + px * (py + 1) * pz) px py (pz + 1)) f
    ((((px + 1) * py * pz : ℕ) : ℤ) + (((px + 1) * py * pz + px * (py + 1) * pz : ℕ) : ℤ))⟩, ?_, holds_sub h⟩
  simp only [component]
  rw [if_neg (by omega), if_neg (by omega), if_pos hf]
  simp only [fresh]
  rw [ht, ht', he]
  simp only [Option.map_some, List.map_map]
  congr 4
  funext z
  simp only [Function.comp]
  ring

lemma get_fold {K V A : Type} [DecidableEq K] (key : A → K) (val : A → V) (x : A) :
    ∀ (l : List A) (d : Dict K V), (∀ y ∈ l, key y = key x → val y = val x) → (x ∈ l ∨ get d (key x) = some (val x)) →
      get (l.foldl (fun d y => put d (key y) (val y)) d) (key x) = some (val x)
  | [], d, _, h => by simpa using h
  | y :: l, d, hl, h => by
    rw [List.foldl_cons]
    apply get_fold key val x l _ (fun z hz => hl z (List.mem_cons_of_mem _ hz))
    rcases h with h | h
    · rcases List.mem_cons.1 h with rfl | h
      · right; rw [get_put, if_pos rfl]
      · exact Or.inl h
    · right
      rw [get_put]
      by_cases e : key x = key y
      · rw [if_pos e, hl y List.mem_cons_self e.symm]
      · rw [if_neg e, h]

/-- C189: for each dof of the nodes of a rectangle, the place that is given is that of its node: number `n` is node `n % (px + 1)` along x and
`n / (px + 1)` along y. -/
theorem places2_spec {V : Type} (px py : ℕ) (X Y : ℕ → ℚ) (map : ℚ → ℚ → V) (n : ℕ) (hn : n < (px + 1) * (py + 1)) :
    get (places2 px py X Y map) (n : ℤ) =
      some ((X (n % (px + 1)), Y (n / (px + 1))), map (X (n % (px + 1))) (Y (n / (px + 1)))) := by
  have hj : n / (px + 1) < py + 1 := Nat.div_lt_of_lt_mul hn
  have hi : n % (px + 1) < px + 1 := Nat.mod_lt _ (by omega)
  have hat : ∀ i j, i < px + 1 → j < py + 1 → (grid 0 (px + 1) (py + 1) 1).at i j 0 = ((i + (px + 1) * j : ℕ) : ℤ) := by
    intro i j h h'
    rw [at_grid 0 h h' (by omega)]
    congr 1
    ring
  have hk : (n : ℤ) = (grid 0 (px + 1) (py + 1) 1).at (n % (px + 1)) (n / (px + 1)) 0 := by
    rw [hat _ _ hi hj, Nat.mod_add_div]
  have := get_fold (fun q : ℕ × ℕ => (grid 0 (px + 1) (py + 1) 1).at q.1 q.2 0) (fun q => ((X q.1, Y q.2), map (X q.1) (Y q.2)))
    (n % (px + 1), n / (px + 1)) ((List.range (py + 1)).flatMap fun j => (List.range (px + 1)).map fun i => (i, j)) [] ?_ ?_
  · unfold places2
    rw [hk]
    exact this
  · rintro ⟨i, j⟩ hm he
    simp only [List.mem_flatMap, List.mem_range, List.mem_map, Prod.mk.injEq] at hm
    obtain ⟨j', hj', i', hi', rfl, rfl⟩ := hm
    simp only [hat _ _ hi' hj', hat _ _ hi hj, Nat.mod_add_div] at he
    have he : i' + (px + 1) * j' = n := by exact_mod_cast he
    have e1 : n % (px + 1) = i' := by rw [← he, Nat.add_mul_mod_self_left, Nat.mod_eq_of_lt hi']
    have e2 : n / (px + 1) = j' := by rw [← he, Nat.add_mul_div_left _ _ (by omega), Nat.div_eq_of_lt hi', Nat.zero_add]
    simp only [e1, e2]
  · left
    simp only [List.mem_flatMap, List.mem_range, List.mem_map]
    exact ⟨_, hj, _, hi, rfl⟩

lemma foldlM_none {A B : Type} (g : B → A → Option B) : ∀ (l : List A) (b : B) (x : A), x ∈ l → (∀ b, g b x = none) → l.foldlM g b = none
  | [], _, _, h, _ => absurd h List.not_mem_nil
  | y :: l, b, x, h, hg => by
    rw [List.foldlM_cons]
    rcases List.mem_cons.1 h with rfl | h
    · rw [hg]; rfl
    · cases g b y with
      | none => rfl
      | some b' => exact foldlM_none g l b' x h hg

/-- C189, what fails: for hexahedra of degree three or more along z an error is raised. -/
theorem places3_raises (px py pz : ℕ) (X Y Z : List ℚ) (h : 3 ≤ pz) : places3 px py pz X Y Z = none := by
  unfold places3
  refine foldlM_none _ _ _ (0, 0, 3) ?_ fun d => rfl
  simp only [List.mem_flatMap, List.mem_range, List.mem_map]
  exact ⟨3, by omega, 0, by omega, 0, by omega, rfl⟩

lemma foldlM_inv {A B : Type} (g : B → A → Option B) (P : B → Prop) (h : ∀ b x b', P b → g b x = some b' → P b') :
    ∀ (l : List A) (b b' : B), P b → l.foldlM g b = some b' → P b'
  | [], b, b', hb, e => by
    rw [List.foldlM_nil] at e
    exact Option.some.inj e ▸ hb
  | y :: l, b, b', hb, e => by
    rw [List.foldlM_cons] at e
    cases hy : g b y with
    | none => rw [hy] at e; cases e
    | some c => rw [hy] at e; exact foldlM_inv g P h l c b' (h b y c hb hy) e

/-- C189, what fails: for no dof of the nodes of a hexahedron the third coordinate is a number. -/
theorem places3_array (px py pz : ℕ) (X Y Z : List ℚ) (D : Dict ℤ (Coo × Coo × Coo)) (h : places3 px py pz X Y Z = some D) (n : ℤ)
    (c : Coo × Coo × Coo) (hc : get D n = some c) : ∃ l, c.2.2 = .arr l := by
  refine foldlM_inv _ (fun D : Dict ℤ (Coo × Coo × Coo) => ∀ n c, get D n = some c → ∃ l, c.2.2 = .arr l) ?_ _ _ _ ?_ h n c hc
  · intro b x b' hb e n c hc
    obtain ⟨l, _, rfl⟩ := Option.map_eq_some_iff.1 e
    rw [get_put] at hc
    split at hc
    · exact ⟨l, by rw [← Option.some.inj hc]⟩
    · exact hb n c hc
  · intro n c hc
    simp [Dict.get] at hc

end Phyem.FaceDofs
