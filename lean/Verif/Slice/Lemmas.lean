import Verif.Slice.Spec
import Verif.Split.Numbers
import Mathlib.Data.Int.ModEq
import Mathlib.Data.Fintype.Basic
import Mathlib.Data.Fin.Basic
import Mathlib.Tactic.FinCases
import Mathlib.Tactic.FieldSimp
import Mathlib.Tactic.Linarith
import Mathlib.Tactic.LinearCombination
import Mathlib.Tactic.Ring

/-!
# The periodic slice in closed form
-/

namespace Phyem.Slice

open Phyem.Dict Phyem.PoolGM

/-- The number of a grid point, coordinates taken modulo the numbers of elements. -/
def nd (K c : Fin 3 → ℕ) : ℕ := c 0 % K 0 + K 0 * (c 1 % K 1) + K 0 * K 1 * (c 2 % K 2)

lemma nodes3_eq {kx ky kz i j k : ℕ} (hx : 0 < kx) (hy : 0 < ky) (hz : 0 < kz) (hi : i ≤ kx) (hj : j ≤ ky) (hk : k ≤ kz) :
    nodes3 kx ky kz i j k = some (nd ![kx, ky, kz] ![i, j, k]) := by
  have e : ∀ {a n : ℕ}, a < n → a % n = a := fun h => Nat.mod_eq_of_lt h
  rcases hi.lt_or_eq with hi | rfl <;> rcases hj.lt_or_eq with hj | rfl <;> rcases hk.lt_or_eq with hk | rfl <;>
    simp [nodes3, nd, *, Nat.ne_of_lt, e]

lemma nodes2_eq {kx ky i j : ℕ} (k : ℕ) (hx : 0 < kx) (hy : 0 < ky) (hi : i ≤ kx) (hj : j ≤ ky) :
    nodes2 kx ky i j = some (nd ![kx, ky, 1] ![i, j, k]) := by
  have e : ∀ {a n : ℕ}, a < n → a % n = a := fun h => Nat.mod_eq_of_lt h
  rcases hi.lt_or_eq with hi | rfl <;> rcases hj.lt_or_eq with hj | rfl <;>
    simp [nodes2, nd, *, Nat.ne_of_lt, e, Nat.mod_one]

/-- Bits as numbers. -/
def bit (b : Bool) : ℕ := if b then 1 else 0

/-- Element `c` of `K` in closed form. -/
def el (lo len : Fin 3 → ℚ) (K c : Fin 3 → ℕ) : Elem where
  origin := (lo 0 + len 0 * c 0 / K 0, lo 1 + len 1 * c 1 / K 1, lo 2 + len 2 * c 2 / K 2)
  delta := (len 0 / K 0, len 1 / K 1, len 2 / K 2)
  hex := ⟨nd K c, nd K ![c 0 + 1, c 1, c 2], nd K ![c 0, c 1 + 1, c 2], nd K ![c 0 + 1, c 1 + 1, c 2],
    nd K ![c 0, c 1, c 2 + 1], nd K ![c 0 + 1, c 1, c 2 + 1], nd K ![c 0, c 1 + 1, c 2 + 1],
    nd K ![c 0 + 1, c 1 + 1, c 2 + 1]⟩

/-- The index of element `c`. -/
def ix (K c : Fin 3 → ℕ) : ℕ := c 0 + c 1 * K 0 + c 2 * K 0 * K 1

lemma linspace_step {a b : ℚ} {n : ℕ} (i : ℕ) (h : 0 < n) : linspace a b n (i + 1) - linspace a b n i = (b - a) / n := by
  have : (n : ℚ) ≠ 0 := by positivity
  unfold linspace
  push_cast
  field_simp
  ring

lemma elem3_eq {x0 x1 y0 y1 t : ℚ} {kx ky kz i j k : ℕ} (hi : i < kx) (hj : j < ky) (hk : k < kz) :
    elem3 x0 x1 y0 y1 t kx ky kz i j k =
      some (ix ![kx, ky, kz] ![i, j, k], el ![x0, y0, -t / 2] ![x1 - x0, y1 - y0, t] ![kx, ky, kz] ![i, j, k]) := by
  have hx : 0 < kx := by omega
  have hy : 0 < ky := by omega
  have hz : 0 < kz := by omega
  unfold elem3
  rw [nodes3_eq hx hy hz (by omega) (by omega) (by omega), nodes3_eq hx hy hz (by omega) (by omega) (by omega),
    nodes3_eq hx hy hz (by omega) (by omega) (by omega), nodes3_eq hx hy hz (by omega) (by omega) (by omega),
    nodes3_eq hx hy hz (by omega) (by omega) (by omega), nodes3_eq hx hy hz (by omega) (by omega) (by omega),
    nodes3_eq hx hy hz (by omega) (by omega) (by omega), nodes3_eq hx hy hz (by omega) (by omega) (by omega)]
  simp only [linspace_step _ hx, linspace_step _ hy, linspace_step _ hz]
  have ht : t / 2 - -t / 2 = t := by ring
  simp only [Option.bind_eq_bind, Option.bind_some, Option.pure_def, ix, el, linspace, ht]
  rfl

lemma elem2_eq {x0 x1 y0 y1 t : ℚ} {kx ky i j : ℕ} (hi : i < kx) (hj : j < ky) :
    elem2 x0 x1 y0 y1 t kx ky i j =
      some (ix ![kx, ky, 1] ![i, j, 0], el ![x0, y0, -t / 2] ![x1 - x0, y1 - y0, t] ![kx, ky, 1] ![i, j, 0]) := by
  have hx : 0 < kx := by omega
  have hy : 0 < ky := by omega
  unfold elem2
  have e : ∀ u v, nd ![kx, ky, 1] ![u, v, 1] = nd ![kx, ky, 1] ![u, v, 0] := by
    intro u v; simp [nd]
  rw [nodes2_eq 0 hx hy (by omega) (by omega), nodes2_eq 0 hx hy (by omega) (by omega),
    nodes2_eq 0 hx hy (by omega) (by omega), nodes2_eq 0 hx hy (by omega) (by omega)]
  simp only [linspace_step _ hx, linspace_step _ hy]
  simp only [Option.bind_eq_bind, Option.bind_some, Option.pure_def, ix, el, linspace]
  simp [e]

/-- The elements in closed form, in the order of the loops. -/
def list (lo len : Fin 3 → ℚ) (kx ky kz : ℕ) : Dict ℕ Elem :=
  (List.range kz).flatMap fun k => (List.range ky).flatMap fun j => (List.range kx).map fun i =>
    (ix ![kx, ky, kz] ![i, j, k], el lo len ![kx, ky, kz] ![i, j, k])

lemma range_blocks (n m : ℕ) : ((List.range n).flatMap fun j => (List.range m).map fun i => i + j * m) = List.range (n * m) := by
  induction n with
  | zero => simp
  | succ n ih =>
    rw [List.range_succ, List.flatMap_append, ih, Nat.succ_mul, List.range_add]
    simp [Nat.add_comm]

lemma keys_list (lo len : Fin 3 → ℚ) (kx ky kz : ℕ) : keys (list lo len kx ky kz) = List.range (kx * ky * kz) := by
  unfold keys list
  rw [List.map_flatMap]
  have h : ∀ k, List.map Prod.fst ((List.range ky).flatMap fun j => (List.range kx).map fun i =>
      (ix ![kx, ky, kz] ![i, j, k], el lo len ![kx, ky, kz] ![i, j, k])) =
      (List.range (ky * kx)).map fun i => i + k * (ky * kx) := by
    intro k
    rw [← range_blocks, List.map_flatMap, List.map_flatMap]
    congr 1
    funext j
    rw [List.map_map, List.map_map]
    congr 1
    funext i
    simp [ix]
    ring
  simp only [h]
  rw [range_blocks]
  congr 1
  ring

lemma mem_list {lo len : Fin 3 → ℚ} {kx ky kz : ℕ} {e : ℕ} {x : Elem} : (e, x) ∈ list lo len kx ky kz ↔
    ∃ c : Fin 3 → ℕ, (∀ a, c a < ![kx, ky, kz] a) ∧ e = ix ![kx, ky, kz] c ∧ x = el lo len ![kx, ky, kz] c := by
  unfold list
  simp only [List.mem_flatMap, List.mem_map, List.mem_range, Prod.mk.injEq]
  constructor
  · rintro ⟨k, hk, j, hj, i, hi, rfl, rfl⟩
    refine ⟨![i, j, k], fun a => ?_, rfl, rfl⟩
    fin_cases a <;> simpa
  · rintro ⟨c, hc, rfl, rfl⟩
    have h0 := hc 0
    have h1 := hc 1
    have h2 := hc 2
    have hc' : c = ![c 0, c 1, c 2] := by funext a; fin_cases a <;> rfl
    refine ⟨c 2, h2, c 1, h1, c 0, h0, ?_⟩
    rw [← hc']
    exact ⟨rfl, rfl⟩

lemma mapM_some {A B : Type} {l : List A} {f : A → Option B} {g : A → B} (h : ∀ a ∈ l, f a = some (g a)) :
    (l.map f).mapM id = some (l.map g) := by
  induction l with
  | nil => rfl
  | cons a l ih =>
    rw [List.map_cons, List.mapM_cons, ih fun b hb => h b (List.mem_cons_of_mem _ hb)]
    simp [h a List.mem_cons_self]

lemma store_eq {l : List (Option (ℕ × Elem))} {l' : Dict ℕ Elem} (h : l = l'.map some) (hn : (keys l').Nodup) :
    store l = some l' := by
  unfold store
  rw [h, mapM_some (f := some) (g := fun x => x) (fun _ _ => rfl), List.map_id', Option.map_some, Split.foldl_put l' [] (by simpa using hn),
    List.nil_append]

lemma slice_eq {layout : Layout} {x0 x1 y0 y1 t : ℚ} {levels : ℤ} {kx ky kz : ℕ}
    (h : Accepted layout x0 x1 y0 y1 t levels kx ky kz) :
    slice layout x0 x1 y0 y1 t levels = some (list ![x0, y0, -t / 2] ![x1 - x0, y1 - y0, t] kx ky kz) := by
  obtain ⟨hl, rfl, hx, hy, hz, h1, h2, h3⟩ := h
  unfold slice
  rw [if_pos ⟨h3, h1, h2, by omega⟩, hl]
  dsimp only
  rw [if_pos ⟨by omega, by omega⟩]
  simp only [Int.toNat_natCast]
  have hn : (keys (list ![x0, y0, -t / 2] ![x1 - x0, y1 - y0, t] kx ky kz)).Nodup := by
    rw [keys_list]; exact List.nodup_range
  split_ifs with hk
  · subst hk
    refine store_eq ?_ hn
    simp only [list, List.range_one, List.flatMap_singleton, List.map_flatMap, List.map_map]
    refine List.flatMap_congr fun j hj => List.map_congr_left fun i hi => ?_
    rw [List.mem_range] at hi hj
    exact elem2_eq hi hj
  · refine store_eq ?_ hn
    simp only [list, List.map_flatMap, List.map_map]
    refine List.flatMap_congr fun k hk => List.flatMap_congr fun j hj => List.map_congr_left fun i hi => ?_
    rw [List.mem_range] at hi hj hk
    exact elem3_eq hi hj hk

lemma slice_accepted {layout : Layout} {x0 x1 y0 y1 t : ℚ} {levels : ℤ} {m : Dict ℕ Elem}
    (h : slice layout x0 x1 y0 y1 t levels = some m) : ∃ kx ky kz, Accepted layout x0 x1 y0 y1 t levels kx ky kz := by
  unfold slice at h
  by_cases h1 : 0 < t ∧ x0 < x1 ∧ y0 < y1 ∧ 1 ≤ levels
  · rw [if_pos h1] at h
    obtain ⟨ht, hx, hy, hl⟩ := h1
    match hL : layout.list with
    | [] => rw [hL] at h; cases h
    | [_] => rw [hL] at h; cases h
    | _ :: _ :: _ :: _ => rw [hL] at h; cases h
    | [k0, k1] =>
      rw [hL] at h
      dsimp only at h
      by_cases hk : 0 < k0 ∧ 0 < k1
      · refine ⟨k0.toNat, k1.toNat, levels.toNat, ?_, ?_, ?_, ?_, ?_, hx, hy, ht⟩
        · rw [hL, Int.toNat_of_nonneg hk.1.le, Int.toNat_of_nonneg hk.2.le]
        · rw [Int.toNat_of_nonneg (by omega)]
        · omega
        · omega
        · omega
      · rw [if_neg hk] at h; cases h
  · rw [if_neg h1] at h; cases h

lemma pos_el {lo len : Fin 3 → ℚ} {K c : Fin 3 → ℕ} (D : Fin 3 → Bool) (a : Fin 3) :
    pos (el lo len K c) D a = lo a + len a * (c a + bit (D a) : ℕ) / K a := by
  have h : ∀ b, (if D b then coord (el lo len K c).delta b else 0) = len b * bit (D b) / K b := by
    intro b
    unfold bit
    cases D b
    · simp
    · fin_cases b <;> simp [el, coord]
  have h' : ∀ b, coord (el lo len K c).origin b = lo b + len b * c b / K b := by
    intro b
    fin_cases b <;> rfl
  unfold pos
  rw [h, h']
  push_cast
  ring

lemma node_el {lo len : Fin 3 → ℚ} {K c : Fin 3 → ℕ} (D : Fin 3 → Bool) :
    node (el lo len K c) D = nd K fun a => c a + bit (D a) := by
  unfold node
  cases h0 : D 0 <;> cases h1 : D 1 <;> cases h2 : D 2 <;> simp [el, nd, bit, h0, h1, h2]

lemma nd_lt {K c : Fin 3 → ℕ} (hK : ∀ a, 0 < K a) : nd K c < K 0 * K 1 * K 2 := by
  have h0 := Nat.mod_lt (c 0) (hK 0)
  have h1 := Nat.mod_lt (c 1) (hK 1)
  have h2 := Nat.mod_lt (c 2) (hK 2)
  unfold nd
  have e1 : K 0 * (c 1 % K 1) + K 0 ≤ K 0 * K 1 := by rw [← Nat.mul_succ]; exact Nat.mul_le_mul_left _ h1
  have e2 : K 0 * K 1 * (c 2 % K 2) + K 0 * K 1 ≤ K 0 * K 1 * K 2 := by
    rw [← Nat.mul_succ]; exact Nat.mul_le_mul_left _ h2
  omega

lemma digits {p a b c d : ℕ} (ha : a < p) (hc : c < p) (h : a + p * b = c + p * d) : a = c ∧ b = d := by
  have hp : 0 < p := by omega
  have h1 : (a + p * b) % p = (c + p * d) % p := by rw [h]
  rw [Nat.add_mul_mod_self_left, Nat.add_mul_mod_self_left, Nat.mod_eq_of_lt ha, Nat.mod_eq_of_lt hc] at h1
  subst h1
  exact ⟨rfl, Nat.eq_of_mul_eq_mul_left hp (by omega)⟩

lemma nd_inj {K c c' : Fin 3 → ℕ} (hK : ∀ a, 0 < K a) : nd K c = nd K c' ↔ ∀ a, c a ≡ c' a [MOD K a] := by
  constructor
  · intro h
    unfold nd at h
    rw [Nat.add_assoc, Nat.add_assoc, Nat.mul_assoc, Nat.mul_assoc, ← Nat.mul_add, ← Nat.mul_add] at h
    obtain ⟨e0, h⟩ := digits (Nat.mod_lt _ (hK 0)) (Nat.mod_lt _ (hK 0)) h
    obtain ⟨e1, e2⟩ := digits (Nat.mod_lt _ (hK 1)) (Nat.mod_lt _ (hK 1)) h
    intro a
    fin_cases a
    · exact e0
    · exact e1
    · exact e2
  · intro h
    unfold nd
    rw [h 0, h 1, h 2]

lemma congruent_iff {lo len : Fin 3 → ℚ} {K c c' : Fin 3 → ℕ} (hK : ∀ a, 0 < K a) (hl : ∀ a, 0 < len a) (D D' : Fin 3 → Bool) :
    Congruent len (pos (el lo len K c) D) (pos (el lo len K c') D') ↔
      ∀ a, c a + bit (D a) ≡ c' a + bit (D' a) [MOD K a] := by
  refine forall_congr' fun a => ?_
  rw [pos_el, pos_el, ← Int.natCast_modEq_iff]
  have h1 : (K a : ℚ) ≠ 0 := by have := hK a; positivity
  have h2 := (hl a).ne'
  have key : ∀ z : ℤ, (lo a + len a * ((c a + bit (D a) : ℕ) : ℚ) / K a - (lo a + len a * ((c' a + bit (D' a) : ℕ) : ℚ) / K a) = z * len a) ↔
      (((c a + bit (D a) : ℕ) : ℤ) - ((c' a + bit (D' a) : ℕ) : ℤ) = K a * z) := by
    intro z
    have : (lo a + len a * ((c a + bit (D a) : ℕ) : ℚ) / K a - (lo a + len a * ((c' a + bit (D' a) : ℕ) : ℚ) / K a) = z * len a) ↔
        (((c a + bit (D a) : ℕ) : ℚ) - ((c' a + bit (D' a) : ℕ) : ℚ) = K a * z) := by
      field_simp
      constructor
      · intro h; exact mul_left_cancel₀ h2 (by linear_combination h)
      · intro h; linear_combination len a * h
    rw [this]
    constructor
    · intro h; exact_mod_cast h
    · intro h; exact_mod_cast h
  simp only [key]
  rw [Int.modEq_comm, Int.modEq_iff_dvd]
  rfl

lemma el_eta (c : Fin 3 → ℕ) : ![c 0, c 1, c 2] = c := by funext a; fin_cases a <;> rfl

end Phyem.Slice
