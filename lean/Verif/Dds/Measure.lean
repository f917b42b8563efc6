import Verif.Dds.OpsThm
import Mathlib.Analysis.Real.Sqrt
import Mathlib.Tactic.FieldSimp
import Mathlib.Tactic.NormNum

/-!
# Sizes of data at points
-/

namespace Phyem.Dds

/-- `norm()` of a vector in the plane (`region_wise_structured.py:572-596`). -/
noncomputable def norm (f : Fld ℝ) : Option (Fld ℝ) :=
  if isVector2 f then
    match f.val with
    | [U, V] => (along U fun r => (U.lookup r).bind fun u => (V.lookup r).bind fun v =>
        ((u.map (· ^ 2)).zip (· + ·) (v.map (· ^ 2))).map (Arr.map Real.sqrt)).bind fun d => make f.coo [d]
    | _ => none
  else none

section
variable {K : Type} {R : List ℕ} {S : ℕ → List ℕ}

lemma map_getD [Zero K] {φ : K → K} {x : List K} {p : ℕ} (h : p < x.length) :
    (x.map φ).getD p 0 = φ (x.getD p 0) := by
  have e1 : (x.map φ).getD p 0 = (x.map φ)[p]'(by simpa using h) := List.getD_eq_getElem _ _ _
  have e2 : x.getD p 0 = x[p] := List.getD_eq_getElem _ _ h
  rw [e1, e2, List.getElem_map]

/-- The length of a vector in the plane; there is none of other data. -/
theorem norm_is {f : Fld ℝ} (h : Good R S f) :
    ((norm f).isSome ↔ f.coo.length = 2 ∧ f.val.length = 2) ∧
    ∀ out, norm f = some out →
      Is R S f out 1 fun _ r p => Real.sqrt (f.value 0 r p ^ 2 + f.value 1 r p ^ 2) := by
  by_cases hl : isVector2 f = true
  swap
  · have e : norm f = none := by unfold norm; rw [if_neg hl]
    rw [e]
    exact ⟨⟨fun x => (by cases x), fun x => absurd ((isVector2_iff f).2 x) hl⟩, fun out x => (by cases x)⟩
  obtain ⟨hf1, hf2⟩ := (isVector2_iff f).1 hl
  obtain ⟨U, V, ef⟩ := List.length_eq_two.1 hf2
  have hU : Full R S U := h.full _ (by simp [ef])
  have hV : Full R S V := h.full _ (by simp [ef])
  obtain ⟨out, h1, h2⟩ := single_is h hU
    (v := fun r p => Real.sqrt (f.value 0 r p ^ 2 + f.value 1 r p ^ 2))
    (g := fun r => (U.lookup r).bind fun u => (V.lookup r).bind fun v =>
        ((u.map (· ^ 2)).zip (· + ·) (v.map (· ^ 2))).map (Arr.map Real.sqrt)) (by
    intro r hr
    obtain ⟨a, ha, a1, a2⟩ := hU.lookup hr
    obtain ⟨b, hb, b1, b2⟩ := hV.lookup hr
    obtain ⟨z, hz, z1, z2, z3⟩ := zip_good (op := (· + ·)) (x := a.map (· ^ 2)) (y := b.map (· ^ 2)) (s := S r)
      a1 (by simp [Arr.map, a2]) b1 (by simp [Arr.map, b2])
    refine ⟨z.map Real.sqrt, ?_, z1, by simp [Arr.map, z2], fun k hk => ?_⟩
    · rw [ha, hb]
      simp only [Option.bind_some]
      rw [hz]; rfl
    · have e0 : f.value 0 r k = a.data.getD k 0 := by unfold Fld.value; rw [ef]; exact entry_of ha
      have e1 : f.value 1 r k = b.data.getD k 0 := by unfold Fld.value; rw [ef]; exact entry_of hb
      rw [e0, e1]
      have e2 : (z.map Real.sqrt).data = z.data.map Real.sqrt := rfl
      have e3 : (a.map (· ^ 2)).data = a.data.map (· ^ 2) := rfl
      have e4 : (b.map (· ^ 2)).data = b.data.map (· ^ 2) := rfl
      rw [e2, map_getD (by omega), z3, e3, e4,
        zipWith_getD (by rw [List.length_map]; omega) (by rw [List.length_map]; omega), map_getD (by omega),
        map_getD (by omega)])
  have hres : norm f = some out := by
    unfold norm
    rw [if_pos hl, ef]
    exact h1
  rw [hres]
  refine ⟨⟨fun _ => ⟨hf1, hf2⟩, fun _ => rfl⟩, fun o ho => ?_⟩
  simp only [Option.some.injEq] at ho
  subst ho
  exact h2

end

section
variable {K : Type} [Field K] [LinearOrder K] {R : List ℕ} {S : ℕ → List ℕ}

lemma foldl_max (l : List K) (x : K) : l.foldl max x ∈ x :: l ∧ ∀ y ∈ x :: l, y ≤ l.foldl max x := by
  induction l generalizing x with
  | nil => simp
  | cons z l ih =>
    rw [List.foldl_cons]
    obtain ⟨h1, h2⟩ := ih (max x z)
    refine ⟨?_, ?_⟩
    · rcases List.mem_cons.1 h1 with h | h
      · rcases max_choice x z with e | e <;> rw [h, e] <;> simp
      · simp [h]
    · have hm := h2 (max x z) (by simp)
      intro y hy
      rcases List.mem_cons.1 hy with rfl | hy
      · exact (le_max_left _ _).trans hm
      · rcases List.mem_cons.1 hy with rfl | hy
        · exact (le_max_right _ _).trans hm
        · exact h2 y (by simp [hy])

lemma foldl_min (l : List K) (x : K) : l.foldl min x ∈ x :: l ∧ ∀ y ∈ x :: l, l.foldl min x ≤ y := by
  induction l generalizing x with
  | nil => simp
  | cons z l ih =>
    rw [List.foldl_cons]
    obtain ⟨h1, h2⟩ := ih (min x z)
    refine ⟨?_, ?_⟩
    · rcases List.mem_cons.1 h1 with h | h
      · rcases min_choice x z with e | e <;> rw [h, e] <;> simp
      · simp [h]
    · have hm := h2 (min x z) (by simp)
      intro y hy
      rcases List.mem_cons.1 hy with rfl | hy
      · exact hm.trans (min_le_left _ _)
      · rcases List.mem_cons.1 hy with rfl | hy
        · exact hm.trans (min_le_right _ _)
        · exact h2 y (by simp [hy])

lemma maxOf_eq {l : List K} {m : K} (hm : m ∈ l) (h : ∀ y ∈ l, y ≤ m) : maxOf l = some m := by
  cases l with
  | nil => cases hm
  | cons x l =>
    obtain ⟨h1, h2⟩ := foldl_max l x
    unfold maxOf
    dsimp only
    rw [le_antisymm (h _ h1) (h2 _ hm)]

lemma minOf_eq {l : List K} {m : K} (hm : m ∈ l) (h : ∀ y ∈ l, m ≤ y) : minOf l = some m := by
  cases l with
  | nil => cases hm
  | cons x l =>
    obtain ⟨h1, h2⟩ := foldl_min l x
    unfold minOf
    dsimp only
    rw [le_antisymm (h2 _ hm) (h _ h1)]

lemma maxOf_exists {l : List K} (h : l ≠ []) : ∃ m, maxOf l = some m ∧ m ∈ l ∧ ∀ y ∈ l, y ≤ m := by
  cases l with
  | nil => exact absurd rfl h
  | cons x l => exact ⟨_, rfl, (foldl_max l x).1, (foldl_max l x).2⟩

/-- The maximum of each component: no number of the component is larger, and it is one of them, up to signs. -/
theorem maximum_is {f : Fld K} (h : Good R S f) (hR : R ≠ []) (hS : ∀ r ∈ R, 0 < (S r).prod) :
    ∃ ms, maximum f = some ms ∧ ms.length = f.val.length ∧ ∀ c < f.val.length,
      (∀ r ∈ R, ∀ p < (S r).prod, |f.value c r p| ≤ ms.getD c 0) ∧
      ∃ r ∈ R, ∃ p < (S r).prod, |f.value c r p| = ms.getD c 0 := by
  have key : ∀ d : Dict K, Full R S d → ∃ m : K, ((d.mapM fun p => maxOf (p.2.data.map fun x => |x|)).bind maxOf) = some m ∧
      (∀ r ∈ R, ∀ p < (S r).prod, |entry d r p| ≤ m) ∧ ∃ r ∈ R, ∃ p < (S r).prod, |entry d r p| = m := by
    intro d hd
    have hex : ∀ p ∈ d, ∃ m, maxOf (p.2.data.map fun x => |x|) = some m ∧
        m ∈ (p.2.data.map fun x => |x|) ∧ ∀ y ∈ p.2.data.map fun x => |x|, y ≤ m := by
      intro p hp
      apply maxOf_exists
      have := hS p.1 ((hd.keys _).1 (List.mem_map_of_mem hp))
      rw [← (hd.shape p hp).2] at this
      intro e
      rw [List.map_eq_nil_iff] at e
      rw [e] at this
      simp at this
    obtain ⟨ls, hls⟩ := mapM_exists (f := fun p : ℕ × Arr K => maxOf (p.2.data.map fun x => |x|)) (l := d)
      fun p hp => ⟨_, (hex p hp).choose_spec.1⟩
    obtain ⟨hlen, hget⟩ := mapM_get hls
    have hne : ls ≠ [] := by
      intro e
      rw [e] at hlen
      obtain ⟨r, hr⟩ := List.exists_mem_of_ne_nil R hR
      have hd0 : d = [] := List.length_eq_zero_iff.1 hlen.symm
      have := (hd.keys r).2 hr
      rw [hd0] at this
      cases this
    obtain ⟨m, h1, h2, h3⟩ := maxOf_exists hne
    refine ⟨m, by rw [hls]; exact h1, fun r hr p hp => ?_, ?_⟩
    · obtain ⟨q, hq, rfl⟩ := List.mem_map.1 ((hd.keys r).2 hr)
      obtain ⟨i, hi, rfl⟩ := List.getElem_of_mem hq
      have hl : (d[i].1, d[i].2) ∈ d := hq
      rw [entry_of ((mem_lookup hd.nodup).2 hl)]
      obtain ⟨m', e1, e2, e3⟩ := hex _ hq
      have hg := hget i (0, ⟨[], []⟩) 0 hi
      have e4 : d.getD i (0, ⟨[], []⟩) = d[i] := List.getD_eq_getElem _ _ hi
      rw [e4, e1] at hg
      have hm' : m' ∈ ls := by
        obtain rfl : m' = ls.getD i 0 := by simpa using hg
        exact getD_mem (by omega)
      have hp' : p < d[i].2.data.length := by rw [(hd.shape _ hq).2]; exact hp
      have e5 : d[i].2.data.getD p 0 = d[i].2.data[p] := List.getD_eq_getElem _ _ hp'
      rw [e5]
      exact (e3 _ (List.mem_map.2 ⟨_, List.getElem_mem hp', rfl⟩)).trans (h3 _ hm')
    · obtain ⟨i, hi, rfl⟩ := List.getElem_of_mem h2
      have hi' : i < d.length := by omega
      have hq : d[i] ∈ d := List.getElem_mem hi'
      have hl : (d[i].1, d[i].2) ∈ d := hq
      obtain ⟨m', e1, e2, e3⟩ := hex _ hq
      have hg := hget i (0, ⟨[], []⟩) 0 hi'
      have e4 : d.getD i (0, ⟨[], []⟩) = d[i] := List.getD_eq_getElem _ _ hi'
      have e6 : ls.getD i 0 = ls[i] := List.getD_eq_getElem _ _ hi
      rw [e4, e1, e6] at hg
      obtain rfl : m' = ls[i] := by simpa using hg
      obtain ⟨x, hx, ex⟩ := List.mem_map.1 e2
      obtain ⟨p, hp, rfl⟩ := List.getElem_of_mem hx
      refine ⟨d[i].1, (hd.keys _).1 (List.mem_map_of_mem hq), p, by rw [← (hd.shape _ hq).2]; exact hp, ?_⟩
      rw [entry_of ((mem_lookup hd.nodup).2 hl)]
      have e5 : d[i].2.data.getD p 0 = d[i].2.data[p] := List.getD_eq_getElem _ _ hp
      rw [e5]; exact ex
  have hv : ∀ d ∈ f.val, Full R S d := fun d hd => h.full d (by simp [hd])
  obtain ⟨ms, hms⟩ := mapM_exists (l := f.val)
    (f := fun d : Dict K => (d.mapM fun p => maxOf (p.2.data.map fun x => |x|)).bind maxOf)
    fun d hd => ⟨_, (key d (hv d hd)).choose_spec.1⟩
  obtain ⟨hlen, hget⟩ := mapM_get hms
  refine ⟨ms, hms, hlen, fun c hc => ?_⟩
  obtain ⟨m, h1, h2, h3⟩ := key _ (hv _ (getD_mem (a := []) hc))
  have := hget c [] 0 hc
  rw [h1] at this
  obtain rfl : m = ms.getD c 0 := by simpa using this
  exact ⟨h2, h3⟩

/-- The smallest and the largest of the numbers in a region. -/
def Extent (S : ℕ → List ℕ) (d : Dict K) (r : ℕ) (lo hi : K) : Prop :=
  (∀ p < (S r).prod, lo ≤ entry d r p ∧ entry d r p ≤ hi) ∧
    (∃ p < (S r).prod, entry d r p = lo) ∧ ∃ p < (S r).prod, entry d r p = hi

lemma extent_of {d : Dict K} (hd : Full R S d) {r : ℕ} (hr : r ∈ R) {lo hi : K} (h : Extent S d r lo hi) :
    ∃ a, d.lookup r = some a ∧ a.shape = S r ∧ maxOf a.data = some hi ∧ minOf a.data = some lo := by
  obtain ⟨a, ha, h1, h2⟩ := hd.lookup hr
  have hg : ∀ p (hp : p < a.data.length), entry d r p = a.data[p] := by
    intro p hp
    rw [entry_of ha]
    exact List.getD_eq_getElem _ _ hp
  have hmem : ∀ y ∈ a.data, lo ≤ y ∧ y ≤ hi := by
    intro y hy
    obtain ⟨p, hp, rfl⟩ := List.getElem_of_mem hy
    rw [← hg p hp]
    exact h.1 p (by omega)
  obtain ⟨p, hp, e⟩ := h.2.1
  obtain ⟨q, hq, e'⟩ := h.2.2
  refine ⟨a, ha, h1, maxOf_eq ?_ fun y hy => (hmem y hy).2, minOf_eq ?_ fun y hy => (hmem y hy).1⟩
  · rw [← e', hg q (by omega)]; exact List.getElem_mem _
  · rw [← e, hg p (by omega)]; exact List.getElem_mem _

/-- A constant `c` in the plane, in regions that are the rectangles from `(x0 r, y0 r)` to `(x1 r, y1 r)` with `n r` times
`m r` points: the square of the norm is `c ^ 2` times the areas, each times `m r / n r`. -/
theorem L2_constant {X Y V : Dict K} (h : Good R S ⟨[X, Y], [V]⟩) {n m : ℕ → ℕ} {x0 x1 y0 y1 : ℕ → K} {c : K}
    (hS : ∀ r ∈ R, S r = [n r, m r]) (hn : ∀ r ∈ R, (n r : K) ≠ 0)
    (hX : ∀ r ∈ R, Extent S X r (x0 r) (x1 r)) (hY : ∀ r ∈ R, Extent S Y r (y0 r) (y1 r))
    (hV : ∀ r ∈ R, ∀ p < (S r).prod, entry V r p = c) :
    L2sq ⟨[X, Y], [V]⟩ =
      some [((V.map Prod.fst).map fun r => c ^ 2 * ((x1 r - x0 r) * (y1 r - y0 r)) * (m r / n r)).sum] := by
  have hXf : Full R S X := h.full X (by simp)
  have hYf : Full R S Y := h.full Y (by simp)
  have hVf : Full R S V := h.full V (by simp)
  have hw : ∀ r ∈ R, weight [X, Y] r = some ((x1 r - x0 r) / n r * ((y1 r - y0 r) / n r)) := by
    intro r hr
    obtain ⟨a, ha, a1, a2, a3⟩ := extent_of hXf hr (hX r hr)
    obtain ⟨b, hb, b1, b2, b3⟩ := extent_of hYf hr (hY r hr)
    unfold weight
    rw [List.mapM_cons, List.mapM_cons, List.mapM_nil]
    simp [ha, hb, a1, a2, a3, b1, b2, b3, hS r hr]
  have hreg : ∀ p ∈ V, ((weight [X, Y] p.1).map fun w => (p.2.data.map fun x => x ^ 2 * w).sum) =
      some (c ^ 2 * ((x1 p.1 - x0 p.1) * (y1 p.1 - y0 p.1)) * (m p.1 / n p.1)) := by
    intro p hp
    have hr : p.1 ∈ R := (hVf.keys _).1 (List.mem_map_of_mem hp)
    rw [hw _ hr]
    simp only [Option.map_some, Option.some.injEq]
    obtain ⟨h1, h2⟩ := hVf.shape p hp
    have hp' : (p.1, p.2) ∈ V := hp
    have hall : p.2.data = List.replicate (n p.1 * m p.1) c := by
      rw [List.eq_replicate_iff]
      refine ⟨by rw [h2, hS _ hr]; simp, fun b hb => ?_⟩
      obtain ⟨i, hi, rfl⟩ := List.getElem_of_mem hb
      have := hV p.1 hr i (by omega)
      rw [entry_of ((mem_lookup hVf.nodup).2 hp')] at this
      have e5 : p.2.data.getD i 0 = p.2.data[i] := List.getD_eq_getElem _ _ hi
      rwa [e5] at this
    rw [hall, List.map_replicate, List.sum_replicate, nsmul_eq_mul]
    have := hn _ hr
    push_cast
    field_simp
  have hsum : (V.mapM fun p => (weight [X, Y] p.1).map fun w => (p.2.data.map fun x => x ^ 2 * w).sum) =
      some (V.map fun p => c ^ 2 * ((x1 p.1 - x0 p.1) * (y1 p.1 - y0 p.1)) * (m p.1 / n p.1)) := by
    clear h hVf hV
    induction V with
    | nil => rfl
    | cons p V ih =>
      rw [List.mapM_cons, hreg p (by simp), ih fun q hq => hreg q (by simp [hq])]
      rfl
  unfold L2sq
  rw [List.mapM_cons, List.mapM_nil]
  dsimp only
  rw [hsum, List.map_map]
  rfl

/-- With equally many points in both directions, the norm of a constant is right. -/
theorem L2_square {X Y V : Dict K} (h : Good R S ⟨[X, Y], [V]⟩) {n : ℕ → ℕ} {x0 x1 y0 y1 : ℕ → K} {c : K}
    (hS : ∀ r ∈ R, S r = [n r, n r]) (hn : ∀ r ∈ R, (n r : K) ≠ 0)
    (hX : ∀ r ∈ R, Extent S X r (x0 r) (x1 r)) (hY : ∀ r ∈ R, Extent S Y r (y0 r) (y1 r))
    (hV : ∀ r ∈ R, ∀ p < (S r).prod, entry V r p = c) :
    L2sq ⟨[X, Y], [V]⟩ =
      some [c ^ 2 * ((V.map Prod.fst).map fun r => (x1 r - x0 r) * (y1 r - y0 r)).sum] := by
  have hVf : Full R S V := h.full V (by simp)
  rw [L2_constant h hS hn hX hY hV, ← List.sum_map_mul_left]
  congr 2
  apply congrArg
  apply List.map_congr_left
  intro r hr
  rw [div_self (hn r ((hVf.keys r).1 hr)), mul_one]

end

/-- Two times three points of the unit square. -/
def sq23 : List (Dict ℚ) := [[(0, ⟨[2, 3], [0, 0, 0, 1, 1, 1]⟩)], [(0, ⟨[2, 3], [0, 1 / 2, 1, 0, 1 / 2, 1]⟩)]]

/-- Two times two points of the unit square. -/
def sq22 : List (Dict ℚ) := [[(0, ⟨[2, 2], [0, 0, 1, 1]⟩)], [(0, ⟨[2, 2], [0, 1, 0, 1]⟩)]]

/-- The norm of the constant one on the unit square is not one if there are two times three points; with two times two
points it is. -/
theorem L2_refuted :
    (make sq23 [[(0, ⟨[2, 3], [1, 1, 1, 1, 1, 1]⟩)]]).bind L2sq = some [3 / 2] ∧
    (make sq22 [[(0, ⟨[2, 2], [1, 1, 1, 1]⟩)]]).bind L2sq = some [1] := by
  decide +kernel

/-- The sum of two fields may exist in one order and not in the other one: the comparison of the coordinates is not
symmetric. -/
theorem add_commute_refuted :
    let a : Fld ℚ := ⟨[[(0, ⟨[1], [1]⟩)]], [[(0, ⟨[1], [5]⟩)]]⟩
    let b : Fld ℚ := ⟨[[(0, ⟨[1], [1 - 1001 / 100000000]⟩)]], [[(0, ⟨[1], [6]⟩)]]⟩
    (binary (· + ·) b a).isSome ∧ binary (· + ·) a b = none := by
  refine ⟨by decide +kernel, ?_⟩
  have : (binary (· + ·) (⟨[[(0, ⟨[1], [1]⟩)]], [[(0, ⟨[1], [5]⟩)]]⟩ : Fld ℚ)
    ⟨[[(0, ⟨[1], [1 - 1001 / 100000000]⟩)]], [[(0, ⟨[1], [6]⟩)]]⟩).isSome = false := by decide +kernel
  simpa using this

/-- A vector on the points of the unit square. -/
def vec22 : Fld ℚ := ⟨sq22, [[(0, ⟨[2, 2], [1, 2, 3, 4]⟩)], [(0, ⟨[2, 2], [5, 6, 7, -8]⟩)]]⟩

/-- The hypotheses of `unary_is`, `binary_is`, `dot_is`, `cross_is` and `maximum_is`, and what comes out. -/
example : Good [0] (fun _ => [2, 2]) vec22 ∧ (∀ r ∈ [0], 0 < ((fun _ => [2, 2]) r : List ℕ).prod) ∧
    maximum vec22 = some [4, 8] ∧
    (dot vec22 vec22).map (fun f => f.value 0 0 3) = some 80 ∧
    (unary (3 * ·) vec22).map (fun f => f.value 1 0 3) = some (-24) ∧
    ((unary (3 * ·) vec22).bind fun g => cross vec22 g).map (fun f => f.value 0 0 3) = some 0 ∧
    (binary (· - ·) vec22 vec22).map (fun f => f.value 1 0 3) = some 0 := by
  refine ⟨⟨by decide, by decide, ?_⟩, by decide, by decide +kernel, by decide +kernel, by decide +kernel,
    by decide +kernel, by decide +kernel⟩
  intro d hd
  simp only [vec22, sq22, List.cons_append, List.nil_append, List.mem_cons, List.not_mem_nil, or_false] at hd
  rcases hd with rfl | rfl | rfl | rfl <;>
    exact ⟨by simp, by simp, by simp⟩

/-- The hypotheses of `L2_constant` and `L2_square`. -/
example : Extent (K := ℚ) (fun _ => [2, 2]) [(0, ⟨[2, 2], [0, 0, 1, 1]⟩)] 0 0 1 := by
  unfold Extent
  decide +kernel

/-- The hypothesis of `norm_is`. -/
example : Good [0] (fun _ => [1, 2]) (⟨[[(0, ⟨[1, 2], [0, 1]⟩)], [(0, ⟨[1, 2], [0, 1]⟩)]],
    [[(0, ⟨[1, 2], [3, 5]⟩)], [(0, ⟨[1, 2], [4, 12]⟩)]]⟩ : Fld ℝ) := by
  refine ⟨by simp, by simp, ?_⟩
  intro d hd
  simp only [List.cons_append, List.nil_append, List.mem_cons, List.not_mem_nil, or_false] at hd
  rcases hd with rfl | rfl | rfl | rfl <;>
    exact ⟨by simp, by simp, by simp⟩

end Phyem.Dds
