import Verif.Integrals.Model
import Mathlib.Tactic.Linarith
import Mathlib.Tactic.FieldSimp
import Mathlib.Tactic.NormNum
import Mathlib.Tactic.Ring
import Mathlib.Data.List.GetD

/-! # CFL numbers -/

namespace Phyem.Integrals

lemma foldl_max (l : List ℚ) : ∀ x : ℚ, (x ≤ l.foldl max x) ∧ (∀ y ∈ l, y ≤ l.foldl max x) ∧ (l.foldl max x = x ∨ l.foldl max x ∈ l) := by
  induction l with
  | nil => intro x; simp
  | cons z l ih =>
    intro x
    simp only [List.foldl_cons]
    obtain ⟨h1, h2, h3⟩ := ih (max x z)
    refine ⟨(le_max_left _ _).trans h1, ?_, ?_⟩
    · intro y hy
      rcases List.mem_cons.1 hy with rfl | hy
      · exact (le_max_right _ _).trans h1
      · exact h2 y hy
    · rcases h3 with h3 | h3
      · rcases max_choice x z with h | h
        · left; rw [h3, h]
        · right; rw [h3, h]; simp
      · right; exact List.mem_cons_of_mem _ h3

lemma pyMax_spec {l : List ℚ} {m : ℚ} (h : pyMax l = some m) : m ∈ l ∧ ∀ y ∈ l, y ≤ m := by
  cases l with
  | nil => cases h
  | cons x l =>
    have := Option.some.inj h
    obtain ⟨h1, h2, h3⟩ := foldl_max l x
    rw [this] at h1 h2 h3
    refine ⟨?_, ?_⟩
    · rcases h3 with rfl | h3
      · simp
      · exact List.mem_cons_of_mem _ h3
    · intro y hy
      rcases List.mem_cons.1 hy with rfl | hy
      · exact h1
      · exact h2 y hy

lemma density_pos (ddf : ℚ) : 17 ≤ density ddf ∧ density ddf ≤ 99 := by
  unfold density
  simp only
  split_ifs <;> omega

/-- The points at which the components are sampled are in the element, not on its border; there are at least 16 and at most 98 in a direction, 32 for
the usual factor. -/
theorem middles_inside (ddf : ℚ) : 16 ≤ (middles (density ddf)).length ∧ (middles (density ddf)).length ≤ 98 ∧ (middles (density 1)).length = 32 ∧
    ∀ x ∈ middles (density ddf), -1 < x ∧ x < 1 := by
  obtain ⟨h1, h2⟩ := density_pos ddf
  refine ⟨by simp [middles]; omega, by simp [middles]; omega, by decide +kernel, ?_⟩
  intro x hx
  generalize density ddf = k at *
  simp only [middles, List.mem_map, List.mem_range] at hx
  obtain ⟨i, hi, rfl⟩ := hx
  have hk : (0 : ℚ) < ((k - 1 : ℕ) : ℚ) := by exact_mod_cast (by omega : 0 < k - 1)
  have hi' : ((i : ℕ) : ℚ) + 1 ≤ ((k - 1 : ℕ) : ℚ) := by exact_mod_cast hi
  have hi0 : (0 : ℚ) ≤ i := Nat.cast_nonneg i
  have e : (-1 + 2 * ((i + 1 : ℕ) : ℚ) / ((k - 1 : ℕ) : ℚ) + (-1 + 2 * (i : ℚ) / ((k - 1 : ℕ) : ℚ))) / 2 =
      -1 + (2 * i + 1) / ((k - 1 : ℕ) : ℚ) := by
    push_cast
    field_simp
    ring
  rw [e]
  constructor
  · have : (0 : ℚ) < (2 * i + 1) / ((k - 1 : ℕ) : ℚ) := div_pos (by linarith) hk
    linarith
  · have : (2 * i + 1) / ((k - 1 : ℕ) : ℚ) < 2 := by rw [div_lt_iff₀ hk]; linarith
    linarith

/-- The CFL number is the largest part of a side that a sampled velocity passes in `dt`: all pass at most this part, and one passes it. -/
theorem cfl_spec {U V : List ℚ} {hx hy dt c : ℚ} (hhx : 0 < hx) (hhy : 0 < hy) (hdt : 0 ≤ dt) (h : cfl U V hx hy dt = some c) :
    (∀ u ∈ U, |u| * dt ≤ c * hx) ∧ (∀ v ∈ V, |v| * dt ≤ c * hy) ∧ ((∃ u ∈ U, |u| * dt = c * hx) ∨ ∃ v ∈ V, |v| * dt = c * hy) := by
  unfold cfl at h
  rcases hu : pyMax (U.map fun x => |x|) with _ | u
  · rw [hu] at h; cases h
  rcases hv : pyMax (V.map fun x => |x|) with _ | v
  · rw [hu, hv] at h; cases h
  rw [hu, hv] at h
  have h : max (u * dt / hx) (v * dt / hy) = c := Option.some.inj h
  obtain ⟨hu1, hu2⟩ := pyMax_spec hu
  obtain ⟨hv1, hv2⟩ := pyMax_spec hv
  have hcu : u * dt ≤ c * hx := by rw [← div_le_iff₀ hhx, ← h]; exact le_max_left _ _
  have hcv : v * dt ≤ c * hy := by rw [← div_le_iff₀ hhy, ← h]; exact le_max_right _ _
  refine ⟨fun x hx' => ?_, fun y hy' => ?_, ?_⟩
  · exact (mul_le_mul_of_nonneg_right (hu2 _ (List.mem_map_of_mem hx')) hdt).trans hcu
  · exact (mul_le_mul_of_nonneg_right (hv2 _ (List.mem_map_of_mem hy')) hdt).trans hcv
  · rcases max_choice (u * dt / hx) (v * dt / hy) with h1 | h1
    · left
      obtain ⟨x, hx', rfl⟩ := List.mem_map.1 hu1
      refine ⟨x, hx', ?_⟩
      rw [← h, h1]
      field_simp
    · right
      obtain ⟨x, hx', rfl⟩ := List.mem_map.1 hv1
      refine ⟨x, hx', ?_⟩
      rw [← h, h1]
      field_simp

/-- So it is at most one exactly if no sampled velocity passes more than a side in `dt`. -/
theorem cfl_le_one {U V : List ℚ} {hx hy dt c : ℚ} (hhx : 0 < hx) (hhy : 0 < hy) (hdt : 0 ≤ dt) (h : cfl U V hx hy dt = some c) :
    c ≤ 1 ↔ (∀ u ∈ U, |u| * dt ≤ hx) ∧ ∀ v ∈ V, |v| * dt ≤ hy := by
  obtain ⟨h1, h2, h3⟩ := cfl_spec hhx hhy hdt h
  constructor
  · intro hc
    refine ⟨fun u hu => (h1 u hu).trans ?_, fun v hv => (h2 v hv).trans ?_⟩
    · nlinarith
    · nlinarith
  · rintro ⟨g1, g2⟩
    rcases h3 with ⟨u, hu, h3⟩ | ⟨v, hv, h3⟩
    · have := g1 u hu
      rw [h3] at this
      exact le_of_mul_le_mul_right (by linarith) hhx
    · have := g2 v hv
      rw [h3] at this
      exact le_of_mul_le_mul_right (by linarith) hhy

example : cfl [1, -3] [2, 0] (1 / 2) 1 (1 / 10) = some (3 / 5) := by decide +kernel

lemma pyMax_isSome {l : List ℚ} (h : l ≠ []) : ∃ m, pyMax l = some m := by
  cases l with
  | nil => exact absurd rfl h
  | cons x l => exact ⟨_, rfl⟩

/-- The number grows with the step of time, and in proportion to it. -/
theorem cfl_scale {U V : List ℚ} {hx hy dt c s : ℚ} (hs : 0 ≤ s) (h : cfl U V hx hy dt = some c) : cfl U V hx hy (s * dt) = some (s * c) := by
  unfold cfl at h ⊢
  rcases hu : pyMax (U.map fun x => |x|) with _ | u
  · rw [hu] at h; cases h
  rcases hv : pyMax (V.map fun x => |x|) with _ | v
  · rw [hu, hv] at h; cases h
  rw [hu, hv] at h
  have h : max (u * dt / hx) (v * dt / hy) = c := Option.some.inj h
  show some _ = some _
  rw [← h, mul_max_of_nonneg _ _ hs]
  congr 2 <;> ring

lemma sample_ne (u : ℚ → ℚ → ℚ) (ddf : ℚ) : sample ddf u ≠ [] := by
  intro h
  have : (sample ddf u).length = (middles (density ddf)).length * (middles (density ddf)).length := by
    simp [sample, List.length_flatMap]
  rw [h] at this
  have h1 := (middles_inside ddf).1
  simp only [List.length_nil] at this
  have := Nat.mul_self_le_mul_self h1
  omega

lemma mem_sample {u : ℚ → ℚ → ℚ} {ddf v : ℚ} : v ∈ sample ddf u ↔ ∃ x ∈ middles (density ddf), ∃ y ∈ middles (density ddf), u x y = v := by
  simp only [sample, List.mem_flatMap, List.mem_map]
  constructor
  · rintro ⟨y, hy, x, hx, h⟩; exact ⟨x, hx, y, hy, h⟩
  · rintro ⟨x, hx, y, hy, h⟩; exact ⟨y, hy, x, hx, h⟩

/-! ### All elements -/

lemma put_fresh {V : Type} (d : Dict ℕ V) (k : ℕ) (v : V) (h : k ∉ Dict.keys d) : Dict.put d k v = d ++ [(k, v)] := by
  induction d with
  | nil => rfl
  | cons p d ih =>
    simp only [Dict.keys, List.map_cons, List.mem_cons, not_or] at h
    unfold Dict.put
    rw [if_neg (fun e => h.1 e.symm), ih h.2]
    rfl

lemma fold_put {V : Type} : ∀ (d acc : Dict ℕ V), (Dict.keys (acc ++ d)).Nodup → d.foldl (fun acc p => Dict.put acc p.1 p.2) acc = acc ++ d
  | [], acc, _ => by simp
  | p :: d, acc, h => by
    simp only [List.foldl_cons]
    have hf : p.1 ∉ Dict.keys acc := by
      simp only [Dict.keys, List.map_append, List.map_cons, List.nodup_append] at h
      intro hp
      exact h.2.2 _ hp _ (by simp) rfl
    rw [put_fresh _ _ _ hf, fold_put d _ (by simpa using h)]
    simp

/-- Dictionaries of ranks with different keys are put together, none is lost. -/
lemma merge_flatten {V : Type} (ds : List (Dict ℕ V)) (h : (Dict.keys ds.flatten).Nodup) : merge ds = ds.flatten := by
  have key : ∀ (ds : List (Dict ℕ V)) (acc : Dict ℕ V), (Dict.keys (acc ++ ds.flatten)).Nodup →
      ds.foldl (fun acc d => d.foldl (fun acc p => Dict.put acc p.1 p.2) acc) acc = acc ++ ds.flatten := by
    intro ds
    induction ds with
    | nil => intro acc _; simp
    | cons d ds ih =>
      intro acc h
      simp only [List.foldl_cons, List.flatten_cons]
      rw [fold_put d acc, ih]
      · simp
      · simpa using h
      · simp only [Dict.keys, List.flatten_cons, List.map_append, ← List.append_assoc] at h ⊢
        exact (List.nodup_append.1 h).1
  have := key ds [] (by simpa using h)
  simpa [merge] using this

lemma mapM_forall {α β : Type} {f : α → Option β} : ∀ {l : List α} {r : List β}, l.mapM f = some r → List.Forall₂ (fun x y => f x = some y) l r
  | [], r, h => by cases h; exact List.Forall₂.nil
  | x :: l, r, h => by
    rw [List.mapM_cons] at h
    rcases hx : f x with _ | y
    · rw [hx] at h; cases h
    · rcases hl : l.mapM f with _ | ys
      · rw [hx, hl] at h; cases h
      · rw [hx, hl] at h
        cases h
        exact List.Forall₂.cons hx (mapM_forall hl)

lemma mapM_total {α β : Type} {f : α → Option β} : ∀ {l : List α}, (∀ x ∈ l, ∃ y, f x = some y) → ∃ r, l.mapM f = some r
  | [], _ => ⟨[], rfl⟩
  | x :: l, h => by
    obtain ⟨y, hy⟩ := h x (by simp)
    obtain ⟨ys, hys⟩ := mapM_total (l := l) fun z hz => h z (List.mem_cons_of_mem _ hz)
    refine ⟨y :: ys, ?_⟩
    rw [List.mapM_cons, hy, hys]
    rfl

/-- The row of the file for an element. -/
def row (dt : ℚ) (p : ℕ × Elem) : Option (ℕ × ℚ) :=
  if p.2.rectangle then (cfl (sample 1 p.2.u) (sample 1 p.2.v) p.2.hx p.2.hy dt).map fun c => (p.1, c) else none

lemma row_keys {dt : ℚ} {l : List (ℕ × Elem)} {r : List (ℕ × ℚ)} (h : List.Forall₂ (fun p y => row dt p = some y) l r) : Dict.keys r = Dict.keys l := by
  induction h with
  | nil => rfl
  | cons h _ ih =>
    simp only [Dict.keys, List.map_cons] at ih ⊢
    rw [ih]
    congr 1
    unfold row at h
    split_ifs at h
    obtain ⟨c, _, rfl⟩ := Option.map_eq_some_iff.1 h
    rfl

lemma flatten_rows {dt : ℚ} {ranks : List (Dict ℕ Elem)} {ds : List (Dict ℕ ℚ)} (h : List.Forall₂ (fun es d => cflDict es dt = some d) ranks ds) :
    List.Forall₂ (fun p y => row dt p = some y) ranks.flatten ds.flatten := by
  induction h with
  | nil => exact List.Forall₂.nil
  | cons h _ ih => exact List.rel_append (mapM_forall h) ih

lemma forall_mem {α β : Type} {R : α → β → Prop} {l : List α} {r : List β} (h : List.Forall₂ R l r) {x : α} (hx : x ∈ l) : ∃ y ∈ r, R x y := by
  induction h with
  | nil => cases hx
  | cons h _ ih =>
    rcases List.mem_cons.1 hx with rfl | hx
    · exact ⟨_, by simp, h⟩
    · obtain ⟨y, hy, h⟩ := ih hx
      exact ⟨y, List.mem_cons_of_mem _ hy, h⟩

/-- The exported numbers: each element of each rank once, with its own number; the table lists the elements of the form and no others. -/
theorem export_spec {ranks : List (Dict ℕ Elem)} {dt : ℚ} {D : Dict ℕ ℚ} (hn : (Dict.keys ranks.flatten).Nodup) (h : export_ 2 1 ranks dt = some D) :
    Dict.keys D = Dict.keys ranks.flatten ∧
    ∀ p ∈ ranks.flatten, p.2.rectangle = true ∧ ∃ c, Dict.get D p.1 = some c ∧ cfl (sample 1 p.2.u) (sample 1 p.2.v) p.2.hx p.2.hy dt = some c := by
  unfold export_ at h
  rw [if_pos ⟨rfl, rfl⟩] at h
  obtain ⟨ds, hds, rfl⟩ := Option.map_eq_some_iff.1 h
  have hf := flatten_rows (mapM_forall hds)
  have hk := row_keys hf
  rw [merge_flatten ds (by rw [hk]; exact hn)]
  refine ⟨hk, ?_⟩
  intro p hp
  have : ∃ y ∈ ds.flatten, row dt p = some y := forall_mem hf hp
  obtain ⟨y, hy, hr⟩ := this
  unfold row at hr
  split_ifs at hr with h1
  obtain ⟨c, hc, rfl⟩ := Option.map_eq_some_iff.1 hr
  exact ⟨h1, c, Dict.get_of_mem _ (by rw [hk]; exact hn) _ _ hy, hc⟩

/-- It is exported exactly for 1-forms on meshes of the plane all of whose elements are orthogonal rectangles. -/
theorem export_defined {d k : ℕ} {ranks : List (Dict ℕ Elem)} {dt : ℚ} :
    (export_ d k ranks dt).isSome ↔ d = 2 ∧ k = 1 ∧ ∀ p ∈ ranks.flatten, p.2.rectangle = true := by
  constructor
  · intro h
    obtain ⟨D, h⟩ := Option.isSome_iff_exists.1 h
    unfold export_ at h
    split_ifs at h with h1
    obtain ⟨ds, hds, rfl⟩ := Option.map_eq_some_iff.1 h
    have hf := flatten_rows (mapM_forall hds)
    refine ⟨h1.1, h1.2, ?_⟩
    intro p hp
    obtain ⟨y, _, h2⟩ := forall_mem hf hp
    unfold row at h2
    split_ifs at h2 with h3
    exact h3
  · rintro ⟨rfl, rfl, h⟩
    unfold export_
    rw [if_pos ⟨rfl, rfl⟩]
    have : ∃ ds, (ranks.mapM fun es => cflDict es dt) = some ds := by
      apply mapM_total
      intro es hes
      apply mapM_total
      intro p hp
      rw [if_pos (h p (List.mem_flatten.2 ⟨es, hes, hp⟩))]
      obtain ⟨u, hu⟩ := pyMax_isSome (l := (sample 1 p.2.u).map fun x => |x|) (by simp [sample_ne])
      obtain ⟨v, hv⟩ := pyMax_isSome (l := (sample 1 p.2.v).map fun x => |x|) (by simp [sample_ne])
      refine ⟨(p.1, max (u * dt / p.2.hx) (v * dt / p.2.hy)), ?_⟩
      unfold cfl
      rw [hu, hv]
      rfl
    obtain ⟨ds, hds⟩ := this
    rw [hds]
    rfl

/-- An element where the velocity is constant, and one where it is not. -/
def exElem (a b : ℚ) : Elem := ⟨true, 1, 1 / 2, fun x _ => a + b * x, fun _ _ => 1⟩

example : (Dict.keys ([[(3, exElem 1 0)], [(5, exElem 0 1)]] : List (Dict ℕ Elem)).flatten).Nodup ∧
    ∀ p ∈ ([[(3, exElem 1 0)], [(5, exElem 0 1)]] : List (Dict ℕ Elem)).flatten, p.2.rectangle = true := by
  refine ⟨by decide, ?_⟩
  intro p hp
  simp at hp
  rcases hp with rfl | rfl <;> rfl

/-- The number does not bound the velocity in the whole element: the border is not sampled. For a velocity that grows to one at the border of an
element with sides two and time step two, the number is smaller than one. -/
theorem cfl_border_refuted : ∃ (u v : ℚ → ℚ → ℚ) (c : ℚ), cfl (sample 1 u) (sample 1 v) 2 2 2 = some c ∧ c < 1 ∧ |u 1 0| * 2 = 2 := by
  obtain ⟨mu, hu⟩ := pyMax_isSome (l := (sample 1 (fun x _ => x)).map fun x => |x|) (by simp [sample_ne])
  obtain ⟨mv, hv⟩ := pyMax_isSome (l := (sample 1 (fun _ _ => 0)).map fun x => |x|) (by simp [sample_ne])
  refine ⟨fun x _ => x, fun _ _ => 0, max (mu * 2 / 2) (mv * 2 / 2), ?_, ?_, by norm_num⟩
  · unfold cfl
    rw [hu, hv]
    rfl
  · obtain ⟨y, hy, h1⟩ := List.mem_map.1 (pyMax_spec hu).1
    obtain ⟨x, hx, _, _, h2⟩ := mem_sample.1 hy
    obtain ⟨z, hz, h3⟩ := List.mem_map.1 (pyMax_spec hv).1
    obtain ⟨_, _, _, _, h4⟩ := mem_sample.1 hz
    obtain ⟨g1, g2⟩ := (middles_inside 1).2.2.2 x hx
    rw [← h4] at h3
    rw [← h2] at h1
    rw [← h1, ← h3]
    have : |x| < 1 := abs_lt.2 ⟨g1, g2⟩
    rw [max_lt_iff]
    constructor
    · linarith
    · norm_num

end Phyem.Integrals
