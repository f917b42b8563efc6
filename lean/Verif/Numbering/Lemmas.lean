import Verif.Numbering.Model
import Mathlib.Data.List.Range
import Mathlib.Data.List.Nodup
import Mathlib.Tactic.Ring
import Mathlib.Tactic.Linarith

namespace Phyem.Numbering

theorem mem_box {a b c i j k : Nat} : (i, j, k) ∈ box a b c ↔ i < a ∧ j < b ∧ k < c := by
  simp [box]; tauto

theorem range'_mul (s a b : Nat) :
    List.range' s (a * b) = (List.range b).flatMap fun j => List.range' (s + a * j) a := by
  induction b with
  | zero => simp
  | succ b ih =>
    rw [List.range_succ, List.flatMap_append, ← ih, Nat.mul_succ, ← List.range'_append_1]
    simp

theorem range'_eq_map (s a : Nat) : List.range' s a = (List.range a).map (fun i => s + i) := by
  rw [List.range'_eq_map_range]

/-- Enumerating an array in the order of the loops gives consecutive numbers. -/
theorem box_map_num (x : Comp) :
    (box x.a x.b x.c).map (fun t => x.num t.1 t.2.1 t.2.2) = List.range' x.base x.size := by
  have h : x.size = (x.a * x.b) * x.c := rfl
  rw [h, range'_mul]
  unfold box
  rw [List.map_flatMap]
  congr 1
  funext k
  rw [range'_mul, List.map_flatMap]
  congr 1
  funext j
  rw [range'_eq_map, List.map_map]
  apply List.map_congr_left
  intro i _
  simp only [Function.comp, Comp.num]
  ring

/-- Components stacked one after the other from `s` to `e`. -/
def Stacked : Nat → List Comp → Nat → Prop
  | s, [], e => s = e
  | s, x :: xs, e => x.base = s ∧ Stacked (s + x.size) xs e

theorem Stacked.le : ∀ {xs : List Comp} {s e : Nat}, Stacked s xs e → s ≤ e := by
  intro xs
  induction xs with
  | nil => intro s e h; exact le_of_eq h
  | cons x xs ih => intro s e h; have := ih h.2; omega

theorem Stacked.enum : ∀ {xs : List Comp} {s e : Nat}, Stacked s xs e →
    (xs.flatMap fun x => (box x.a x.b x.c).map (fun t => x.num t.1 t.2.1 t.2.2)) =
      List.range' s (e - s) := by
  intro xs
  induction xs with
  | nil => intro s e h; simp only [Stacked] at h; subst h; simp
  | cons x xs ih =>
    intro s e h
    obtain ⟨h1, h2⟩ := h
    have hle := h2.le
    rw [List.flatMap_cons, ih h2, box_map_num, h1]
    have : e - s = x.size + (e - (s + x.size)) := by omega
    rw [this, ← List.range'_append_1]

theorem num_lt (x : Comp) {i j k : Nat} (h : x.valid i j k) :
    x.base ≤ x.num i j k ∧ x.num i j k < x.base + x.size := by
  have hm : x.num i j k ∈ List.range' x.base x.size := by
    rw [← box_map_num]
    exact List.mem_map.2 ⟨(i, j, k), mem_box.2 h, rfl⟩
  simpa using hm

theorem digit {a i i' m m' : Nat} (hi : i < a) (hi' : i' < a) (h : i + a * m = i' + a * m') :
    i = i' ∧ m = m' := by
  have h1 : (i + a * m) % a = (i' + a * m') % a := by rw [h]
  rw [Nat.add_mul_mod_self_left, Nat.add_mul_mod_self_left, Nat.mod_eq_of_lt hi,
    Nat.mod_eq_of_lt hi'] at h1
  subst h1
  refine ⟨rfl, ?_⟩
  have : a * m = a * m' := by omega
  exact Nat.eq_of_mul_eq_mul_left (by omega) this

theorem num_inj (x : Comp) {i j k i' j' k' : Nat} (h : x.valid i j k) (h' : x.valid i' j' k')
    (e : x.num i j k = x.num i' j' k') : i = i' ∧ j = j' ∧ k = k' := by
  unfold Comp.num at e
  obtain ⟨h1, h2⟩ := digit h.1 h'.1 (Nat.add_left_cancel e)
  obtain ⟨h3, h4⟩ := digit h.2.1 h'.2.1 h2
  exact ⟨h1, h3, h4⟩

theorem Stacked.bounds : ∀ {xs : List Comp} {s e : Nat}, Stacked s xs e →
    ∀ (t : Nat) (x : Comp), xs[t]? = some x → s ≤ x.base ∧ x.base + x.size ≤ e := by
  intro xs
  induction xs with
  | nil => intro s e h t x hx; simp at hx
  | cons y ys ih =>
    intro s e h t x hx
    cases t with
    | zero => simp at hx; subst hx; have := h.2.le; have := h.1; omega
    | succ t => have := ih h.2 t x (by simpa using hx); omega

theorem Stacked.disjoint : ∀ {xs : List Comp} {s e : Nat}, Stacked s xs e →
    ∀ (t t' : Nat) (x x' : Comp), xs[t]? = some x → xs[t']? = some x' → t < t' → x.base + x.size ≤ x'.base := by
  intro xs
  induction xs with
  | nil => intro s e h t t' x x' hx; simp at hx
  | cons y ys ih =>
    intro s e h t t' x x' hx hx' htt
    cases t' with
    | zero => omega
    | succ t' =>
      cases t with
      | zero =>
        simp at hx; subst hx
        have := h.2.bounds t' x' (by simpa using hx')
        have := h.1; omega
      | succ t => exact ih h.2 t t' x x' (by simpa using hx) (by simpa using hx') (by omega)

/-- Every number below the total is the number of exactly one dof. -/
theorem Stacked.bijective {xs : List Comp} {e : Nat} (h : Stacked 0 xs e) :
    (∀ (t : Nat) (x : Comp) (i j k : Nat), xs[t]? = some x → x.valid i j k → x.num i j k < e) ∧
    ∀ n < e, ∃ (t : Nat) (x : Comp) (i j k : Nat), (xs[t]? = some x ∧ x.valid i j k ∧ x.num i j k = n) ∧
      ∀ (t' : Nat) (x' : Comp) (i' j' k' : Nat), xs[t']? = some x' → x'.valid i' j' k' → x'.num i' j' k' = n →
        t' = t ∧ i' = i ∧ j' = j ∧ k' = k := by
  constructor
  · intro t x i j k hx hv
    have := num_lt x hv
    have := h.bounds t x hx
    omega
  · intro n hn
    have hm : n ∈ List.range' 0 (e - 0) := by simp; omega
    rw [← h.enum] at hm
    simp only [List.mem_flatMap, List.mem_map] at hm
    obtain ⟨x, hx, ⟨⟨i, j, k⟩, hb, hnum⟩⟩ := hm
    obtain ⟨t, ht⟩ := List.mem_iff_getElem?.1 hx
    have hv : x.valid i j k := mem_box.1 hb
    refine ⟨t, x, i, j, k, ⟨ht, hv, hnum⟩, ?_⟩
    intro t' x' i' j' k' ht' hv' hnum'
    have b1 := num_lt x hv
    have b2 := num_lt x' hv'
    simp only at hnum
    rcases Nat.lt_trichotomy t t' with hlt | heq | hgt
    · have := h.disjoint t t' x x' ht ht' hlt; omega
    · subst heq
      rw [ht] at ht'
      cases ht'
      obtain ⟨e1, e2, e3⟩ := num_inj x hv' hv (by omega)
      exact ⟨rfl, e1, e2, e3⟩
    · have := h.disjoint t' t x' x ht' ht hgt; omega

theorem st33 (px py pz : Nat) : Stacked 0 (ln33 px py pz) (nd33 px py pz) := by
  simp [ln33, nd33, Stacked, Comp.size]
theorem st32 (px py pz : Nat) : Stacked 0 (ln32 px py pz) (nd32 px py pz) := by
  simp [ln32, nd32, Stacked, Comp.size]
theorem st31 (px py pz : Nat) : Stacked 0 (ln31 px py pz) (nd31 px py pz) := by
  simp [ln31, nd31, Stacked, Comp.size]
theorem st30 (px py pz : Nat) : Stacked 0 (ln30 px py pz) (nd30 px py pz) := by
  simp [ln30, nd30, Stacked, Comp.size]
theorem st20 (px py : Nat) : Stacked 0 (ln20 px py) (nd20 px py) := by
  simp [ln20, nd20, Stacked, Comp.size]
theorem st21o (px py : Nat) : Stacked 0 (ln21o px py) (nd21 px py) := by
  simp [ln21o, nd21, Stacked, Comp.size]
theorem st21i (px py : Nat) : Stacked 0 (ln21i px py) (nd21 px py) := by
  simp [ln21i, nd21, Stacked, Comp.size]; ring
theorem st22 (px py : Nat) : Stacked 0 (ln22 px py) (nd22 px py) := by
  simp [ln22, nd22, Stacked, Comp.size]
theorem st10 (p : Nat) : Stacked 0 (ln10 p) (nd10 p) := by
  simp [ln10, nd10, Stacked, Comp.size]
theorem st11 (p : Nat) : Stacked 0 (ln11 p) (nd11 p) := by
  simp [ln11, nd11, Stacked, Comp.size]

end Phyem.Numbering
