import Verif.Derived.Model
import Mathlib.Algebra.BigOperators.Ring.Finset
import Mathlib.Algebra.BigOperators.Group.Finset.Sigma
import Mathlib.Data.List.Perm.Subperm
import Mathlib.Tactic.FieldSimp

/-! What sums, differences and derivatives give. -/

namespace Phyem.Derived

open Phyem.Dict Phyem.Cochain Phyem.Chaining

/-- The base forms that a form is made of. -/
def leaves : Form → List ℕ
  | .base i => [i]
  | .add a b => leaves a ++ leaves b
  | .sub a b => leaves a ++ leaves b
  | .d _ _ a => leaves a

lemma joint_iff (s t : Option ℚ) (r : ℚ) : joint s t = some r ↔ s = some r ∧ t = some r := by
  cases s with
  | none => simp [joint]
  | some s =>
    cases t with
    | none => simp [joint]
    | some t =>
      by_cases h : t = s
      · subst h; simp [joint]
      · simp only [joint, if_neg h, reduceCtorEq, Option.some.injEq, false_iff, not_and]
        rintro rfl; exact h

/-- C191: a form has a newest time iff it is the newest time of all the forms it is made of. -/
theorem newest_iff (w : World) (f : Form) (t : ℚ) : newest w f = some t ↔ ∀ i ∈ leaves f, (w i).newest = some t := by
  induction f with
  | base i => simp [newest, leaves]
  | add a b iha ihb => rw [newest, joint_iff, iha, ihb, leaves]; simp only [List.mem_append, or_imp, forall_and]
  | sub a b iha ihb => rw [newest, joint_iff, iha, ihb, leaves]; simp only [List.mem_append, or_imp, forall_and]
  | d n E a ih => exact ih

lemma parse_eq (f : Form) (t : ℚ) : parse f t = some (parseT t) := by
  induction f with
  | base i => rfl
  | add a b iha ihb => rw [parse, joint_iff]; exact ⟨iha, ihb⟩
  | sub a b iha ihb => rw [parse, joint_iff]; exact ⟨iha, ihb⟩
  | d n E a ih => exact ih

/-- Times that are rounded to the same give the same. -/
lemma loc_parse (w : World) (f : Form) (t : ℚ) : loc w f (some (parseT t)) = loc w f (some t) := by
  cases f with
  | base i => simp only [loc, getItem, parseT_parseT]
  | _ => simp only [loc, instant, parse_eq, parseT_parseT]

/-- C191: a form has a cochain at a time iff all the forms it is made of have one at this time, rounded to eight digits. -/
theorem defined_iff (w : World) (f : Form) (t : ℚ) : (loc w f (some t)).isSome ↔ ∀ i ∈ leaves f, parseT t ∈ (w i).tcd.keys := by
  induction f with
  | base i => simp only [loc, getItem, leaves, List.mem_singleton, forall_eq, get_isSome]
  | add a b iha ihb =>
    simp only [loc, instant, parse_eq, Option.bind_some, loc_parse, leaves, List.mem_append, or_imp, forall_and, ← iha, ← ihb]
    cases loc w a (some t) <;> cases loc w b (some t) <;> simp
  | sub a b iha ihb =>
    simp only [loc, instant, parse_eq, Option.bind_some, loc_parse, leaves, List.mem_append, or_imp, forall_and, ← iha, ← ihb]
    cases loc w a (some t) <;> cases loc w b (some t) <;> simp
  | d n E a ih =>
    simp only [loc, instant, parse_eq, Option.bind_some, loc_parse, leaves, ← ih]
    cases loc w a (some t) <;> simp

/-- C191: the sum of two forms at a time is the sum of the two at this time. -/
theorem add_iff (w : World) (a b : Form) (t : ℚ) (z : Mat) :
    loc w (.add a b) (some t) = some z ↔ ∃ x y, loc w a (some t) = some x ∧ loc w b (some t) = some y ∧ ∀ e k, z e k = x e k + y e k := by
  simp only [loc, instant, parse_eq, Option.bind_some, loc_parse]
  have fe : ∀ u v : Mat, u = v ↔ ∀ e k, v e k = u e k := fun u v => ⟨fun h _ _ => h ▸ rfl, fun h => funext fun e => funext fun k => (h e k).symm⟩
  cases loc w a (some t) <;> cases loc w b (some t) <;>
    simp only [Option.bind_some, Option.bind_none, Option.map_some, Option.map_none, reduceCtorEq, false_and, and_false, exists_false, Option.some.injEq,
      false_iff, not_false_eq_true]
  rw [fe]
  exact ⟨fun h => ⟨_, _, rfl, rfl, h⟩, fun ⟨x, y, hx, hy, h⟩ => by subst hx hy; exact h⟩

/-- C191: so is the difference. -/
theorem sub_iff (w : World) (a b : Form) (t : ℚ) (z : Mat) :
    loc w (.sub a b) (some t) = some z ↔ ∃ x y, loc w a (some t) = some x ∧ loc w b (some t) = some y ∧ ∀ e k, z e k = x e k - y e k := by
  simp only [loc, instant, parse_eq, Option.bind_some, loc_parse]
  have fe : ∀ u v : Mat, u = v ↔ ∀ e k, v e k = u e k := fun u v => ⟨fun h _ _ => h ▸ rfl, fun h => funext fun e => funext fun k => (h e k).symm⟩
  cases loc w a (some t) <;> cases loc w b (some t) <;>
    simp only [Option.bind_some, Option.bind_none, Option.map_some, Option.map_none, reduceCtorEq, false_and, and_false, exists_false, Option.some.injEq,
      false_iff, not_false_eq_true]
  rw [fe]
  exact ⟨fun h => ⟨_, _, rfl, rfl, h⟩, fun ⟨x, y, hx, hy, h⟩ => by subst hx hy; exact h⟩

/-- C191: and the derivative is the incidence matrix times the cochain, element by element. -/
theorem d_iff (w : World) (n : ℕ) (E : ℕ → ℕ → ℤ) (a : Form) (t : ℚ) (z : Mat) :
    loc w (.d n E a) (some t) = some z ↔ ∃ x, loc w a (some t) = some x ∧ ∀ e k, z e k = ∑ j ∈ Finset.range n, (E k j : ℚ) * x e j := by
  simp only [loc, instant, parse_eq, Option.bind_some, loc_parse]
  have fe : ∀ u v : Mat, u = v ↔ ∀ e k, v e k = u e k := fun u v => ⟨fun h _ _ => h ▸ rfl, fun h => funext fun e => funext fun k => (h e k).symm⟩
  cases loc w a (some t) <;>
    simp only [Option.map_some, Option.map_none, reduceCtorEq, false_and, exists_false, Option.some.injEq, exists_eq_left']
  exact fe _ _

/-- C191: without a time, a form that was made of others is taken at their common newest time; it is refused if there is none. -/
theorem default_iff (w : World) (f : Form) (hf : ∀ i, f ≠ .base i) (z : Mat) :
    loc w f none = some z ↔ ∃ t, (∀ i ∈ leaves f, (w i).newest = some t) ∧ loc w f (some t) = some z := by
  have key : loc w f none = (newest w f).bind fun t => loc w f (some t) := by
    cases f with
    | base i => exact absurd rfl (hf i)
    | add a b => simp only [loc, instant]; cases newest w (.add a b) <;> rfl
    | sub a b => simp only [loc, instant]; cases newest w (.sub a b) <;> rfl
    | d n E a => simp only [loc, instant]; cases newest w (.d n E a) <;> rfl
  rw [key, Option.bind_eq_some_iff]
  simp only [newest_iff]

/-- C191: the derivative of a sum is the sum of the derivatives, at every time. -/
theorem d_add (w : World) (n : ℕ) (E : ℕ → ℕ → ℤ) (a b : Form) (t : ℚ) :
    loc w (.d n E (.add a b)) (some t) = loc w (.add (.d n E a) (.d n E b)) (some t) := by
  simp only [loc, instant, parse_eq, Option.bind_some, loc_parse]
  cases loc w a (some t) <;> cases loc w b (some t) <;> simp only [Option.bind_some, Option.bind_none, Option.map_some, Option.map_none]
  rename_i x y
  refine congrArg some (funext fun e => funext fun k => ?_)
  simp only [applyD, mul_add, Finset.sum_add_distrib]

/-- C191: a form minus itself is zero. -/
theorem sub_self (w : World) (a : Form) (t : ℚ) (z : Mat) (h : loc w (.sub a a) (some t) = some z) (e k : ℕ) : z e k = 0 := by
  obtain ⟨x, y, hx, hy, hz⟩ := (sub_iff w a a t z).1 h
  rw [hx, Option.some.injEq] at hy
  rw [hz, hy, _root_.sub_self]

/-- C191: the derivative of a derivative is zero if the product of the incidence matrices is. -/
theorem d_d (w : World) (n m : ℕ) (E F : ℕ → ℕ → ℤ) (hE : ∀ k j, j < n → ∑ i ∈ Finset.range m, F k i * E i j = 0) (a : Form) (t : ℚ) (z : Mat)
    (h : loc w (.d m F (.d n E a)) (some t) = some z) (e k : ℕ) : z e k = 0 := by
  obtain ⟨y, hy, hz⟩ := (d_iff w m F _ t z).1 h
  obtain ⟨x, -, hx⟩ := (d_iff w n E a t y).1 hy
  rw [hz]
  simp only [hx, Finset.mul_sum]
  rw [Finset.sum_comm]
  refine Finset.sum_eq_zero fun j hj => ?_
  have := hE k j (Finset.mem_range.1 hj)
  have h2 : ∑ i ∈ Finset.range m, ((F k i : ℚ) * (E i j : ℚ)) = 0 := by exact_mod_cast this
  calc ∑ i ∈ Finset.range m, (F k i : ℚ) * ((E i j : ℚ) * x e j) = (∑ i ∈ Finset.range m, (F k i : ℚ) * (E i j : ℚ)) * x e j := by
        rw [Finset.sum_mul]; exact Finset.sum_congr rfl fun i _ => (mul_assoc _ _ _).symm
    _ = 0 := by rw [h2, zero_mul]

lemma loc_congr (w w' : World) (f : Form) (t : ℚ) (h : ∀ i ∈ leaves f, getItem (w' i) (some t) = getItem (w i) (some t)) :
    loc w' f (some t) = loc w f (some t) := by
  induction f with
  | base i => exact h i List.mem_cons_self
  | add a b iha ihb =>
    simp only [loc, instant, parse_eq, Option.bind_some, loc_parse]
    rw [iha fun i hi => h i (List.mem_append_left _ hi), ihb fun i hi => h i (List.mem_append_right _ hi)]
  | sub a b iha ihb =>
    simp only [loc, instant, parse_eq, Option.bind_some, loc_parse]
    rw [iha fun i hi => h i (List.mem_append_left _ hi), ihb fun i hi => h i (List.mem_append_right _ hi)]
  | d n E a ih =>
    simp only [loc, instant, parse_eq, Option.bind_some, loc_parse]
    rw [ih h]

lemma get_setAt (w : World) (i : ℕ) (s : ℚ) (c : Mat) (j : ℕ) (t : ℚ) :
    getItem (setAt w i s c j) (some t) = if j = i ∧ parseT t = parseT s then some c else getItem (w j) (some t) := by
  unfold setAt
  by_cases hj : j = i
  · subst hj
    simp only [if_true, setPy, getItem, get_put, true_and]
  · rw [if_neg hj, if_neg fun h => hj h.1]

/-- C191: a cochain that is set for one form is seen at once in this form, and changes nothing at other times and in forms that are not made of it. -/
theorem set_spec (w : World) (i : ℕ) (s : ℚ) (c : Mat) :
    loc (setAt w i s c) (.base i) (some s) = some c ∧
    (∀ f t, parseT t ≠ parseT s → loc (setAt w i s c) f (some t) = loc w f (some t)) ∧
    ∀ f t, i ∉ leaves f → loc (setAt w i s c) f (some t) = loc w f (some t) := by
  refine ⟨?_, ?_, ?_⟩
  · simp only [loc, get_setAt, and_self, if_true]
  · intro f t ht
    refine loc_congr _ _ _ _ fun j _ => ?_
    rw [get_setAt, if_neg fun h => ht h.2]
  · intro f t hi
    refine loc_congr _ _ _ _ fun j hj => ?_
    rw [get_setAt, if_neg]
    rintro ⟨rfl, -⟩
    exact hi hj

/-! Values of dofs. -/

lemma nodup_where (g : GM) (n : ℕ) : (whereGM g n).Nodup := by
  unfold whereGM
  rw [List.nodup_flatMap]
  refine ⟨fun q _ => ?_, ?_⟩
  · exact sorted_whereRow.imp fun h e => by subst e; exact lt_irrefl _ h
  · have hz : (g.zipIdx).Pairwise fun p q => p.2 ≠ q.2 := by
      have : (g.zipIdx.map Prod.snd).Nodup := by rw [List.zipIdx_map_snd]; exact List.nodup_range' ..
      exact List.pairwise_map.1 this
    refine hz.imp fun {p q} h => ?_
    intro x hx hy
    exact h ((mem_whereRow.1 hx).1.symm.trans (mem_whereRow.1 hy).1)

/-- C192: the value of a dof is the mean of the values at all places where the dof is, or the value at one of them; negative numbers count from the end. -/
theorem ofDof_mean (g : GM) (c : Mat) (i : ℤ) (n : ℕ) (hn : numDofs g = some n) (k : ℕ) (hk : i = k ∨ i = (k : ℤ) - n) (hlt : k < n) :
    ∃ L : List (ℕ × ℕ), L.Nodup ∧ (∀ e r : ℕ, (e, r) ∈ L ↔ e < g.length ∧ (rowOf g e)[r]? = some k) ∧
      (L ≠ [] → ofDof g c i true = some ((L.map fun q => c q.1 q.2).sum / L.length) ∧ ∃ q ∈ L, ofDof g c i false = some (c q.1 q.2)) := by
  refine ⟨whereGM g k, nodup_where g k, fun e r => mem_whereGM, fun hne => ?_⟩
  have hki : (if i < 0 then (n : ℤ) + i else i) = k := by
    rcases hk with rfl | rfl
    · rw [if_neg (by omega)]
    · rw [if_pos (by omega)]; omega
  have h0 : 0 ≤ (k : ℤ) ∧ (k : ℤ) < n := ⟨by omega, by omega⟩
  refine ⟨?_, ?_⟩
  · simp [ofDof, hn, hki, hlt, hne]
  · match hL : whereGM g k, hne with
    | q :: L, _ => exact ⟨q, List.mem_cons_self, by simp [ofDof, hn, hki, hlt, hL]⟩

/-- C192: for the local cochain of a global vector, this is the entry of the vector. -/
theorem ofDof_global (g : GM) (c : Mat) (v : ℕ → ℚ) (hc : ∀ e < g.length, ∀ r k : ℕ, (rowOf g e)[r]? = some k → c e r = v k) (i : ℤ) (n : ℕ)
    (hn : numDofs g = some n) (k : ℕ) (hk : i = k ∨ i = (k : ℤ) - n) (hlt : k < n) (hex : ∃ e < g.length, ∃ r : ℕ, (rowOf g e)[r]? = some k)
    (average : Bool) : ofDof g c i average = some (v k) := by
  obtain ⟨L, -, hm, hL⟩ := ofDof_mean g c i n hn k hk hlt
  obtain ⟨e, he, r, hr⟩ := hex
  have hne : L ≠ [] := List.ne_nil_of_mem ((hm e r).2 ⟨he, hr⟩)
  have hv : ∀ q ∈ L, c q.1 q.2 = v k := fun q hq => by
    obtain ⟨h1, h2⟩ := (hm q.1 q.2).1 hq
    exact hc q.1 h1 q.2 k h2
  obtain ⟨h1, q, hq, h2⟩ := hL hne
  cases average with
  | false => rw [h2, hv q hq]
  | true =>
    rw [h1, List.map_congr_left hv, List.map_const', List.sum_replicate, nsmul_eq_mul]
    have : (L.length : ℚ) ≠ 0 := by exact_mod_cast fun h => hne (List.length_eq_zero_iff.1 h)
    rw [mul_comm, mul_div_assoc, div_self this, mul_one]

/-! Functions by region. -/

lemma byRegion_iff {K F : Type} [DecidableEq K] (op : F → F → F) (b : Dict K F) : ∀ (a c : Dict K F), byRegion op b a = some c ↔
    List.Forall₂ (fun p r => r.1 = p.1 ∧ ∃ y, get b p.1 = some y ∧ r.2 = op p.2 y) a c
  | [], c => by simp [byRegion, eq_comm]
  | (k, x) :: a, c => by
    simp only [byRegion, Option.bind_eq_some_iff, Option.map_eq_some_iff, byRegion_iff op b a, List.forall₂_cons_left_iff]
    constructor
    · rintro ⟨y, hy, r, hr, rfl⟩
      exact ⟨(k, op x y), r, ⟨rfl, y, hy, rfl⟩, hr, rfl⟩
    · rintro ⟨⟨k', z⟩, r, ⟨h1, y, hy, h2⟩, hr, rfl⟩
      simp only at h1 h2 hy
      subst h1 h2
      exact ⟨y, hy, r, hr, rfl⟩

/-- C193: functions by region are added and subtracted iff they are given for the same regions; then they are region by region, in the order of the first. -/
theorem combine_iff {K F : Type} [DecidableEq K] (op : F → F → F) (a b : Dict K F) (ha : (keys a).Nodup) (hb : (keys b).Nodup) :
    ((combine op a b).isSome ↔ ∀ k, k ∈ keys a ↔ k ∈ keys b) ∧
    ∀ c, combine op a b = some c → keys c = keys a ∧ ∀ k x y, get a k = some x → get b k = some y → get c k = some (op x y) := by
  have hsome : ∀ a : Dict K F, (byRegion op b a).isSome ↔ ∀ k ∈ keys a, k ∈ keys b := by
    intro a
    induction a with
    | nil => simp [byRegion, keys]
    | cons p a ih =>
      obtain ⟨k, x⟩ := p
      have hk : k ∈ keys b ↔ (get b k).isSome := (get_isSome b k).symm
      simp only [keys, List.map_cons, List.mem_cons, forall_eq_or_imp] at ih hk ⊢
      rw [← ih, hk, byRegion]
      cases get b k <;> cases byRegion op b a <;> simp
  refine ⟨?_, ?_⟩
  · unfold combine
    by_cases hl : b.length = a.length
    · rw [if_pos hl, hsome]
      refine ⟨fun h k => ⟨h k, ?_⟩, fun h k hk => (h k).1 hk⟩
      have hs : (keys a).Subperm (keys b) := ha.subperm h
      have hp : (keys a).Perm (keys b) := hs.perm_of_length_le (by rw [Dict.keys_length, Dict.keys_length, hl])
      exact hp.mem_iff.2
    · rw [if_neg hl]
      simp only [Option.isSome_none, Bool.false_eq_true, false_iff]
      intro h
      apply hl
      rw [← Dict.keys_length, ← Dict.keys_length]
      exact ((List.perm_ext_iff_of_nodup hb ha).2 fun k => (h k).symm).length_eq
  · intro c hc
    unfold combine at hc
    split at hc
    · rename_i hlen
      rw [byRegion_iff] at hc
      clear ha hsome hlen
      induction hc with
      | nil => exact ⟨rfl, by simp [Dict.get]⟩
      | @cons p r a c hpr hac ih =>
        obtain ⟨h1, y, hy, h2⟩ := hpr
        obtain ⟨k, x⟩ := p
        obtain ⟨k', z⟩ := r
        simp only at h1 h2 hy
        subst h1 h2
        have ih := ih
        refine ⟨by simp only [keys, List.map_cons, List.cons.injEq, true_and]; exact ih.1, ?_⟩
        intro j u v hu hv
        simp only [Dict.get] at hu ⊢
        by_cases hj : k' = j
        · subst hj
          rw [if_pos rfl, Option.some.injEq] at hu ⊢
          rw [hy, Option.some.injEq] at hv
          rw [hu, hv]
        · rw [if_neg hj] at hu ⊢
          exact ih.2 j u v hu hv
    · cases hc

/-- C193: the negative of functions by region is that of each of them. -/
theorem negate_spec {K F : Type} [DecidableEq K] (neg : F → F) (a : Dict K F) :
    keys (negate neg a) = keys a ∧ ∀ k, get (negate neg a) k = (get a k).map neg := by
  constructor
  · simp [negate, keys]
  · intro k
    induction a with
    | nil => rfl
    | cons p a ih =>
      obtain ⟨j, x⟩ := p
      simp only [negate, List.map_cons, Dict.get] at ih ⊢
      split
      · rfl
      · exact ih

end Phyem.Derived
