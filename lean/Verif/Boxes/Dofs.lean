import Verif.Boxes.Model
import Mathlib.Data.List.Basic
import Mathlib.Data.List.Nodup
import Mathlib.Tactic.Ring
import Mathlib.Tactic.Linarith
import Mathlib.Tactic.FinCases

/-!
# The geometric object of every dof
-/

namespace Phyem.Boxes

lemma mem_where {off n0 n1 n2 d : ℕ} {t : ℕ × ℕ × ℕ} :
    t ∈ whereF off n0 n1 n2 d ↔ t.1 < n0 ∧ t.2.1 < n1 ∧ t.2.2 < n2 ∧ numF off n0 n1 t.1 t.2.1 t.2.2 = d := by
  obtain ⟨i, j, k⟩ := t
  simp only [whereF, List.mem_flatMap, List.mem_range, List.mem_map, List.mem_filter, decide_eq_true_eq, Prod.mk.injEq]
  constructor
  · rintro ⟨i', hi, j', hj, k', ⟨hk, h⟩, rfl, rfl, rfl⟩
    exact ⟨hi, hj, hk, h⟩
  · rintro ⟨hi, hj, hk, h⟩
    exact ⟨i, hi, j, hj, k, ⟨hk, h⟩, rfl, rfl, rfl⟩

lemma nodup_where (off n0 n1 n2 d : ℕ) : (whereF off n0 n1 n2 d).Nodup := by
  unfold whereF
  refine List.nodup_flatMap.2 ⟨fun i _ => List.nodup_flatMap.2 ⟨fun j _ => ?_, ?_⟩, ?_⟩
  · exact (List.nodup_range.filter _).map fun a b h => by simpa using h
  · refine List.nodup_range.imp fun {a b} hab x hx hy => ?_
    obtain ⟨_, _, rfl⟩ := List.mem_map.1 hx
    obtain ⟨_, _, h⟩ := List.mem_map.1 hy
    simp only [Prod.mk.injEq, true_and] at h
    exact hab h.1.symm
  · refine List.nodup_range.imp fun {a b} hab x hx hy => ?_
    obtain ⟨_, _, hx⟩ := List.mem_flatMap.1 hx
    obtain ⟨_, _, rfl⟩ := List.mem_map.1 hx
    obtain ⟨_, _, hy⟩ := List.mem_flatMap.1 hy
    obtain ⟨_, _, h⟩ := List.mem_map.1 hy
    simp only [Prod.mk.injEq] at h
    exact hab h.1.symm

/-- The column-first numbers of two places are the same only if the places are. -/
lemma numF_inj {off n0 n1 i j k i' j' k' : ℕ} (hi : i < n0) (hj : j < n1) (hi' : i' < n0) (hj' : j' < n1)
    (h : numF off n0 n1 i j k = numF off n0 n1 i' j' k') : i = i' ∧ j = j' ∧ k = k' := by
  unfold numF at h
  have h0 : i + n0 * (j + n1 * k) = i' + n0 * (j' + n1 * k') := by
    have e1 : n0 * (j + n1 * k) = n0 * j + n0 * n1 * k := by ring
    have e2 : n0 * (j' + n1 * k') = n0 * j' + n0 * n1 * k' := by ring
    omega
  have hn : 0 < n0 := by omega
  have hm : 0 < n1 := by omega
  have h1 : i = i' := by
    have := congrArg (· % n0) h0
    simpa [Nat.add_mul_mod_self_left, Nat.mod_eq_of_lt hi, Nat.mod_eq_of_lt hi'] using this
  subst h1
  have h2 : j + n1 * k = j' + n1 * k' := Nat.eq_of_mul_eq_mul_left hn (by omega)
  have h3 : j = j' := by
    have := congrArg (· % n1) h2
    simpa [Nat.add_mul_mod_self_left, Nat.mod_eq_of_lt hj, Nat.mod_eq_of_lt hj'] using this
  subst h3
  exact ⟨rfl, rfl, Nat.eq_of_mul_eq_mul_left hm (by omega)⟩

lemma where_single {off n0 n1 n2 d i j k : ℕ} (hi : i < n0) (hj : j < n1) (hk : k < n2) (h : d = numF off n0 n1 i j k) :
    whereF off n0 n1 n2 d = [(i, j, k)] := by
  have hp : (whereF off n0 n1 n2 d).Perm [(i, j, k)] := by
    refine (List.perm_ext_iff_of_nodup (nodup_where ..) (List.nodup_singleton _)).2 fun t => ?_
    rw [mem_where, List.mem_singleton]
    constructor
    · rintro ⟨h1, h2, h3, h4⟩
      obtain ⟨a, b, c⟩ := numF_inj (off := off) h1 h2 hi hj (h4.trans h)
      exact Prod.ext a (Prod.ext b c)
    · rintro rfl
      exact ⟨hi, hj, hk, h.symm⟩
  exact List.perm_singleton.1 hp

lemma where_iff {off n0 n1 n2 d i j k : ℕ} :
    whereF off n0 n1 n2 d = [(i, j, k)] ↔ i < n0 ∧ j < n1 ∧ k < n2 ∧ d = numF off n0 n1 i j k := by
  constructor
  · intro h
    have := mem_where.1 (h ▸ List.mem_singleton_self (i, j, k) : (i, j, k) ∈ whereF off n0 n1 n2 d)
    exact ⟨this.1, this.2.1, this.2.2.1, this.2.2.2.symm⟩
  · rintro ⟨h1, h2, h3, h4⟩
    exact where_single h1 h2 h3 h4

lemma numF_lt {off n0 n1 n2 i j k : ℕ} (hi : i < n0) (hj : j < n1) (hk : k < n2) : numF off n0 n1 i j k < off + n0 * n1 * n2 := by
  unfold numF
  have h1 : n0 * j + n0 ≤ n0 * n1 := by
    have := Nat.mul_le_mul_left n0 (show j + 1 ≤ n1 from hj)
    rwa [Nat.mul_succ] at this
  have h2 : n0 * n1 * k + n0 * n1 ≤ n0 * n1 * n2 := by
    have := Nat.mul_le_mul_left (n0 * n1) (show k + 1 ≤ n2 from hk)
    rwa [Nat.mul_succ] at this
  omega

/-- An array has a number exactly if the number is in its range. -/
lemma where_or (off n0 n1 n2 d : ℕ) :
    (∃ i j k, off ≤ d ∧ d < off + n0 * n1 * n2 ∧ whereF off n0 n1 n2 d = [(i, j, k)]) ∨ (¬ (off ≤ d ∧ d < off + n0 * n1 * n2) ∧ whereF off n0 n1 n2 d = []) := by
  rcases hw : whereF off n0 n1 n2 d with - | ⟨⟨i, j, k⟩, l⟩
  · right
    refine ⟨fun ⟨h1, h2⟩ => ?_, rfl⟩
    obtain ⟨r, rfl⟩ := Nat.exists_eq_add_of_le h1
    have hr : r < n0 * n1 * n2 := by omega
    have hn0 : 0 < n0 := Nat.pos_of_ne_zero fun h => by simp [h] at hr
    have hn1 : 0 < n1 := Nat.pos_of_ne_zero fun h => by simp [h] at hr
    have hk : r / (n0 * n1) < n2 := Nat.div_lt_of_lt_mul hr
    have hj : r / n0 % n1 < n1 := Nat.mod_lt _ hn1
    have hi : r % n0 < n0 := Nat.mod_lt _ hn0
    have e : numF off n0 n1 (r % n0) (r / n0 % n1) (r / (n0 * n1)) = off + r := by
      unfold numF
      have e1 := Nat.mod_add_div r n0
      have e2 := Nat.mod_add_div (r / n0) n1
      rw [Nat.div_div_eq_div_mul] at e2
      have e3 : n0 * (r / n0 % n1) + n0 * n1 * (r / (n0 * n1)) = n0 * (r / n0) := by
        rw [mul_assoc, ← mul_add, e2]
      omega
    have := where_single hi hj hk e.symm
    rw [hw] at this
    cases this
  · left
    obtain ⟨h1, h2, h3, h4⟩ := mem_where.1 (hw ▸ List.mem_cons_self : ((i, j, k) : ℕ × ℕ × ℕ) ∈ whereF off n0 n1 n2 d)
    refine ⟨i, j, k, ?_, ?_, ?_⟩
    · rw [← h4]; unfold numF; omega
    · rw [← h4]; exact numF_lt h1 h2 h3
    · rw [← hw]; exact where_single h1 h2 h3 h4.symm

/-- The coordinate of node `i` along x; likewise for y and z. -/
def Elem3.x (e : Elem3) (i : ℕ) : ℚ := e.origin.1 + (e.X i + 1) * (e.delta.1 / 2)
@[inherit_doc Elem3.x] def Elem3.y (e : Elem3) (i : ℕ) : ℚ := e.origin.2.1 + (e.Y i + 1) * (e.delta.2.1 / 2)
@[inherit_doc Elem3.x] def Elem3.z (e : Elem3) (i : ℕ) : ℚ := e.origin.2.2 + (e.Z i + 1) * (e.delta.2.2 / 2)

/-- Neighbouring nodes increase by more than the least side. -/
def Elem3.Fine (e : Elem3) : Prop :=
  (∀ i < e.p.1, e.x i + least < e.x (i + 1)) ∧ (∀ j < e.p.2.1, e.y j + least < e.y (j + 1)) ∧ (∀ k < e.p.2.2, e.z k + least < e.z (k + 1))

lemma map_eq (e : Elem3) (i j k : ℕ) : e.map (e.X i) (e.Y j) (e.Z k) = (e.x i, e.y j, e.z k) := rfl

lemma least_pos : 0 < least := by norm_num [least]

lemma tol_pos : 0 < tol := by norm_num [tol]

/-- Number `d` is at place `t` of an array. -/
def At (off n0 n1 n2 d : ℕ) (t : ℕ × ℕ × ℕ) : Prop := t.1 < n0 ∧ t.2.1 < n1 ∧ t.2.2 < n2 ∧ d = numF off n0 n1 t.1 t.2.1 t.2.2

lemma at_unique {off n0 n1 n2 d : ℕ} {t u : ℕ × ℕ × ℕ} (ht : At off n0 n1 n2 d t) (hu : At off n0 n1 n2 d u) : u = t := by
  obtain ⟨a, b, c⟩ := numF_inj (off := off) hu.1 hu.2.1 ht.1 ht.2.1 (hu.2.2.2.symm.trans ht.2.2.2)
  exact Prod.ext a (Prod.ext b c)

lemma at_range {off n0 n1 n2 d : ℕ} {t : ℕ × ℕ × ℕ} (h : At off n0 n1 n2 d t) : off ≤ d ∧ d < off + n0 * n1 * n2 := by
  refine ⟨?_, ?_⟩
  · rw [h.2.2.2]; unfold numF; omega
  · rw [h.2.2.2]; exact numF_lt h.1 h.2.1 h.2.2.1

lemma one (off n0 n1 n2 d : ℕ) :
    (∃ t, At off n0 n1 n2 d t ∧ whereF off n0 n1 n2 d = [t]) ∨ ((∀ t, ¬ At off n0 n1 n2 d t) ∧ whereF off n0 n1 n2 d = []) := by
  rcases where_or off n0 n1 n2 d with ⟨i, j, k, _, _, h⟩ | ⟨hd, h⟩
  · exact Or.inl ⟨(i, j, k), where_iff.1 h, h⟩
  · exact Or.inr ⟨fun t ht => hd (at_range ht), h⟩

/-- Three arrays with consecutive numbers: at most one has the number. -/
lemma three (a0 a1 a2 b0 b1 b2 c0 c1 c2 d : ℕ) {A B : ℕ} (hA : A = a0 * a1 * a2) (hB : B = b0 * b1 * b2) :
    (∃ t, At 0 a0 a1 a2 d t ∧ whereF 0 a0 a1 a2 d = [t] ∧ whereF A b0 b1 b2 d = [] ∧ whereF (A + B) c0 c1 c2 d = [] ∧
      (∀ t, ¬ At A b0 b1 b2 d t) ∧ ∀ t, ¬ At (A + B) c0 c1 c2 d t) ∨
    (∃ t, At A b0 b1 b2 d t ∧ whereF 0 a0 a1 a2 d = [] ∧ whereF A b0 b1 b2 d = [t] ∧ whereF (A + B) c0 c1 c2 d = [] ∧
      (∀ t, ¬ At 0 a0 a1 a2 d t) ∧ ∀ t, ¬ At (A + B) c0 c1 c2 d t) ∨
    (∃ t, At (A + B) c0 c1 c2 d t ∧ whereF 0 a0 a1 a2 d = [] ∧ whereF A b0 b1 b2 d = [] ∧ whereF (A + B) c0 c1 c2 d = [t] ∧
      (∀ t, ¬ At 0 a0 a1 a2 d t) ∧ ∀ t, ¬ At A b0 b1 b2 d t) ∨
    (whereF 0 a0 a1 a2 d = [] ∧ whereF A b0 b1 b2 d = [] ∧ whereF (A + B) c0 c1 c2 d = [] ∧
      (∀ t, ¬ At 0 a0 a1 a2 d t) ∧ (∀ t, ¬ At A b0 b1 b2 d t) ∧ ∀ t, ¬ At (A + B) c0 c1 c2 d t) := by
  have k1 : ∀ t, At 0 a0 a1 a2 d t → d < A := fun t h => by have := (at_range h).2; omega
  have k2 : ∀ t, At A b0 b1 b2 d t → A ≤ d ∧ d < A + B := fun t h => by have := at_range h; omega
  have k3 : ∀ t, At (A + B) c0 c1 c2 d t → A + B ≤ d := fun t h => (at_range h).1
  rcases one 0 a0 a1 a2 d with ⟨t, ht, h1⟩ | ⟨n1, h1⟩ <;> rcases one A b0 b1 b2 d with ⟨u, hu, h2⟩ | ⟨n2, h2⟩ <;>
    rcases one (A + B) c0 c1 c2 d with ⟨v, hv, h3⟩ | ⟨n3, h3⟩
  · have := k1 t ht; have := k2 u hu; omega
  · have := k1 t ht; have := k2 u hu; omega
  · have := k1 t ht; have := k3 v hv; omega
  · exact Or.inl ⟨t, ht, h1, h2, h3, n2, n3⟩
  · have := k2 u hu; have := k3 v hv; omega
  · exact Or.inr (Or.inl ⟨u, hu, h1, h2, h3, n1, n3⟩)
  · exact Or.inr (Or.inr (Or.inl ⟨v, hv, h1, h2, h3, n1, n2⟩))
  · exact Or.inr (Or.inr (Or.inr ⟨h1, h2, h3, n1, n2, n3⟩))

lemma only {α : Type} {P : ℕ × ℕ × ℕ → Prop} {S : ℕ × ℕ × ℕ → α} {t : ℕ × ℕ × ℕ} {s : α} (ht : P t) (hu : ∀ u, P u → u = t) :
    some (S t) = some s ↔ ∃ t, P t ∧ s = S t := by
  constructor
  · rintro h; exact ⟨t, ht, (Option.some.inj h).symm⟩
  · rintro ⟨u, h, rfl⟩; rw [hu u h]

lemma no {α : Type} {P : ℕ × ℕ × ℕ → Prop} {S : ℕ × ℕ × ℕ → α} {s : α} (h : ∀ t, ¬ P t) : (∃ t, P t ∧ s = S t) ↔ False :=
  ⟨fun ⟨t, ht, _⟩ => h t ht, False.elim⟩

/-- **C158.** A dof of a 0-form in space is at a node: the dofs are the nodes, x first, and a number that is no dof gives an error. -/
theorem point3_spec (e : Elem3) (d : ℕ) (P : P3) :
    point3 e d = some P ↔ ∃ i j k, i < e.p.1 + 1 ∧ j < e.p.2.1 + 1 ∧ k < e.p.2.2 + 1 ∧ d = 0 + i + (e.p.1 + 1) * j + (e.p.1 + 1) * (e.p.2.1 + 1) * k ∧
      P = (e.x i, e.y j, e.z k) := by
  have h : point3 e d = some P ↔ ∃ t, At 0 (e.p.1 + 1) (e.p.2.1 + 1) (e.p.2.2 + 1) d t ∧ P = (e.x t.1, e.y t.2.1, e.z t.2.2) := by
    unfold point3
    rcases one 0 (e.p.1 + 1) (e.p.2.1 + 1) (e.p.2.2 + 1) d with ⟨t, ht, h⟩ | ⟨hd, h⟩
    · rw [h]
      exact only (S := fun t => (e.x t.1, e.y t.2.1, e.z t.2.2)) ht fun u hu => at_unique ht hu
    · rw [h, no (S := fun t => (e.x t.1, e.y t.2.1, e.z t.2.2)) hd]
      simp
  rw [h]
  simp only [At, numF, Prod.exists, and_assoc]

lemma mkSeg_eq {axis : Fin 3} {o : P3} {a b : ℚ} (ha : o.at axis = a) (h : a + least < b) :
    mkSeg axis o (b - a) = some ⟨axis, (o.at (axis + 1), o.at (axis + 2)), (a, b), b - a⟩ := by
  have hl := least_pos
  unfold mkSeg sort2
  rw [if_pos (by rw [abs_of_pos (by linarith)]; linarith), ha, if_pos (by linarith)]
  simp only [add_sub_cancel]

/-- **C158.** A dof of a 1-form in space is an edge between neighbouring nodes: first the edges along x, then along y, then along z, in each the
dofs in the order x, y, z. -/
theorem edge3_spec (e : Elem3) (hf : e.Fine) (d : ℕ) (s : OSeg) :
    edge3 e d = some s ↔
      (∃ i j k, i < e.p.1 ∧ j < e.p.2.1 + 1 ∧ k < e.p.2.2 + 1 ∧ d = 0 + i + e.p.1 * j + e.p.1 * (e.p.2.1 + 1) * k ∧
        s = ⟨0, (e.y j, e.z k), (e.x i, e.x (i + 1)), e.x (i + 1) - e.x i⟩) ∨
      (∃ i j k, i < e.p.1 + 1 ∧ j < e.p.2.1 ∧ k < e.p.2.2 + 1 ∧
        d = e.p.1 * (e.p.2.1 + 1) * (e.p.2.2 + 1) + i + (e.p.1 + 1) * j + (e.p.1 + 1) * e.p.2.1 * k ∧
        s = ⟨1, (e.z k, e.x i), (e.y j, e.y (j + 1)), e.y (j + 1) - e.y j⟩) ∨
      (∃ i j k, i < e.p.1 + 1 ∧ j < e.p.2.1 + 1 ∧ k < e.p.2.2 ∧
        d = e.p.1 * (e.p.2.1 + 1) * (e.p.2.2 + 1) + (e.p.1 + 1) * e.p.2.1 * (e.p.2.2 + 1) + i + (e.p.1 + 1) * j + (e.p.1 + 1) * (e.p.2.1 + 1) * k ∧
        s = ⟨2, (e.x i, e.y j), (e.z k, e.z (k + 1)), e.z (k + 1) - e.z k⟩) := by
  have h : edge3 e d = some s ↔
      (∃ t, At 0 e.p.1 (e.p.2.1 + 1) (e.p.2.2 + 1) d t ∧
        s = ⟨0, (e.y t.2.1, e.z t.2.2), (e.x t.1, e.x (t.1 + 1)), e.x (t.1 + 1) - e.x t.1⟩) ∨
      (∃ t, At (e.p.1 * (e.p.2.1 + 1) * (e.p.2.2 + 1)) (e.p.1 + 1) e.p.2.1 (e.p.2.2 + 1) d t ∧
        s = ⟨1, (e.z t.2.2, e.x t.1), (e.y t.2.1, e.y (t.2.1 + 1)), e.y (t.2.1 + 1) - e.y t.2.1⟩) ∨
      (∃ t, At (e.p.1 * (e.p.2.1 + 1) * (e.p.2.2 + 1) + (e.p.1 + 1) * e.p.2.1 * (e.p.2.2 + 1)) (e.p.1 + 1) (e.p.2.1 + 1) e.p.2.2 d t ∧
        s = ⟨2, (e.x t.1, e.y t.2.1), (e.z t.2.2, e.z (t.2.2 + 1)), e.z (t.2.2 + 1) - e.z t.2.2⟩) := by
    set S1 : ℕ × ℕ × ℕ → OSeg := fun t => ⟨0, (e.y t.2.1, e.z t.2.2), (e.x t.1, e.x (t.1 + 1)), e.x (t.1 + 1) - e.x t.1⟩
    set S2 : ℕ × ℕ × ℕ → OSeg := fun t => ⟨1, (e.z t.2.2, e.x t.1), (e.y t.2.1, e.y (t.2.1 + 1)), e.y (t.2.1 + 1) - e.y t.2.1⟩
    set S3 : ℕ × ℕ × ℕ → OSeg := fun t => ⟨2, (e.x t.1, e.y t.2.1), (e.z t.2.2, e.z (t.2.2 + 1)), e.z (t.2.2 + 1) - e.z t.2.2⟩
    unfold edge3
    simp only [cnt1]
    rcases three e.p.1 (e.p.2.1 + 1) (e.p.2.2 + 1) (e.p.1 + 1) e.p.2.1 (e.p.2.2 + 1) (e.p.1 + 1) (e.p.2.1 + 1) e.p.2.2 d rfl rfl with
      ⟨t, ht, h1, h2, h3, n2, n3⟩ | ⟨t, ht, h1, h2, h3, n1, n3⟩ | ⟨t, ht, h1, h2, h3, n1, n2⟩ | ⟨h1, h2, h3, n1, n2, n3⟩
    · rw [h1, h2, h3, no (S := S2) n2, no (S := S3) n3, or_false, or_false]
      simp only [map_eq]
      rw [mkSeg_eq (o := (e.x t.1, e.y t.2.1, e.z t.2.2)) (axis := 0) (a := e.x t.1) rfl (hf.1 _ ht.1)]
      exact only (S := S1) ht fun u hu => at_unique ht hu
    · rw [h1, h2, h3, no (S := S1) n1, no (S := S3) n3, false_or, or_false]
      simp only [map_eq]
      rw [mkSeg_eq (o := (e.x t.1, e.y t.2.1, e.z t.2.2)) (axis := 1) (a := e.y t.2.1) rfl (hf.2.1 _ ht.2.1)]
      exact only (S := S2) ht fun u hu => at_unique ht hu
    · rw [h1, h2, h3, no (S := S1) n1, no (S := S2) n2, false_or, false_or]
      simp only [map_eq]
      rw [mkSeg_eq (o := (e.x t.1, e.y t.2.1, e.z t.2.2)) (axis := 2) (a := e.z t.2.2) rfl (hf.2.2 _ ht.2.2.1)]
      exact only (S := S3) ht fun u hu => at_unique ht hu
    · rw [h1, h2, h3, no (S := S1) n1, no (S := S2) n2, no (S := S3) n3]
      simp
  rw [h]
  simp only [At, numF, Prod.exists, and_assoc]

lemma mkRect_eq {axis : Fin 3} {o d : P3} {a0 b0 a1 b1 : ℚ} (hz : d.at axis = 0) (h0 : o.at (axis + 1) = a0) (hd0 : d.at (axis + 1) = b0 - a0) (hl0 : a0 + least < b0)
    (h1 : o.at (axis + 2) = a1) (hd1 : d.at (axis + 2) = b1 - a1) (hl1 : a1 + least < b1) :
    mkRect axis o d = some ⟨axis, o.at axis, (a0, b0), (a1, b1)⟩ := by
  have hl := least_pos
  unfold mkRect sort2
  rw [hd0, hd1, h0, h1, if_pos ⟨hz, by rw [abs_of_pos (by linarith)]; linarith, by rw [abs_of_pos (by linarith)]; linarith⟩,
    if_pos (by linarith), if_pos (by linarith)]
  simp only [add_sub_cancel]

/-- **C158.** A dof of a 2-form in space is a face between neighbouring nodes: first the faces across x, then across y, then across z. -/
theorem face3_spec (e : Elem3) (hf : e.Fine) (d : ℕ) (s : PRect) :
    face3 e d = some s ↔
      (∃ i j k, i < e.p.1 + 1 ∧ j < e.p.2.1 ∧ k < e.p.2.2 ∧ d = 0 + i + (e.p.1 + 1) * j + (e.p.1 + 1) * e.p.2.1 * k ∧
        s = ⟨0, e.x i, (e.y j, e.y (j + 1)), (e.z k, e.z (k + 1))⟩) ∨
      (∃ i j k, i < e.p.1 ∧ j < e.p.2.1 + 1 ∧ k < e.p.2.2 ∧
        d = (e.p.1 + 1) * e.p.2.1 * e.p.2.2 + i + e.p.1 * j + e.p.1 * (e.p.2.1 + 1) * k ∧
        s = ⟨1, e.y j, (e.z k, e.z (k + 1)), (e.x i, e.x (i + 1))⟩) ∨
      (∃ i j k, i < e.p.1 ∧ j < e.p.2.1 ∧ k < e.p.2.2 + 1 ∧
        d = (e.p.1 + 1) * e.p.2.1 * e.p.2.2 + e.p.1 * (e.p.2.1 + 1) * e.p.2.2 + i + e.p.1 * j + e.p.1 * e.p.2.1 * k ∧
        s = ⟨2, e.z k, (e.x i, e.x (i + 1)), (e.y j, e.y (j + 1))⟩) := by
  have h : face3 e d = some s ↔
      (∃ t, At 0 (e.p.1 + 1) e.p.2.1 e.p.2.2 d t ∧
        s = ⟨0, e.x t.1, (e.y t.2.1, e.y (t.2.1 + 1)), (e.z t.2.2, e.z (t.2.2 + 1))⟩) ∨
      (∃ t, At ((e.p.1 + 1) * e.p.2.1 * e.p.2.2) e.p.1 (e.p.2.1 + 1) e.p.2.2 d t ∧
        s = ⟨1, e.y t.2.1, (e.z t.2.2, e.z (t.2.2 + 1)), (e.x t.1, e.x (t.1 + 1))⟩) ∨
      (∃ t, At ((e.p.1 + 1) * e.p.2.1 * e.p.2.2 + e.p.1 * (e.p.2.1 + 1) * e.p.2.2) e.p.1 e.p.2.1 (e.p.2.2 + 1) d t ∧
        s = ⟨2, e.z t.2.2, (e.x t.1, e.x (t.1 + 1)), (e.y t.2.1, e.y (t.2.1 + 1))⟩) := by
    set S1 : ℕ × ℕ × ℕ → PRect := fun t => ⟨0, e.x t.1, (e.y t.2.1, e.y (t.2.1 + 1)), (e.z t.2.2, e.z (t.2.2 + 1))⟩
    set S2 : ℕ × ℕ × ℕ → PRect := fun t => ⟨1, e.y t.2.1, (e.z t.2.2, e.z (t.2.2 + 1)), (e.x t.1, e.x (t.1 + 1))⟩
    set S3 : ℕ × ℕ × ℕ → PRect := fun t => ⟨2, e.z t.2.2, (e.x t.1, e.x (t.1 + 1)), (e.y t.2.1, e.y (t.2.1 + 1))⟩
    unfold face3
    simp only [cnt2]
    rcases three (e.p.1 + 1) e.p.2.1 e.p.2.2 e.p.1 (e.p.2.1 + 1) e.p.2.2 e.p.1 e.p.2.1 (e.p.2.2 + 1) d rfl rfl with
      ⟨t, ht, h1, h2, h3, n2, n3⟩ | ⟨t, ht, h1, h2, h3, n1, n3⟩ | ⟨t, ht, h1, h2, h3, n1, n2⟩ | ⟨h1, h2, h3, n1, n2, n3⟩
    · rw [h1, h2, h3, no (S := S2) n2, no (S := S3) n3, or_false, or_false]
      simp only [map_eq]
      rw [mkRect_eq (o := (e.x t.1, e.y t.2.1, e.z t.2.2)) (axis := 0) (a0 := e.y t.2.1) (b0 := e.y (t.2.1 + 1)) (a1 := e.z t.2.2)
        (b1 := e.z (t.2.2 + 1)) rfl rfl rfl (hf.2.1 _ ht.2.1) rfl rfl (hf.2.2 _ ht.2.2.1)]
      exact only (S := S1) ht fun u hu => at_unique ht hu
    · rw [h1, h2, h3, no (S := S1) n1, no (S := S3) n3, false_or, or_false]
      simp only [map_eq]
      rw [mkRect_eq (o := (e.x t.1, e.y t.2.1, e.z t.2.2)) (axis := 1) (a0 := e.z t.2.2) (b0 := e.z (t.2.2 + 1)) (a1 := e.x t.1)
        (b1 := e.x (t.1 + 1)) rfl rfl rfl (hf.2.2 _ ht.2.2.1) rfl rfl (hf.1 _ ht.1)]
      exact only (S := S2) ht fun u hu => at_unique ht hu
    · rw [h1, h2, h3, no (S := S1) n1, no (S := S2) n2, false_or, false_or]
      simp only [map_eq]
      rw [mkRect_eq (o := (e.x t.1, e.y t.2.1, e.z t.2.2)) (axis := 2) (a0 := e.x t.1) (b0 := e.x (t.1 + 1)) (a1 := e.y t.2.1)
        (b1 := e.y (t.2.1 + 1)) rfl rfl rfl (hf.1 _ ht.1) rfl rfl (hf.2.1 _ ht.2.1)]
      exact only (S := S3) ht fun u hu => at_unique ht hu
    · rw [h1, h2, h3, no (S := S1) n1, no (S := S2) n2, no (S := S3) n3]
      simp
  rw [h]
  simp only [At, numF, Prod.exists, and_assoc]

/-- What a cell is given as: center and sides are those of the cell, the bounds along x have the side along y. -/
theorem cell3_spec (e : Elem3) (hf : e.Fine) (d : ℕ) (s : Hexa) :
    cell3 e d = some s ↔
      ∃ i j k, i < e.p.1 ∧ j < e.p.2.1 ∧ k < e.p.2.2 ∧ d = 0 + i + e.p.1 * j + e.p.1 * e.p.2.1 * k ∧
        s = ⟨((e.x i + e.x (i + 1)) / 2, (e.y j + e.y (j + 1)) / 2, (e.z k + e.z (k + 1)) / 2),
          (e.x (i + 1) - e.x i, e.y (j + 1) - e.y j, e.z (k + 1) - e.z k),
          (e.x i, e.x i + (e.y (j + 1) - e.y j)), (e.y j, e.y (j + 1)), (e.z k, e.z (k + 1))⟩ := by
  set S : ℕ × ℕ × ℕ → Hexa := fun t => ⟨((e.x t.1 + e.x (t.1 + 1)) / 2, (e.y t.2.1 + e.y (t.2.1 + 1)) / 2, (e.z t.2.2 + e.z (t.2.2 + 1)) / 2),
          (e.x (t.1 + 1) - e.x t.1, e.y (t.2.1 + 1) - e.y t.2.1, e.z (t.2.2 + 1) - e.z t.2.2),
          (e.x t.1, e.x t.1 + (e.y (t.2.1 + 1) - e.y t.2.1)), (e.y t.2.1, e.y (t.2.1 + 1)), (e.z t.2.2, e.z (t.2.2 + 1))⟩ with hS
  have h : cell3 e d = some s ↔ ∃ t, At 0 e.p.1 e.p.2.1 e.p.2.2 d t ∧ s = S t := by
    unfold cell3
    rcases one 0 e.p.1 e.p.2.1 e.p.2.2 d with ⟨t, ht, h⟩ | ⟨hd, h⟩
    · rw [h]
      have hm : ∀ i j : ℕ, (e.map (e.X i) (e.Y j) (e.Y j)).1 = e.x i := fun _ _ => rfl
      simp only [map_eq, hm]
      have l0 := least_pos
      have l1 := hf.1 _ ht.1
      have l2 := hf.2.1 _ ht.2.1
      have l3 := hf.2.2 _ ht.2.2.1
      have p1 : 0 < e.x (t.1 + 1) - e.x t.1 := by linarith
      have p2 : 0 < e.y (t.2.1 + 1) - e.y t.2.1 := by linarith
      have p3 : 0 < e.z (t.2.2 + 1) - e.z t.2.2 := by linarith
      have hk : mkHexa (e.x t.1, e.y t.2.1, e.z t.2.2) (e.x (t.1 + 1) - e.x t.1, e.y (t.2.1 + 1) - e.y t.2.1, e.z (t.2.2 + 1) - e.z t.2.2) = some (S t) := by
        unfold mkHexa sort2
        simp only [abs_of_pos p1, abs_of_pos p2, abs_of_pos p3]
        rw [if_pos ⟨by linarith, by linarith, by linarith⟩, if_pos (by linarith), if_pos (by linarith), if_pos (by linarith), hS]
        simp only [add_sub_cancel]
        congr 2
        simp only [Prod.mk.injEq]
        exact ⟨by ring, by ring, by ring⟩
      rw [hk]
      exact only (S := S) ht fun u hu => at_unique ht hu
    · rw [h, no (S := S) hd]
      simp
  rw [h]
  simp only [At, numF, Prod.exists, and_assoc, hS]

/-- **C158.** A cell has its own bounds if its sides along x and y are the same. -/
theorem cell3_bounds_partial (e : Elem3) (hf : e.Fine) {i j k : ℕ} (hi : i < e.p.1) (hj : j < e.p.2.1) (hk : k < e.p.2.2)
    (hs : e.x (i + 1) - e.x i = e.y (j + 1) - e.y j) :
    ∃ s, cell3 e (i + e.p.1 * j + e.p.1 * e.p.2.1 * k) = some s ∧
      s.bounds0 = (e.x i, e.x (i + 1)) ∧ s.bounds1 = (e.y j, e.y (j + 1)) ∧ s.bounds2 = (e.z k, e.z (k + 1)) := by
  refine ⟨_, (cell3_spec e hf _ _).2 ⟨i, j, k, hi, hj, hk, by rw [zero_add], rfl⟩, ?_, rfl, rfl⟩
  rw [← hs, add_sub_cancel]

lemma mono_of {f : ℕ → ℚ} {n : ℕ} (h : ∀ i < n, f i + least < f (i + 1)) : ∀ {i j : ℕ}, i < j → j ≤ n → f i < f j
  | i, j + 1, hij, hj => by
    have hl := least_pos
    have h1 := h j (by omega)
    rcases Nat.lt_or_ge i j with h2 | h2
    · have := mono_of h h2 (by omega : j ≤ n)
      linarith
    · obtain rfl : i = j := by omega
      linarith

lemma inj_of {f : ℕ → ℚ} {n : ℕ} (h : ∀ i < n, f i + least < f (i + 1)) {i j : ℕ} (hi : i ≤ n) (hj : j ≤ n) (he : f i = f j) : i = j := by
  rcases Nat.lt_trichotomy i j with h1 | h1 | h1
  · exact absurd he (mono_of h h1 hj).ne
  · exact h1
  · exact absurd he.symm (mono_of h h1 hi).ne

/-- **C158.** Different dofs are at different places: no two of the dofs of an element have the same point, edge or face. -/
theorem dofs_distinct (e : Elem3) (hf : e.Fine) {d d' : ℕ} :
    (∀ P, point3 e d = some P → point3 e d' = some P → d = d') ∧ (∀ s, edge3 e d = some s → edge3 e d' = some s → d = d') ∧
      ∀ s, face3 e d = some s → face3 e d' = some s → d = d' := by
  refine ⟨fun P h h' => ?_, fun s h h' => ?_, fun s h h' => ?_⟩
  · obtain ⟨i, j, k, h1, h2, h3, rfl, rfl⟩ := (point3_spec e d P).1 h
    obtain ⟨i', j', k', g1, g2, g3, rfl, hP⟩ := (point3_spec e d' _).1 h'
    simp only [Prod.mk.injEq] at hP
    rw [inj_of hf.1 (by omega) (by omega) hP.1, inj_of hf.2.1 (by omega) (by omega) hP.2.1, inj_of hf.2.2 (by omega) (by omega) hP.2.2]
  · rcases (edge3_spec e hf d s).1 h with ⟨i, j, k, h1, h2, h3, rfl, rfl⟩ | ⟨i, j, k, h1, h2, h3, rfl, rfl⟩ | ⟨i, j, k, h1, h2, h3, rfl, rfl⟩ <;>
      rcases (edge3_spec e hf d' _).1 h' with ⟨i', j', k', g1, g2, g3, rfl, hP⟩ | ⟨i', j', k', g1, g2, g3, rfl, hP⟩ | ⟨i', j', k', g1, g2, g3, rfl, hP⟩ <;>
      simp only [OSeg.mk.injEq, Prod.mk.injEq, Fin.isValue, Fin.reduceEq, false_and, true_and] at hP
    · rw [inj_of hf.1 (by omega) (by omega) hP.2.1.1, inj_of hf.2.1 (by omega) (by omega) hP.1.1, inj_of hf.2.2 (by omega) (by omega) hP.1.2]
    · rw [inj_of hf.1 (by omega) (by omega) hP.1.2, inj_of hf.2.1 (by omega) (by omega) hP.2.1.1, inj_of hf.2.2 (by omega) (by omega) hP.1.1]
    · rw [inj_of hf.1 (by omega) (by omega) hP.1.1, inj_of hf.2.1 (by omega) (by omega) hP.1.2, inj_of hf.2.2 (by omega) (by omega) hP.2.1.1]
  · rcases (face3_spec e hf d s).1 h with ⟨i, j, k, h1, h2, h3, rfl, rfl⟩ | ⟨i, j, k, h1, h2, h3, rfl, rfl⟩ | ⟨i, j, k, h1, h2, h3, rfl, rfl⟩ <;>
      rcases (face3_spec e hf d' _).1 h' with ⟨i', j', k', g1, g2, g3, rfl, hP⟩ | ⟨i', j', k', g1, g2, g3, rfl, hP⟩ | ⟨i', j', k', g1, g2, g3, rfl, hP⟩ <;>
      simp only [PRect.mk.injEq, Prod.mk.injEq, Fin.isValue, Fin.reduceEq, false_and, true_and] at hP
    · rw [inj_of hf.1 (by omega) (by omega) hP.1, inj_of hf.2.1 (by omega) (by omega) hP.2.1.1, inj_of hf.2.2 (by omega) (by omega) hP.2.2.1]
    · rw [inj_of hf.1 (by omega) (by omega) hP.2.2.1, inj_of hf.2.1 (by omega) (by omega) hP.1, inj_of hf.2.2 (by omega) (by omega) hP.2.1.1]
    · rw [inj_of hf.1 (by omega) (by omega) hP.2.1.1, inj_of hf.2.1 (by omega) (by omega) hP.2.2.1, inj_of hf.2.2 (by omega) (by omega) hP.1]

/-- A 2 by 1 by 1 element of degrees 2, 1, 1. -/
def sampleElem : Elem3 := ⟨(0, 0, 0), (2, 1, 1), (2, 1, 1), fun i => (i : ℚ) - 1, fun i => 2 * (i : ℚ) - 1, fun i => 2 * (i : ℚ) - 1⟩

lemma sample_fine : sampleElem.Fine := by
  refine ⟨fun i _ => ?_, fun i _ => ?_, fun i _ => ?_⟩ <;>
    simp only [Elem3.x, Elem3.y, Elem3.z, sampleElem, least] <;> push_cast <;> linarith

example : edge3 sampleElem 9 = some ⟨1, (0, 1), (0, 1), 1⟩ := by decide +kernel
example : edge3 sampleElem 20 = none := by decide +kernel
example : face3 sampleElem 3 = some ⟨1, 0, (0, 1), (0, 1)⟩ := by decide +kernel

/-- A 2 by 1 by 1 element of degree 1. -/
def longElem : Elem3 := ⟨(0, 0, 0), (2, 1, 1), (1, 1, 1), fun i => 2 * (i : ℚ) - 1, fun i => 2 * (i : ℚ) - 1, fun i => 2 * (i : ℚ) - 1⟩

/-- **C158.** The cell of a 3-form is not given its bounds if its sides along x and y differ: an element of degree 1 that is 2 long is given the
bounds of its first half. -/
theorem cell3_refuted : (cell3 longElem 0).map (fun s => (s.bounds0, s.sides)) = some ((0, 1), (2, 1, 1)) := by decide +kernel

/-- **C158.** A dof shorter than 0.0001 has no geometry: an error is raised although the number is one of a dof. -/
theorem thin_refuted : edge3 ⟨(0, 0, 0), (1 / 10 ^ 4, 1, 1), (1, 1, 1), fun i => 2 * (i : ℚ) - 1, fun i => 2 * (i : ℚ) - 1, fun i => 2 * (i : ℚ) - 1⟩ 0 = none := by
  decide +kernel

/-- **C158.** On a quadrilateral that is not a rectangle with sides along the axes, the polygon of a cell is not the cell: on a square with corners
at `(0, -1)`, `(1, 0)`, `(0, 1)`, `(-1, 0)` it is degenerate. -/
theorem cell2_refuted : cell2 ⟨fun a b => ((a - b) / 2, (a + b) / 2), (1, 1), fun i => 2 * (i : ℚ) - 1, fun i => 2 * (i : ℚ) - 1⟩ 0
    = some [(0, -1), (0, -1), (0, 1), (0, 1)] := by decide +kernel

/-! ### Elements in the plane -/

/-- **C158.** A dof of a 0-form in the plane is at a node. -/
theorem point2_spec (e : Elem2) (d : ℕ) (P : ℚ × ℚ) :
    point2 e d = some P ↔ ∃ i j, i < e.p.1 + 1 ∧ j < e.p.2 + 1 ∧ d = i + (e.p.1 + 1) * j ∧ P = e.map (e.X i) (e.Y j) := by
  have h : point2 e d = some P ↔ ∃ t, At 0 (e.p.1 + 1) (e.p.2 + 1) 1 d t ∧ P = e.map (e.X t.1) (e.Y t.2.1) := by
    unfold point2
    rcases one 0 (e.p.1 + 1) (e.p.2 + 1) 1 d with ⟨t, ht, h⟩ | ⟨hd, h⟩
    · rw [h]
      exact only (S := fun t => e.map (e.X t.1) (e.Y t.2.1)) ht fun u hu => at_unique ht hu
    · rw [h, no (S := fun t => e.map (e.X t.1) (e.Y t.2.1)) hd]
      simp
  rw [h]
  simp only [At, numF, Prod.exists, and_assoc, zero_add]
  exact exists_congr fun i => exists_congr fun j => ⟨fun ⟨k, h1, h2, h3, h4, h5⟩ => ⟨h1, h2, by
    obtain rfl : k = 0 := by omega
    simpa using h4, h5⟩, fun ⟨h1, h2, h3, h4⟩ => ⟨0, h1, h2, by omega, by simpa using h3, h4⟩⟩

lemma two (a0 a1 b0 b1 d : ℕ) {A : ℕ} (hA : A = a0 * a1) :
    (∃ t, At 0 a0 a1 1 d t ∧ whereF 0 a0 a1 1 d = [t] ∧ whereF A b0 b1 1 d = [] ∧ ∀ t, ¬ At A b0 b1 1 d t) ∨
    (∃ t, At A b0 b1 1 d t ∧ whereF 0 a0 a1 1 d = [] ∧ whereF A b0 b1 1 d = [t] ∧ ∀ t, ¬ At 0 a0 a1 1 d t) ∨
    (whereF 0 a0 a1 1 d = [] ∧ whereF A b0 b1 1 d = [] ∧ (∀ t, ¬ At 0 a0 a1 1 d t) ∧ ∀ t, ¬ At A b0 b1 1 d t) := by
  rcases three a0 a1 1 b0 b1 1 0 0 0 d (A := A) (by rw [hA, mul_one]) rfl with
    ⟨t, ht, h1, h2, h3, n2, n3⟩ | ⟨t, ht, h1, h2, h3, n1, n3⟩ | ⟨t, ht, h1, h2, h3, n1, n2⟩ | ⟨h1, h2, h3, n1, n2, n3⟩
  · exact Or.inl ⟨t, ht, h1, h2, n2⟩
  · exact Or.inr (Or.inl ⟨t, ht, h1, h2, n1⟩)
  · exact absurd ht.1 (by omega)
  · exact Or.inr (Or.inr ⟨h1, h2, n1, n2⟩)

lemma at_flat {off n0 n1 d : ℕ} {Q : ℕ → ℕ → Prop} :
    (∃ t, At off n0 n1 1 d t ∧ Q t.1 t.2.1) ↔ ∃ i j, i < n0 ∧ j < n1 ∧ d = off + i + n0 * j ∧ Q i j := by
  simp only [At, numF, Prod.exists, and_assoc]
  exact exists_congr fun i => exists_congr fun j => ⟨fun ⟨k, h1, h2, h3, h4, h5⟩ => ⟨h1, h2, by
    obtain rfl : k = 0 := by omega
    simpa using h4, h5⟩, fun ⟨h1, h2, h3, h4⟩ => ⟨0, h1, h2, by omega, by simpa using h3, h4⟩⟩

/-- **C158.** A dof of an inner 1-form in the plane is an edge between neighbouring nodes, first those along x. -/
theorem edgeInner_spec (e : Elem2) (d : ℕ) (s : (ℚ × ℚ) × (ℚ × ℚ)) :
    edgeInner e d = some s ↔
      (∃ i j, i < e.p.1 ∧ j < e.p.2 + 1 ∧ d = 0 + i + e.p.1 * j ∧ s = (e.map (e.X i) (e.Y j), e.map (e.X (i + 1)) (e.Y j))) ∨
      (∃ i j, i < e.p.1 + 1 ∧ j < e.p.2 ∧ d = e.p.1 * (e.p.2 + 1) + i + (e.p.1 + 1) * j ∧ s = (e.map (e.X i) (e.Y j), e.map (e.X i) (e.Y (j + 1)))) := by
  rw [← at_flat (Q := fun i j => s = (e.map (e.X i) (e.Y j), e.map (e.X (i + 1)) (e.Y j))),
    ← at_flat (Q := fun i j => s = (e.map (e.X i) (e.Y j), e.map (e.X i) (e.Y (j + 1))))]
  set S1 : ℕ × ℕ × ℕ → (ℚ × ℚ) × (ℚ × ℚ) := fun t => (e.map (e.X t.1) (e.Y t.2.1), e.map (e.X (t.1 + 1)) (e.Y t.2.1))
  set S2 : ℕ × ℕ × ℕ → (ℚ × ℚ) × (ℚ × ℚ) := fun t => (e.map (e.X t.1) (e.Y t.2.1), e.map (e.X t.1) (e.Y (t.2.1 + 1)))
  unfold edgeInner
  rcases two e.p.1 (e.p.2 + 1) (e.p.1 + 1) e.p.2 d rfl with ⟨t, ht, h1, h2, n2⟩ | ⟨t, ht, h1, h2, n1⟩ | ⟨h1, h2, n1, n2⟩
  · rw [h1, h2, no (S := S2) n2, or_false]
    exact only (S := S1) ht fun u hu => at_unique ht hu
  · rw [h1, h2, no (S := S1) n1, false_or]
    exact only (S := S2) ht fun u hu => at_unique ht hu
  · rw [h1, h2, no (S := S1) n1, no (S := S2) n2]
    simp [ends]

/-- **C158.** A dof of an outer 1-form in the plane is an edge between neighbouring nodes, first those along y. -/
theorem edgeOuter_spec (e : Elem2) (d : ℕ) (s : (ℚ × ℚ) × (ℚ × ℚ)) :
    edgeOuter e d = some s ↔
      (∃ i j, i < e.p.1 + 1 ∧ j < e.p.2 ∧ d = 0 + i + (e.p.1 + 1) * j ∧ s = (e.map (e.X i) (e.Y j), e.map (e.X i) (e.Y (j + 1)))) ∨
      (∃ i j, i < e.p.1 ∧ j < e.p.2 + 1 ∧ d = (e.p.1 + 1) * e.p.2 + i + e.p.1 * j ∧ s = (e.map (e.X i) (e.Y j), e.map (e.X (i + 1)) (e.Y j))) := by
  rw [← at_flat (Q := fun i j => s = (e.map (e.X i) (e.Y j), e.map (e.X (i + 1)) (e.Y j))),
    ← at_flat (Q := fun i j => s = (e.map (e.X i) (e.Y j), e.map (e.X i) (e.Y (j + 1))))]
  set S1 : ℕ × ℕ × ℕ → (ℚ × ℚ) × (ℚ × ℚ) := fun t => (e.map (e.X t.1) (e.Y t.2.1), e.map (e.X (t.1 + 1)) (e.Y t.2.1))
  set S2 : ℕ × ℕ × ℕ → (ℚ × ℚ) × (ℚ × ℚ) := fun t => (e.map (e.X t.1) (e.Y t.2.1), e.map (e.X t.1) (e.Y (t.2.1 + 1)))
  unfold edgeOuter
  rcases two (e.p.1 + 1) e.p.2 e.p.1 (e.p.2 + 1) d rfl with ⟨t, ht, h1, h2, n2⟩ | ⟨t, ht, h1, h2, n1⟩ | ⟨h1, h2, n1, n2⟩
  · rw [h1, h2, no (S := S1) n2, or_false]
    exact only (S := S2) ht fun u hu => at_unique ht hu
  · rw [h1, h2, no (S := S2) n1, false_or]
    exact only (S := S1) ht fun u hu => at_unique ht hu
  · rw [h1, h2, no (S := S1) n2, no (S := S2) n1]
    simp [ends]

/-- **C158.** A dof of a 2-form in the plane, on an element whose mapping treats the two axes apart, is the cell between neighbouring nodes: the
corners given are the images of the corners, in their order around the cell. -/
theorem cell2_spec_partial (e : Elem2) {f g : ℚ → ℚ} (hm : ∀ a b, e.map a b = (f a, g b)) (d : ℕ) (s : List (ℚ × ℚ)) :
    cell2 e d = some s ↔ ∃ i j, i < e.p.1 ∧ j < e.p.2 ∧ d = 0 + i + e.p.1 * j ∧
      s = [e.map (e.X i) (e.Y j), e.map (e.X (i + 1)) (e.Y j), e.map (e.X (i + 1)) (e.Y (j + 1)), e.map (e.X i) (e.Y (j + 1))] := by
  rw [← at_flat (Q := fun i j => s = [e.map (e.X i) (e.Y j), e.map (e.X (i + 1)) (e.Y j), e.map (e.X (i + 1)) (e.Y (j + 1)), e.map (e.X i) (e.Y (j + 1))])]
  set S : ℕ × ℕ × ℕ → List (ℚ × ℚ) := fun t =>
    [e.map (e.X t.1) (e.Y t.2.1), e.map (e.X (t.1 + 1)) (e.Y t.2.1), e.map (e.X (t.1 + 1)) (e.Y (t.2.1 + 1)), e.map (e.X t.1) (e.Y (t.2.1 + 1))] with hS
  unfold cell2
  rcases one 0 e.p.1 e.p.2 1 d with ⟨t, ht, h⟩ | ⟨hd, h⟩
  · rw [h]
    have : (some [e.map (e.X t.1) (e.Y t.2.1), ((e.map (e.X (t.1 + 1)) (e.Y (t.2.1 + 1))).1, (e.map (e.X t.1) (e.Y t.2.1)).2),
        e.map (e.X (t.1 + 1)) (e.Y (t.2.1 + 1)), ((e.map (e.X t.1) (e.Y t.2.1)).1, (e.map (e.X (t.1 + 1)) (e.Y (t.2.1 + 1))).2)]) = some (S t) := by
      simp only [hS, hm]
    exact (Eq.congr_left this).trans (only (S := S) ht fun u hu => at_unique ht hu)
  · rw [h, no (S := S) hd]
    simp

end Phyem.Boxes
