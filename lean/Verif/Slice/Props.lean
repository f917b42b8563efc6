import Verif.Slice.Lemmas
import Verif.PoolGM.Spec3
import Mathlib.Algebra.Order.Floor.Ring
import Mathlib.Data.Rat.Floor

/-!
# Elements, nodes, faces and edges of the periodic slice
-/

namespace Phyem.Slice

open Phyem.Dict Phyem.PoolGM

variable {layout : Layout} {x0 x1 y0 y1 t : ℚ} {levels : ℤ} {kx ky kz : ℕ} {m : Dict ℕ Elem}

/-- A mesh is made exactly for two positive numbers of elements, a positive number of levels, a positive thickness and
bounds in order. -/
theorem slice_iff : (∃ m, slice layout x0 x1 y0 y1 t levels = some m) ↔
    ∃ kx ky kz, Accepted layout x0 x1 y0 y1 t levels kx ky kz :=
  ⟨fun ⟨_, h⟩ => slice_accepted h, fun ⟨_, _, _, h⟩ => ⟨_, slice_eq h⟩⟩

lemma mem_slice (h : Accepted layout x0 x1 y0 y1 t levels kx ky kz) (hm : slice layout x0 x1 y0 y1 t levels = some m)
    {e : ℕ} {x : Elem} : (e, x) ∈ m ↔ ∃ c : Fin 3 → ℕ, (∀ a, c a < ![kx, ky, kz] a) ∧ e = ix ![kx, ky, kz] c ∧
      x = el ![x0, y0, -t / 2] ![x1 - x0, y1 - y0, t] ![kx, ky, kz] c := by
  rw [slice_eq h] at hm
  obtain rfl := Option.some.inj hm
  exact mem_list

lemma count_pos (h : Accepted layout x0 x1 y0 y1 t levels kx ky kz) : ∀ a, 0 < ![kx, ky, kz] a := by
  obtain ⟨-, -, hx, hy, hz, -⟩ := h
  intro a
  fin_cases a
  · exact hx
  · exact hy
  · exact hz

lemma length_pos (h : Accepted layout x0 x1 y0 y1 t levels kx ky kz) : ∀ a, 0 < ![x1 - x0, y1 - y0, t] a := by
  obtain ⟨-, -, -, -, -, hx, hy, hz⟩ := h
  intro a
  fin_cases a
  · exact sub_pos.2 hx
  · exact sub_pos.2 hy
  · exact hz

/-- The elements are numbered from zero on and all have the same size, the size of the domain over the number of
elements along each axis. -/
theorem elements_spec (h : Accepted layout x0 x1 y0 y1 t levels kx ky kz)
    (hm : slice layout x0 x1 y0 y1 t levels = some m) :
    keys m = List.range (kx * ky * kz) ∧
      ∀ e x, (e, x) ∈ m → x.delta = ((x1 - x0) / kx, (y1 - y0) / ky, t / kz) := by
  constructor
  · rw [slice_eq h] at hm
    obtain rfl := Option.some.inj hm
    exact keys_list ..
  · intro e x hx
    obtain ⟨c, -, -, rfl⟩ := (mem_slice h hm).1 hx
    rfl

example : ∃ m, slice (.many [4, 3]) 0 2 0 3 (1 / 2) 1 = some m ∧ keys m = List.range 12 ∧
    (get m 5).map (fun x => (x.origin, x.delta)) = some ((1 / 2, 1, -1 / 4), (1 / 2, 1, 1 / 2)) := by
  have h : Accepted (.many [4, 3]) 0 2 0 3 (1 / 2) 1 4 3 1 := by
    refine ⟨rfl, rfl, ?_, ?_, ?_, ?_, ?_, ?_⟩ <;> norm_num
  obtain ⟨m, hm⟩ := slice_iff.2 ⟨_, _, _, h⟩
  refine ⟨m, hm, (elements_spec h hm).1, ?_⟩
  obtain rfl : (slice (.many [4, 3]) 0 2 0 3 (1 / 2) 1).getD [] = m := by rw [hm]; rfl
  decide +kernel

lemma cell_unique {lo len : ℚ} {K : ℕ} (hK : 0 < K) (hl : 0 < len) (p : ℚ) {c c' : ℕ}
    (h1 : lo + len * c / K ≤ p) (h2 : p < lo + len * c / K + len / K)
    (h1' : lo + len * c' / K ≤ p) (h2' : p < lo + len * c' / K + len / K) : c = c' := by
  have hK' : (0 : ℚ) < K := by exact_mod_cast hK
  have key : ∀ {u v : ℕ}, lo + len * u / K ≤ p → p < lo + len * v / K + len / K → u ≤ v := by
    intro u v a b
    have : len * u / K < len * v / K + len / K := by linarith
    rw [← add_div, div_lt_div_iff_of_pos_right hK'] at this
    have : len * u < len * (v + 1) := by linarith
    have : (u : ℚ) < v + 1 := lt_of_mul_lt_mul_left this hl.le
    have : u < v + 1 := by exact_mod_cast this
    omega
  exact Nat.le_antisymm (key h1 h2') (key h1' h2)

lemma cell_exists {lo len : ℚ} {K : ℕ} (hK : 0 < K) (hl : 0 < len) {p : ℚ} (h1 : lo ≤ p) (h2 : p < lo + len) :
    ∃ c < K, lo + len * (c : ℕ) / K ≤ p ∧ p < lo + len * (c : ℕ) / K + len / K := by
  have hK' : (0 : ℚ) < K := by exact_mod_cast hK
  have h0 : 0 ≤ (p - lo) * K / len := by
    have : 0 ≤ p - lo := by linarith
    positivity
  have hc : (p - lo) * K / len < K := by
    rw [div_lt_iff₀ hl]
    nlinarith
  refine ⟨⌊(p - lo) * K / len⌋₊, ?_, ?_, ?_⟩
  · exact (Nat.floor_lt h0).2 hc
  · have := Nat.floor_le h0
    rw [le_div_iff₀ hl] at this
    have : len * (⌊(p - lo) * K / len⌋₊ : ℚ) / K ≤ p - lo := by
      rw [div_le_iff₀ hK']; linarith
    linarith
  · have := Nat.lt_floor_add_one ((p - lo) * K / len)
    rw [div_lt_iff₀ hl] at this
    have : p - lo < (len * (⌊(p - lo) * K / len⌋₊ : ℚ) + len) / K := by
      rw [lt_div_iff₀ hK']; linarith
    rw [add_div] at this
    linarith

lemma coord_origin {lo len : Fin 3 → ℚ} {K c : Fin 3 → ℕ} (a : Fin 3) :
    coord (el lo len K c).origin a = lo a + len a * c a / K a := by fin_cases a <;> rfl

lemma coord_delta {lo len : Fin 3 → ℚ} {K c : Fin 3 → ℕ} (a : Fin 3) :
    coord (el lo len K c).delta a = len a / K a := by fin_cases a <;> rfl

/-- Every point of the domain lies in exactly one element, and a point that lies in an element lies in the domain. -/
theorem tiling (h : Accepted layout x0 x1 y0 y1 t levels kx ky kz)
    (hm : slice layout x0 x1 y0 y1 t levels = some m) (p : Fin 3 → ℚ) :
    ((x0 ≤ p 0 ∧ p 0 < x1) ∧ (y0 ≤ p 1 ∧ p 1 < y1) ∧ (-t / 2 ≤ p 2 ∧ p 2 < t / 2) → ∃! e, ∃ x, (e, x) ∈ m ∧ Inside p x) ∧
      ∀ e x, (e, x) ∈ m → Inside p x →
        (x0 ≤ p 0 ∧ p 0 < x1) ∧ (y0 ≤ p 1 ∧ p 1 < y1) ∧ (-t / 2 ≤ p 2 ∧ p 2 < t / 2) := by
  have hK := count_pos h
  have hl := length_pos h
  constructor
  · rintro ⟨h0, h1, h2⟩
    have hp : ∀ a, ![x0, y0, -t / 2] a ≤ p a ∧ p a < ![x0, y0, -t / 2] a + ![x1 - x0, y1 - y0, t] a := by
      intro a
      fin_cases a
      · exact ⟨h0.1, by show p 0 < x0 + (x1 - x0); linarith [h0.2]⟩
      · exact ⟨h1.1, by show p 1 < y0 + (y1 - y0); linarith [h1.2]⟩
      · exact ⟨h2.1, by show p 2 < -t / 2 + t; linarith [h2.2]⟩
    choose c hc1 hc2 hc3 using fun a => cell_exists (hK a) (hl a) (hp a).1 (hp a).2
    refine ⟨_, ⟨_, (mem_slice h hm).2 ⟨c, hc1, rfl, rfl⟩, fun a => ?_⟩, ?_⟩
    · rw [coord_origin, coord_delta]
      exact ⟨hc2 a, hc3 a⟩
    · rintro e ⟨x, hx, hin⟩
      obtain ⟨c', -, rfl, rfl⟩ := (mem_slice h hm).1 hx
      have : c' = c := by
        funext a
        have := hin a
        rw [coord_origin, coord_delta] at this
        exact cell_unique (hK a) (hl a) (p a) this.1 this.2 (hc2 a) (hc3 a)
      rw [this]
  · intro e x hx hin
    obtain ⟨c, hc, -, rfl⟩ := (mem_slice h hm).1 hx
    have key : ∀ a, ![x0, y0, -t / 2] a ≤ p a ∧ p a < ![x0, y0, -t / 2] a + ![x1 - x0, y1 - y0, t] a := by
      intro a
      have := hin a
      rw [coord_origin, coord_delta] at this
      have hK' : (0 : ℚ) < (![kx, ky, kz] a : ℕ) := by exact_mod_cast hK a
      have hle : ((c a : ℕ) : ℚ) + 1 ≤ (![kx, ky, kz] a : ℕ) := by exact_mod_cast hc a
      have hla := hl a
      constructor
      · refine le_trans ?_ this.1
        have : 0 ≤ ![x1 - x0, y1 - y0, t] a * (c a : ℚ) / (![kx, ky, kz] a : ℕ) := by positivity
        linarith
      · refine lt_of_lt_of_le this.2 ?_
        have : ![x1 - x0, y1 - y0, t] a * (c a : ℚ) / (![kx, ky, kz] a : ℕ) + ![x1 - x0, y1 - y0, t] a / (![kx, ky, kz] a : ℕ) ≤
            ![x1 - x0, y1 - y0, t] a := by
          rw [← add_div, div_le_iff₀ hK']
          nlinarith
        linarith
    have k0 := key 0
    have k1 := key 1
    have k2 := key 2
    have e0 : p 0 < x0 + (x1 - x0) := k0.2
    have e1 : p 1 < y0 + (y1 - y0) := k1.2
    have e2 : p 2 < -t / 2 + t := k2.2
    exact ⟨⟨k0.1, by linarith⟩, ⟨k1.1, by linarith⟩, ⟨k2.1, by linarith⟩⟩

/-- Two corners of two elements have the same node exactly when they are the same place of the periodic domain. -/
theorem nodes_spec (h : Accepted layout x0 x1 y0 y1 t levels kx ky kz)
    (hm : slice layout x0 x1 y0 y1 t levels = some m) {e e' : ℕ} {x x' : Elem} (hx : (e, x) ∈ m) (hx' : (e', x') ∈ m)
    (D D' : Fin 3 → Bool) :
    node x D = node x' D' ↔ Congruent ![x1 - x0, y1 - y0, t] (pos x D) (pos x' D') := by
  obtain ⟨c, -, -, rfl⟩ := (mem_slice h hm).1 hx
  obtain ⟨c', -, -, rfl⟩ := (mem_slice h hm).1 hx'
  rw [node_el, node_el, nd_inj (count_pos h), congruent_iff (count_pos h) (length_pos h)]

/-- The nodes are numbered from zero on, as many as there are elements, and every number is used. -/
theorem nodes_used (h : Accepted layout x0 x1 y0 y1 t levels kx ky kz)
    (hm : slice layout x0 x1 y0 y1 t levels = some m) (n : ℕ) :
    (∃ e x D, (e, x) ∈ m ∧ node x D = n) ↔ n < kx * ky * kz := by
  have hK := count_pos h
  constructor
  · rintro ⟨e, x, D, hx, rfl⟩
    obtain ⟨c, -, -, rfl⟩ := (mem_slice h hm).1 hx
    rw [node_el]
    exact nd_lt hK
  · intro hn
    have hx : 0 < kx := hK 0
    have hy : 0 < ky := hK 1
    refine ⟨_, _, fun _ => false, (mem_slice h hm).2 ⟨![n % kx, n / kx % ky, n / kx / ky], fun a => ?_, rfl, rfl⟩, ?_⟩
    · fin_cases a
      · exact Nat.mod_lt _ hx
      · exact Nat.mod_lt _ hy
      · show n / kx / ky < kz
        rw [Nat.div_div_eq_div_mul, Nat.div_lt_iff_lt_mul (by positivity)]
        rw [Nat.mul_comm]; exact hn
    · rw [node_el]
      have h3 : n / kx / ky < kz := by
        rw [Nat.div_div_eq_div_mul, Nat.div_lt_iff_lt_mul (by positivity)]
        rw [Nat.mul_comm]; exact hn
      show (n % kx + 0) % kx + kx * ((n / kx % ky + 0) % ky) + kx * ky * ((n / kx / ky + 0) % kz) = n
      rw [Nat.add_zero, Nat.add_zero, Nat.add_zero, Nat.mod_mod, Nat.mod_mod, Nat.mod_eq_of_lt h3]
      have a1 := Nat.mod_add_div n kx
      have a2 := Nat.mod_add_div (n / kx) ky
      calc n % kx + kx * (n / kx % ky) + kx * ky * (n / kx / ky) = n % kx + kx * (n / kx % ky + ky * (n / kx / ky)) := by ring
        _ = n := by rw [a2, a1]

/-- The lists of nodes under which the numberings of forms look up edges and faces are the ones of the specification. -/
theorem keys_are (x : Elem) (s s' : Bool) :
    xFace x.hex s = faceNodes x 0 s ∧ yFace x.hex s = faceNodes x 1 s ∧ zFace x.hex s = faceNodes x 2 s ∧
      xEdge x.hex s s' = edgeNodes x 0 ![false, s, s'] ∧ yEdge x.hex s s' = edgeNodes x 1 ![s, false, s'] ∧
      zEdge x.hex s s' = edgeNodes x 2 ![s, s', false] := by
  cases s <;> cases s' <;> exact ⟨rfl, rfl, rfl, rfl, rfl, rfl⟩

lemma modEq_step {n a b : ℕ} (h : a ≡ b [MOD n]) (h' : a + 1 ≡ b [MOD n]) : n = 1 := by
  have : a + 1 ≡ a + 0 [MOD n] := h'.trans h.symm
  have := Nat.ModEq.add_left_cancel' a this
  exact Nat.dvd_one.1 ((Nat.modEq_zero_iff_dvd).1 this)

/-- Two edges have the same nodes in the same order exactly when they are the same edge of the periodic domain, if at
most one of the numbers of elements is one. -/
theorem edge_nodes_iff (h : Accepted layout x0 x1 y0 y1 t levels kx ky kz)
    (hm : slice layout x0 x1 y0 y1 t levels = some m)
    (h1 : (1 < kx ∨ 1 < ky) ∧ (1 < kx ∨ 1 < kz) ∧ (1 < ky ∨ 1 < kz)) {e e' : ℕ} {x x' : Elem} (hx : (e, x) ∈ m)
    (hx' : (e', x') ∈ m) (a a' : Fin 3) (D D' : Fin 3 → Bool) :
    edgeNodes x a D = edgeNodes x' a' D' ↔ SameEdge ![x1 - x0, y1 - y0, t] x a D x' a' D' := by
  have hK := count_pos h
  have htwo : ∀ a b : Fin 3, a ≠ b → ![kx, ky, kz] a = 1 → ![kx, ky, kz] b = 1 → False := by
    obtain ⟨h1, h2, h3⟩ := h1
    intro a b hab ha hb
    fin_cases a <;> fin_cases b <;> first | exact hab rfl | skip
    all_goals (simp at ha hb; omega)
  unfold edgeNodes SameEdge
  simp only [List.cons.injEq, and_true]
  rw [nodes_spec h hm hx hx', nodes_spec h hm hx hx']
  constructor
  · rintro ⟨hf, ht⟩
    have haa : a = a' := by
      obtain ⟨c, -, -, rfl⟩ := (mem_slice h hm).1 hx
      obtain ⟨c', -, -, rfl⟩ := (mem_slice h hm).1 hx'
      rw [congruent_iff hK (length_pos h)] at hf ht
      by_contra hne
      refine htwo a a' hne ?_ ?_
      · have u := hf a
        have v := ht a
        rw [Function.update_self, Function.update_of_ne hne] at u v
        simp only [bit, Bool.false_eq_true, if_false, if_true, Nat.add_zero] at u v
        exact modEq_step u v
      · have u := hf a'
        have v := ht a'
        rw [Function.update_self, Function.update_of_ne (Ne.symm hne)] at u v
        simp only [bit, Bool.false_eq_true, if_false, if_true, Nat.add_zero] at u v
        exact modEq_step u.symm v.symm
    subst haa
    exact ⟨rfl, fun s => by cases s <;> assumption⟩
  · rintro ⟨rfl, hs⟩
    exact ⟨hs false, hs true⟩

/-- Four by three elements and one level meet the hypotheses. -/
example : Accepted (.many [4, 3]) 0 2 0 3 (1 / 2) 1 4 3 1 ∧
    ((1 < 4 ∨ 1 < 3) ∧ (1 < 4 ∨ 1 < 1) ∧ (1 < 3 ∨ 1 < 1)) := by
  refine ⟨⟨rfl, rfl, ?_, ?_, ?_, ?_, ?_, ?_⟩, ?_⟩ <;> norm_num

end Phyem.Slice
