import Verif.Degree.Model
import Mathlib.Tactic.Linarith
import Mathlib.Data.List.Forall2
import Mathlib.Algebra.Order.BigOperators.Group.List

/-! Which degrees are accepted. -/

namespace Phyem.Degree

lemma nat_of {q : ℚ} (hd : q.den = 1) (h0 : 0 < q) : ∃ n : ℕ, 0 < n ∧ q = n := by
  have hq : q = (q.num : ℚ) := by
    conv_lhs => rw [← Rat.num_div_den q, hd]
    simp
  have hn : 0 < q.num := Rat.num_pos.2 h0
  refine ⟨q.num.toNat, by omega, ?_⟩
  have h : ((q.num.toNat : ℤ) : ℚ) = (q.num : ℚ) := by rw [Int.toNat_of_nonneg hn.le]
  rw [Int.cast_natCast] at h
  exact hq.trans h.symm

lemma whole_iff (q : ℚ) : whole q = true ↔ ∃ n : ℕ, 0 < n ∧ q = n := by
  simp only [whole, Bool.and_eq_true, decide_eq_true_eq]
  constructor
  · rintro ⟨hd, h0⟩
    exact nat_of hd h0
  · rintro ⟨n, hn, rfl⟩
    exact ⟨Rat.den_natCast n, by exact_mod_cast hn⟩

lemma lobatto_iff (q : ℚ) (n : ℕ) : lobatto q = some n ↔ 0 < n ∧ q = n := by
  unfold lobatto
  constructor
  · intro h
    split at h
    · rename_i h1
      split at h
      · rename_i h2
        obtain ⟨k, hk, rfl⟩ := nat_of h1.2 (Rat.num_pos.1 (by omega))
        simp only [Rat.num_natCast, Int.toNat_natCast, Option.some.injEq] at h
        subst h
        exact ⟨hk, rfl⟩
      · cases h
    · cases h
  · rintro ⟨hn, rfl⟩
    rw [if_pos ⟨by exact_mod_cast hn.le, Rat.den_natCast n⟩, if_pos (by rw [Rat.num_natCast]; omega)]
    simp

lemma mapM_iff {α β : Type} (f : α → Option β) : ∀ (l : List α) (p : List β), l.mapM f = some p ↔ List.Forall₂ (fun x y => f x = some y) l p
  | [], p => by cases p <;> simp
  | x :: l, p => by
    rw [List.mapM_cons]
    cases hx : f x with
    | none =>
      simp only [Option.bind_eq_bind, Option.bind_none, reduceCtorEq, false_iff]
      intro h
      cases h with
      | cons h1 h2 => rw [hx] at h1; cases h1
    | some y =>
      cases hl : l.mapM f with
      | none =>
        simp only [Option.bind_eq_bind, Option.bind_none, Option.bind_some, reduceCtorEq, false_iff]
        intro h
        cases h with
        | cons h1 h2 => rw [(mapM_iff f l _).2 h2] at hl; cases hl
      | some r =>
        have hr := (mapM_iff f l r).1 hl
        simp only [Option.bind_eq_bind, Option.bind_some, Option.pure_def, Option.some.injEq]
        constructor
        · rintro rfl; exact .cons hx hr
        · intro h
          cases h with
          | cons h1 h2 =>
            rw [hx, Option.some.injEq] at h1
            rw [(mapM_iff f l _).2 h2, Option.some.injEq] at hl
            rw [h1, hl]

lemma lobattos_iff (l : List ℚ) (p : List ℕ) : l.mapM lobatto = some p ↔ (∀ n ∈ p, 0 < n) ∧ l = p.map fun (n : ℕ) => (n : ℚ) := by
  rw [mapM_iff]
  constructor
  · intro h
    induction h with
    | nil => simp
    | cons h1 _ ih =>
      obtain ⟨h1, h2⟩ := (lobatto_iff _ _).1 h1
      exact ⟨by simpa using ⟨h1, ih.1⟩, by simp [h2, ← ih.2]⟩
  · rintro ⟨hp, rfl⟩
    induction p with
    | nil => simp
    | cons n p ih => exact .cons ((lobatto_iff _ _).2 ⟨hp n List.mem_cons_self, rfl⟩) (ih fun k hk => hp k (List.mem_cons_of_mem _ hk))

lemma single_iff (m : ℕ) (q : ℚ) (p : List ℕ) : (if whole q then (List.replicate m q).mapM lobatto else none) = some p ↔
    ∃ n : ℕ, 0 < n ∧ q = n ∧ p = List.replicate m n := by
  constructor
  · intro h
    split at h
    · rename_i hw
      obtain ⟨n, hn, rfl⟩ := (whole_iff q).1 hw
      refine ⟨n, hn, rfl, ?_⟩
      have h' : (List.replicate m (n : ℚ)).mapM lobatto = some (List.replicate m n) :=
        (lobattos_iff _ _).2 ⟨fun k hk => (List.mem_replicate.1 hk).2 ▸ hn, by simp⟩
      rw [h', Option.some.injEq] at h
      exact h.symm
    · cases h
  · rintro ⟨n, hn, rfl, rfl⟩
    rw [if_pos ((whole_iff _).2 ⟨n, hn, rfl⟩)]
    exact (lobattos_iff _ _).2 ⟨fun k hk => (List.mem_replicate.1 hk).2 ▸ hn, by simp⟩

lemma ints_iff (l : List Py) (p : List ℕ) : (l.all isInt = true ∧ ∃ q, l.mapM num = some q ∧ q.mapM lobatto = some p) ↔
    (∀ n ∈ p, 0 < n) ∧ l = p.map fun (n : ℕ) => .int n := by
  constructor
  · rintro ⟨ha, q, hq, hp⟩
    obtain ⟨h0, rfl⟩ := (lobattos_iff _ _).1 hp
    refine ⟨h0, ?_⟩
    clear hp h0
    rw [mapM_iff] at hq
    induction p generalizing l with
    | nil => cases hq; rfl
    | cons n p ih =>
      cases hq with
      | @cons x _ l _ h1 h2 =>
        simp only [List.all_cons, Bool.and_eq_true] at ha
        cases x with
        | int k =>
          simp only [num, Option.some.injEq] at h1
          have : k = (n : ℤ) := by exact_mod_cast h1
          rw [this, ih l ha.2 h2]; rfl
        | _ => simp [isInt] at ha
  · rintro ⟨h0, rfl⟩
    refine ⟨by simp [isInt], p.map fun (n : ℕ) => (n : ℚ), ?_, (lobattos_iff _ _).2 ⟨h0, rfl⟩⟩
    rw [mapM_iff, List.forall₂_map_left_iff, List.forall₂_map_right_iff, List.forall₂_same]
    intro n _
    simp [num]

/-- C190: a degree of a space of forms is accepted iff it is a positive integer, which is then the degree along each axis, or one positive integer for each
axis. -/
theorem parse_iff (m : ℕ) (d : Py) (p : List ℕ) : parse m d = some p ↔
    (∃ n : ℕ, 0 < n ∧ (d = .int n ∨ d = .flt n) ∧ p = List.replicate m n) ∨
    (p.length = m ∧ (∀ n ∈ p, 0 < n) ∧ d = .seq (p.map fun (n : ℕ) => .int n)) := by
  cases d with
  | int k =>
    simp only [parse, single_iff, Py.int.injEq, reduceCtorEq, or_false, and_false]
    constructor
    · rintro ⟨n, h1, h2, h3⟩; exact ⟨n, h1, by exact_mod_cast h2, h3⟩
    · rintro ⟨n, h1, h2, h3⟩; exact ⟨n, h1, by exact_mod_cast h2, h3⟩
  | flt q => simp only [parse, single_iff, Py.flt.injEq, reduceCtorEq, false_or, or_false, and_false]
  | seq l =>
    simp only [parse, reduceCtorEq, or_self, false_and, and_false, exists_false, false_or, Py.seq.injEq]
    have h := ints_iff l p
    constructor
    · intro e
      split at e
      · rename_i ha
        split at e
        · rename_i hl
          obtain ⟨q, hq, hp⟩ := Option.bind_eq_some_iff.1 e
          obtain ⟨h1, h2⟩ := h.1 ⟨ha, q, hq, hp⟩
          exact ⟨by rw [← hl, h2]; simp, h1, h2⟩
        · cases e
      · cases e
    · rintro ⟨h1, h2, h3⟩
      obtain ⟨ha, q, hq, hp⟩ := h.2 ⟨h2, h3⟩
      rw [if_pos ha, if_pos (by rw [h3]; simpa using h1)]
      exact Option.bind_eq_some_iff.2 ⟨q, hq, hp⟩
  | other => simp [parse]

/-- An integer, possibly written as a float. -/
def Is (y : Py) (n : ℕ) : Prop := y = .int n ∨ y = .flt n

lemma num_is (y : Py) (n : ℕ) : num y = some (n : ℚ) ↔ Is y n := by
  cases y with
  | int k => simp only [num, Option.some.injEq, Is, Py.int.injEq, reduceCtorEq, or_false]; exact ⟨fun h => by exact_mod_cast h, fun h => by exact_mod_cast h⟩
  | flt q => simp [num, Is]
  | _ => simp [num, Is]

lemma row_iff (m : ℕ) (x : Py) (r : List ℕ) : (∃ q, row m x = some q ∧ q.mapM lobatto = some r) ↔
    r.length = m ∧ (∀ n ∈ r, 0 < n) ∧ ∃ u, x = .seq u ∧ List.Forall₂ Is u r := by
  constructor
  · rintro ⟨q, hq, hr⟩
    obtain ⟨h0, rfl⟩ := (lobattos_iff _ _).1 hr
    cases x with
    | seq u =>
      simp only [row] at hq
      split at hq
      · rename_i hl
        obtain ⟨q', hq', e⟩ := Option.bind_eq_some_iff.1 hq
        split at e
        · rw [Option.some.injEq] at e
          subst e
          rw [mapM_iff, List.forall₂_map_right_iff] at hq'
          have := hq'.imp fun y n h => (num_is y n).1 h
          exact ⟨by rw [← hl, this.length_eq], h0, u, rfl, this⟩
        · cases e
      · cases hq
    | _ => cases hq
  · rintro ⟨hl, h0, u, rfl, hu⟩
    refine ⟨r.map fun (n : ℕ) => (n : ℚ), ?_, (lobattos_iff _ _).2 ⟨h0, rfl⟩⟩
    simp only [row]
    rw [if_pos (by rw [hu.length_eq, hl])]
    have hq : u.mapM num = some (r.map fun (n : ℕ) => (n : ℚ)) := by
      rw [mapM_iff, List.forall₂_map_right_iff]
      exact hu.imp fun y n h => (num_is y n).2 h
    rw [hq, Option.bind_some, if_pos]
    rw [List.all_map, List.all_eq_true]
    intro n hn
    exact (whole_iff _).2 ⟨n, h0 n hn, rfl⟩

lemma singleB_iff (m : ℕ) (q : ℚ) (p : List (List ℕ)) :
    (if whole q then (List.replicate m (List.replicate m q)).mapM fun r => r.mapM lobatto else none) = some p ↔
      ∃ n : ℕ, 0 < n ∧ q = n ∧ p = List.replicate m (List.replicate m n) := by
  have key : ∀ n : ℕ, 0 < n → ((List.replicate m (List.replicate m (n : ℚ))).mapM fun r => r.mapM lobatto) = some (List.replicate m (List.replicate m n)) := by
    intro n hn
    have h' : (List.replicate m (n : ℚ)).mapM lobatto = some (List.replicate m n) :=
      (lobattos_iff _ _).2 ⟨fun k hk => (List.mem_replicate.1 hk).2 ▸ hn, by simp⟩
    rw [mapM_iff]
    generalize hM : (List.replicate m (n : ℚ)) = a at h' ⊢
    generalize hN : (List.replicate m n) = b at h' ⊢
    clear hM hN
    induction m with
    | zero => exact .nil
    | succ m ih => exact .cons h' ih
  constructor
  · intro h
    split at h
    · rename_i hw
      obtain ⟨n, hn, rfl⟩ := (whole_iff q).1 hw
      rw [key n hn, Option.some.injEq] at h
      exact ⟨n, hn, rfl, h.symm⟩
    · cases h
  · rintro ⟨n, hn, rfl, rfl⟩
    rw [if_pos ((whole_iff _).2 ⟨n, hn, rfl⟩)]
    exact key n hn

/-- C190: a degree of a space of bundle-valued forms is accepted iff it is a positive integer or a square matrix of positive integers. -/
theorem parseB_iff (m : ℕ) (d : Py) (p : List (List ℕ)) : parseB m d = some p ↔
    (∃ n : ℕ, 0 < n ∧ Is d n ∧ p = List.replicate m (List.replicate m n)) ∨
    (p.length = m ∧ ∃ l, d = .seq l ∧ List.Forall₂ (fun x r => r.length = m ∧ (∀ n ∈ r, 0 < n) ∧ ∃ u, x = .seq u ∧ List.Forall₂ Is u r) l p) := by
  cases d with
  | int k =>
    simp only [parseB, singleB_iff, Is, Py.int.injEq, reduceCtorEq, or_false, false_and, and_false, exists_false]
    constructor
    · rintro ⟨n, h1, h2, h3⟩; exact ⟨n, h1, by exact_mod_cast h2, h3⟩
    · rintro ⟨n, h1, h2, h3⟩; exact ⟨n, h1, by exact_mod_cast h2, h3⟩
  | flt q => simp only [parseB, singleB_iff, Is, Py.flt.injEq, reduceCtorEq, false_or, or_false, false_and, and_false, exists_false]
  | seq l =>
    simp only [parseB, Is, reduceCtorEq, or_self, false_and, and_false, exists_false, false_or, Py.seq.injEq, exists_eq_left']
    constructor
    · intro e
      split at e
      · rename_i hs
        split at e
        · rename_i hl
          obtain ⟨q, hq, hp⟩ := Option.bind_eq_some_iff.1 e
          rw [mapM_iff] at hq hp
          have h3 : List.Forall₂ (fun x r => r.length = m ∧ (∀ n ∈ r, 0 < n) ∧ ∃ u, x = .seq u ∧ List.Forall₂ Is u r) l p := by
            clear hl e hs
            induction hq generalizing p with
            | nil => cases hp; exact .nil
            | cons h1 _ ih =>
              cases hp with
              | cons h2 h4 => exact .cons ((row_iff m _ _).1 ⟨_, h1, h2⟩) (ih _ h4)
          exact ⟨by rw [← hl, h3.length_eq], h3⟩
        · cases e
      · cases e
    · rintro ⟨h1, h2⟩
      have hs : l.all isSeq = true := by
        clear h1
        induction h2 with
        | nil => rfl
        | cons h _ ih => obtain ⟨-, -, u, rfl, -⟩ := h; simpa [isSeq] using ih
      rw [if_pos hs, if_pos (by rw [h2.length_eq, h1])]
      clear h1 hs
      have : ∃ q, List.Forall₂ (fun x y => row m x = some y) l q ∧ List.Forall₂ (fun x y => List.mapM lobatto x = some y) q p := by
        induction h2 with
        | nil => exact ⟨[], .nil, .nil⟩
        | cons h _ ih =>
          obtain ⟨q, h3, h4⟩ := ih
          obtain ⟨y, h5, h6⟩ := (row_iff m _ _).2 h
          exact ⟨y :: q, .cons h5 h3, .cons h6 h4⟩
      obtain ⟨q, h3, h4⟩ := this
      exact Option.bind_eq_some_iff.2 ⟨q, (mapM_iff _ _ _).2 h3, (mapM_iff _ _ _).2 h4⟩
  | other => simp [parseB, Is]

/-- What the Lobatto nodes of a degree are supposed to be: one more than the degree, increasing from -1 to 1. -/
structure Lobatto (quad : ℕ → List ℚ) : Prop where
  length : ∀ n, 0 < n → (quad n).length = n + 1
  mono : ∀ n, 0 < n → (quad n).Pairwise (· < ·)
  first : ∀ n : ℕ, 0 < n → (quad n)[0]? = some (-1 : ℚ)
  last : ∀ n : ℕ, 0 < n → (quad n)[n]? = some (1 : ℚ)

lemma edge_get (l : List ℚ) (k : ℕ) (h : k + 1 < l.length) : (edge l)[k]? = some (l[k + 1] - l[k]) := by
  unfold edge
  rw [List.getElem?_zipWith, List.getElem?_tail, List.getElem?_eq_getElem h, List.getElem?_dropLast, if_pos (by omega),
    List.getElem?_eq_getElem (by omega)]

lemma edge_length (l : List ℚ) : (edge l).length = l.length - 1 := by simp [edge]

lemma edge_sum : ∀ (l : List ℚ) (x : ℚ), ((edge (x :: l)).sum) = (x :: l).getLast (by simp) - x
  | [], x => by simp [edge]
  | y :: l, x => by
    have h : edge (x :: y :: l) = (y - x) :: edge (y :: l) := rfl
    rw [h, List.sum_cons, edge_sum l y, List.getLast_cons (a := x) (l := y :: l) (by simp)]
    ring

/-- C190: along each axis there is one node more than the degree and as many edges as the degree; the edges are the distances of neighbouring nodes, positive,
and their sum is 2. -/
theorem edges_spec (quad : ℕ → List ℚ) (hq : Lobatto quad) (p : List ℕ) (hp : ∀ n ∈ p, 0 < n) (a n : ℕ) (ha : p[a]? = some n) :
    ∃ x h, (nodes quad p)[a]? = some x ∧ (edges quad p)[a]? = some h ∧ x.length = n + 1 ∧ h.length = n ∧ h.sum = 2 ∧
      ∀ k < n, ∃ u v, x[k]? = some u ∧ x[k + 1]? = some v ∧ h[k]? = some (v - u) ∧ u < v := by
  have hn : 0 < n := hp n (List.mem_of_getElem? ha)
  have hl := hq.length n hn
  refine ⟨quad n, edge (quad n), by simp [nodes, ha], by simp [edges, nodes, ha], hl, by rw [edge_length, hl]; rfl, ?_, ?_⟩
  · have h0 := hq.first n hn
    have h1 := hq.last n hn
    match hx : quad n, hl, h0, h1 with
    | x :: l, hl, h0, h1 =>
      rw [edge_sum, List.getLast_eq_getElem]
      simp only [List.getElem?_cons_zero, Option.some.injEq] at h0
      have : (x :: l)[(x :: l).length - 1]? = some 1 := by rw [hl]; exact h1
      rw [List.getElem?_eq_getElem (by simp), Option.some.injEq] at this
      rw [this, h0]; norm_num
  · intro k hk
    refine ⟨_, _, List.getElem?_eq_getElem (by omega), List.getElem?_eq_getElem (by omega), edge_get _ k (by omega), ?_⟩
    exact List.pairwise_iff_getElem.1 (hq.mono n hn) k (k + 1) (by omega) (by omega) (by omega)

end Phyem.Degree
