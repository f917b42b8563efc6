import Verif.Great.DistributeLemmas

/-!
C83: every element is given to one rank and every rank gets an element.
-/

namespace Phyem.Great

/-- A distribution of the elements `es` to `size` ranks: each element is with one rank and no rank is empty. -/
def Distributed (size : ℕ) (es : List ℕ) (d : List (List ℕ)) : Prop :=
  d.length = size ∧ d.flatten.Perm es ∧ ∀ l ∈ d, l ≠ []

theorem pile_stop (start t total p : ℕ) :
    (⌊(start : ℚ) + t * ((total : ℚ) / p)⌋).toNat + 1 = start + t * total / p + 1 := by
  have h : (start : ℚ) + t * ((total : ℚ) / p) = ((start : ℕ) : ℚ) + (((t * total : ℕ) : ℚ) / ((p : ℕ) : ℚ)) := by
    push_cast; ring
  rw [h, Int.floor_natCast_add, Rat.floor_natCast_div_natCast]
  have e : (start : ℤ) + ((t * total : ℕ) : ℤ) / ((p : ℕ) : ℤ) = ((start + t * total / p : ℕ) : ℤ) := by
    push_cast; rfl
  rw [e, Int.toNat_natCast]

theorem slice_append (es : List ℕ) (a b c : ℕ) (h1 : a ≤ b) (h2 : b ≤ c) :
    slice es (a, b) ++ slice es (b, c) = slice es (a, c) := by
  unfold slice
  simp only
  have : es.take b = (es.take c).take b := by rw [List.take_take, min_eq_left h2]
  rw [this]
  generalize es.take c = l
  rw [List.drop_take]
  have : l.drop b = (l.drop a).drop (b - a) := by rw [List.drop_drop]; congr 1; omega
  rw [this, List.take_append_drop]

theorem piles_three (es : List ℕ) (p n : ℕ) : ∀ start,
    (piles es.length p (List.replicate n 3) start).length = n ∧
    ((piles es.length p (List.replicate n 3) start).map (slice es)).flatten =
      slice es (start, start + n * (3 * es.length / p + 1)) ∧
    ((∀ l ∈ (piles es.length p (List.replicate n 3) start).map (slice es), 0 < l.length) ↔
      (n = 0 ∨ start + (n - 1) * (3 * es.length / p + 1) < es.length)) := by
  induction n with
  | zero =>
    intro start
    simp [piles, slice]
  | succ n ih =>
    intro start
    obtain ⟨h1, h2, h3⟩ := ih (start + 3 * es.length / p + 1)
    simp only [List.replicate_succ, piles, pile_stop]
    have hlen : (slice es (start, start + 3 * es.length / p + 1)).length =
        min (start + 3 * es.length / p + 1) es.length - start := by
      simp [slice]
    refine ⟨by simp [h1], ?_, ?_⟩
    · rw [List.map_cons, List.flatten_cons, h2, slice_append _ _ _ _ (by rw [Nat.add_assoc]; exact Nat.le_add_right _ _)
        (Nat.le_add_right _ _)]
      congr 2
      ring
    · rw [List.map_cons]
      simp only [List.forall_mem_cons]
      rw [h3, hlen]
      clear h1 h2 h3 hlen ih
      generalize 3 * es.length / p = b
      cases n with
      | zero => simp; omega
      | succ n =>
        simp only [Nat.add_sub_cancel, Nat.succ_ne_zero, false_or, Nat.add_eq_zero_iff, one_ne_zero, and_false]
        have : (n + 1) * (b + 1) = n * (b + 1) + (b + 1) := by ring
        rw [this]
        generalize n * (b + 1) = m
        constructor
        · rintro ⟨-, h⟩; omega
        · intro h
          exact ⟨by omega, by omega⟩

/-- The piles as a whole. -/
theorem piles_spec (es : List ℕ) (size : ℕ) (hs : 1 < size) :
    let p := 3 * (size - 1) + 1
    let d := (piles es.length p (1 :: List.replicate (size - 1) 3) 0).map (slice es)
    d.length = size ∧ d.flatten = es ∧
      ((∀ l ∈ d, 0 < l.length) ↔
        (es.length / p + 1) + (size - 2) * (3 * es.length / p + 1) < es.length) := by
  intro p d
  obtain ⟨h1, h2, h3⟩ := piles_three es p (size - 1) (es.length / p + 1)
  have hd : d = slice es (0, es.length / p + 1) ::
      (piles es.length p (List.replicate (size - 1) 3) (es.length / p + 1)).map (slice es) := by
    change (piles es.length p (1 :: List.replicate (size - 1) 3) 0).map (slice es) = _
    simp only [piles, pile_stop, List.map_cons, Nat.one_mul, Nat.zero_add]
  have hp : 0 < p := by omega
  rw [hd]
  refine ⟨by simp [h1]; omega, ?_, ?_⟩
  · rw [List.flatten_cons, h2, slice_append _ _ _ _ (Nat.zero_le _) (Nat.le_add_right _ _)]
    unfold slice
    simp only [List.drop_zero]
    apply List.take_of_length_le
    have a1 := Nat.lt_mul_div_succ es.length hp
    have a2 := Nat.lt_mul_div_succ (3 * es.length) hp
    by_contra hno
    push Not at hno
    have a3 : (es.length / p + 1 + (size - 1) * (3 * es.length / p + 1)) * p ≤ es.length * p :=
      Nat.mul_le_mul_right p hno.le
    have e : (es.length / p + 1 + (size - 1) * (3 * es.length / p + 1)) * p =
        p * (es.length / p + 1) + (size - 1) * (p * (3 * es.length / p + 1)) := by ring
    have a4 : (size - 1) * (3 * es.length) ≤ (size - 1) * (p * (3 * es.length / p + 1)) :=
      Nat.mul_le_mul_left _ a2.le
    have e2 : es.length * p = es.length + (size - 1) * (3 * es.length) := by
      change es.length * (3 * (size - 1) + 1) = _
      ring
    omega
  · simp only [List.forall_mem_cons]
    rw [h3]
    have hlen : (slice es (0, es.length / p + 1)).length = min (es.length / p + 1) es.length := by simp [slice]
    rw [hlen]
    have e : size - 1 - 1 = size - 2 := by omega
    rw [e]
    clear hlen h1 h2 h3 hd
    generalize (size - 2) * (3 * es.length / p + 1) = m
    generalize es.length / p = a
    constructor
    · rintro ⟨-, h | h⟩
      · omega
      · exact h
    · intro h
      exact ⟨by omega, .inr h⟩

theorem arraySplit_prefix (es : List ℕ) (size n : ℕ) (hs : 0 < size) (hle : size ≤ es.length) :
    let d := ((List.range n).map fun r =>
      (r * (es.length / size) + min r (es.length % size),
        (r + 1) * (es.length / size) + min (r + 1) (es.length % size))).map (slice es)
    d.flatten = es.take (n * (es.length / size) + min n (es.length % size)) ∧
      (n ≤ size → ∀ l ∈ d, 0 < l.length) := by
  induction n with
  | zero => simp
  | succ n ih =>
    simp only at ih ⊢
    rw [List.range_succ, List.map_append, List.map_append, List.flatten_append, ih.1]
    have hmono : n * (es.length / size) + min n (es.length % size) ≤
        (n + 1) * (es.length / size) + min (n + 1) (es.length % size) := by
      rw [Nat.add_mul]; omega
    constructor
    · simp only [List.map_cons, List.map_nil, List.flatten_cons, List.flatten_nil, List.append_nil]
      have := slice_append es 0 _ _ (Nat.zero_le _) hmono
      simpa [slice] using this
    · intro hn l hl
      rcases List.mem_append.1 hl with hl | hl
      · exact ih.2 (by omega) l hl
      · simp only [List.map_cons, List.map_nil, List.mem_singleton] at hl
        subst hl
        simp only [slice, List.length_drop, List.length_take]
        have hq : 0 < es.length / size := Nat.div_pos hle hs
        have hdm := Nat.div_add_mod es.length size
        have hub : (n + 1) * (es.length / size) + min (n + 1) (es.length % size) ≤ es.length := by
          have : (n + 1) * (es.length / size) ≤ size * (es.length / size) := Nat.mul_le_mul_right _ hn
          omega
        rw [min_eq_left hub, Nat.add_mul]
        omega

theorem arraySplit_spec (es : List ℕ) (size : ℕ) (hs : 0 < size) (hle : size ≤ es.length) :
    Distributed size es ((arraySplit es.length size).map (slice es)) ∧
      ∀ l ∈ (arraySplit es.length size).map (slice es), 0 < l.length := by
  obtain ⟨h1, h2⟩ := arraySplit_prefix es size size hs hle
  have hdm := Nat.div_add_mod es.length size
  have hlt := Nat.mod_lt es.length hs
  refine ⟨⟨by simp [arraySplit], ?_, ?_⟩, h2 le_rfl⟩
  · unfold arraySplit
    rw [h1, List.take_of_length_le]
    rw [min_eq_right hlt.le, hdm]
  · intro l hl h0
    have := h2 le_rfl l hl
    rw [h0] at this
    simp at this

theorem nonempty_eq (d d' : List (List ℕ)) : nonempty d = some d' ↔ d' = d ∧ ∀ l ∈ d, 0 < l.length := by
  unfold nonempty
  split_ifs with h
  · simp only [Option.some.injEq]
    exact ⟨fun e => ⟨e.symm, h⟩, fun e => e.1.symm⟩
  · simp only [reduceCtorEq, false_iff]
    exact fun e => h e.2

theorem single (es : List ℕ) : Distributed es.length es (es.map fun e => [e]) := by
  refine ⟨by simp, ?_, by simp⟩
  have : (es.map fun e => [e]).flatten = es := by
    induction es with
    | nil => rfl
    | cons e es ih => simpa using ih
  rw [this]

/-- Whatever the code returns gives each element to one rank and no rank nothing. -/
theorem distribute_right (structured : Bool) (dist : ℕ → ℕ → ℚ) (size : ℕ) (es : List ℕ) (hs : 0 < size)
    (hne : es ≠ []) (d : List (List ℕ)) (h : distribute structured dist size es = some d) :
    Distributed size es d := by
  have hpos : 0 < es.length := List.length_pos_iff.2 hne
  unfold distribute at h
  split_ifs at h with h1 h2 h3 h4 h5
  · obtain rfl := Option.some.inj h
    subst h1
    exact ⟨rfl, by simp, by simpa using hne⟩
  · obtain rfl := Option.some.inj h
    subst h3
    exact single es
  · obtain ⟨rfl, -⟩ := (nonempty_eq _ _).1 h
    exact (arraySplit_spec es size hs (by omega)).1
  · obtain ⟨rfl, hall⟩ := (nonempty_eq _ _).1 h
    obtain ⟨a1, a2, -⟩ := piles_spec es size (by omega)
    refine ⟨a1, by rw [a2], ?_⟩
    intro l hl h0
    have := hall l hl
    rw [h0] at this
    simp at this
  · obtain ⟨d', hd', hsp⟩ := naive_spec dist size es (by omega) (by omega)
    obtain rfl := Option.some.inj (h.symm.trans hd')
    exact hsp

/-- When the code returns a distribution. With fewer elements than ranks it does not. A mesh that is not structured is
distributed wherever its elements are. A structured one is, when it has up to four elements per rank; with more, when
the elements do not run out before the last rank. -/
theorem distribute_iff (structured : Bool) (dist : ℕ → ℕ → ℚ) (size : ℕ) (es : List ℕ) (hs : 1 < size) :
    (∃ d, distribute structured dist size es = some d) ↔
      size ≤ es.length ∧ (structured = true → 4 * size < es.length →
        (es.length / (3 * size - 2) + 1) + (size - 2) * (3 * es.length / (3 * size - 2) + 1) < es.length) := by
  have hp : 3 * (size - 1) + 1 = 3 * size - 2 := by omega
  unfold distribute
  rw [if_neg (by omega), hp]
  split_ifs with h2 h3 h4 h5
  · simp; omega
  · simp only [Option.some.injEq, exists_eq', true_iff]
    exact ⟨by omega, fun _ h => by omega⟩
  · constructor
    · intro _
      exact ⟨by omega, fun _ h => by omega⟩
    · intro _
      exact ⟨_, (nonempty_eq _ _).2 ⟨rfl, (arraySplit_spec es size (by omega) (by omega)).2⟩⟩
  · obtain ⟨a1, a2, a3⟩ := piles_spec es size hs
    rw [hp] at a3
    constructor
    · rintro ⟨d, hd⟩
      exact ⟨by omega, fun _ _ => a3.1 ((nonempty_eq _ _).1 hd).2⟩
    · rintro ⟨-, h⟩
      exact ⟨_, (nonempty_eq _ _).2 ⟨rfl, a3.2 (h h4 (by omega))⟩⟩
  · constructor
    · intro _
      exact ⟨by omega, fun h => absurd h h4⟩
    · intro _
      obtain ⟨d, hd, -⟩ := naive_spec dist size es hs (by omega)
      exact ⟨d, hd⟩

/-- A structured mesh with enough elements, about the square of the number of ranks, is distributed. -/
theorem distribute_many (dist : ℕ → ℕ → ℚ) (size : ℕ) (es : List ℕ) (hs : 1 < size)
    (h : (size - 1) * (3 * size - 2) < 3 * es.length) (hle : size ≤ es.length) :
    ∃ d, distribute true dist size es = some d := by
  rw [distribute_iff true dist size es hs]
  refine ⟨hle, fun _ _ => ?_⟩
  obtain ⟨n, rfl⟩ : ∃ n, size = n + 2 := ⟨size - 2, by omega⟩
  have e1 : n + 2 - 1 = n + 1 := by omega
  have e2 : 3 * (n + 2) - 2 = 3 * n + 4 := by omega
  have e3 : n + 2 - 2 = n := by omega
  rw [e1, e2] at h
  rw [e2, e3]
  generalize es.length = N at h
  have a1 := Nat.div_mul_le_self N (3 * n + 4)
  have a2 := Nat.div_mul_le_self (3 * N) (3 * n + 4)
  generalize N / (3 * n + 4) = a at a1
  generalize 3 * N / (3 * n + 4) = b at a2
  by_contra hno
  push Not at hno
  have a3 : N * (3 * n + 4) ≤ (a + 1 + n * (b + 1)) * (3 * n + 4) := Nat.mul_le_mul_right _ hno
  nlinarith [Nat.mul_le_mul_left n a2]

/-- Five elements on a line on two ranks: the first rank takes one more than its share of two. -/
example : distribute false (fun a b => ((a : ℚ) - b) * (a - b)) 2 [4, 7, 5, 9, 6] = some [[4, 5, 6], [7, 9]] := by
  decide +kernel

example : distribute true (fun _ _ => 0) 3 [4, 7, 5, 9, 6] = some [[4, 7], [5, 9], [6]] := by decide +kernel

example : distribute true (fun _ _ => 0) 2 (List.range 9) =
    some [[0, 1, 2], [3, 4, 5, 6, 7, 8]] := by decide +kernel

example : (2 - 1) * (3 * 2 - 2) < 3 * (List.range 9).length ∧ 2 ≤ (List.range 9).length := by decide

/-- A structured mesh of 81 elements cannot be distributed to 20 ranks: the elements run out before the last ranks. -/
theorem distribute_total_refuted :
    ¬ ∀ (dist : ℕ → ℕ → ℚ) (size : ℕ) (es : List ℕ), 1 < size → es.Nodup → size ≤ es.length →
      ∃ d, distribute true dist size es = some d := by
  intro h
  have := (distribute_iff true (fun _ _ => 0) 20 (List.range 81) (by omega)).1
    (h _ 20 (List.range 81) (by omega) List.nodup_range (by simp))
  have h2 := this.2 rfl (by simp)
  simp only [List.length_range] at h2
  revert h2
  decide

/-- Whatever the code returns for a vtu mesh gives each element to one rank and no rank nothing. -/
theorem distributeVtu_right (dist : ℕ → ℕ → ℚ) (size : ℕ) (es : List ℕ) (hs : 0 < size) (d : List (List ℕ))
    (h : distributeVtu dist size es = some d) : Distributed size es d := by
  have key : ∀ d' : List (List ℕ), (∀ l ∈ d', 0 < l.length) → ∀ l ∈ d', l ≠ [] := by
    intro d' hall l hl h0
    have := hall l hl
    rw [h0] at this
    simp at this
  unfold distributeVtu at h
  split_ifs at h with h1 h2 h3
  · obtain ⟨rfl, hall⟩ := (nonempty_eq _ _).1 h
    subst h2
    exact ⟨rfl, by simp, key _ hall⟩
  · obtain ⟨rfl, hall⟩ := (nonempty_eq _ _).1 h
    subst h3
    exact single es
  · obtain ⟨d', hd', hn⟩ := Option.bind_eq_some_iff.1 h
    obtain ⟨rfl, hall⟩ := (nonempty_eq _ _).1 hn
    unfold masterDistribute at hd'
    split_ifs at hd' with h4
    simp only at hd'
    split_ifs at hd' with h5
    obtain rfl := Option.some.inj hd'
    obtain ⟨s1, s2⟩ := shares_spec es.length size (by omega)
    obtain ⟨l1, -, -⟩ := naiveLoop_spec dist (shares es.length size) es
    obtain ⟨-, l2⟩ := naiveLoop_done dist (shares es.length size) es (by
      have := sum_le_sum_succ (shares es.length size); omega)
    exact ⟨by rw [l1, s1], l2, key _ hall⟩

example : distributeVtu (fun a b => ((a : ℚ) - b) * (a - b)) 2 [4, 7, 5, 9, 6] = some [[4, 5, 6], [7, 9]] := by
  decide +kernel

theorem naiveLoop_append (dist : ℕ → ℕ → ℚ) (a b : List ℕ) : ∀ es,
    naiveLoop dist (a ++ b) es =
      ((naiveLoop dist a es).1 ++ (naiveLoop dist b (naiveLoop dist a es).2).1,
        (naiveLoop dist b (naiveLoop dist a es).2).2) := by
  induction a with
  | nil => intro es; rfl
  | cons n a ih =>
    intro es
    cases es with
    | nil => simp only [List.cons_append, naiveLoop, ih]
    | cons e es => simp only [List.cons_append, naiveLoop, ih]

/-- Each rank takes one more than its share, so the last one gets nothing when its share is less than the number of
ranks. -/
theorem masterDistribute_last (dist : ℕ → ℕ → ℚ) (size : ℕ) (es : List ℕ) (hs : 1 < size) (init : List ℕ) (last : ℕ)
    (hsh : shares es.length size = init ++ [last]) (hlast : last < size) (d : List (List ℕ))
    (h : masterDistribute dist size es = some d) : [] ∈ d := by
  obtain ⟨s1, s2⟩ := shares_spec es.length size hs
  unfold masterDistribute at h
  rw [if_pos s2] at h
  simp only at h
  split_ifs at h
  obtain rfl := Option.some.inj h
  rw [hsh] at s1 s2 ⊢
  rw [naiveLoop_append]
  obtain ⟨-, -, h3⟩ := naiveLoop_spec dist init es
  have hsum : (init.map (· + 1)).sum = init.sum + init.length := by
    clear * -
    induction init with
    | nil => rfl
    | cons n l ih => simp only [List.map_cons, List.sum_cons, List.length_cons, ih]; omega
  have hnil : (naiveLoop dist init es).2 = [] := by
    apply List.length_eq_zero_iff.1
    simp only [List.sum_append, List.sum_cons, List.sum_nil, List.length_append, List.length_cons,
      List.length_nil] at s1 s2
    omega
  rw [hnil]
  simp [naiveLoop]

/-- A vtu mesh cannot be distributed to five or more ranks when it has more elements than ranks but fewer than four
times as many, wherever the elements are. -/
theorem distributeVtu_crowded (dist : ℕ → ℕ → ℚ) (size : ℕ) (es : List ℕ) (hs : 5 ≤ size)
    (h1 : size < es.length) (h2 : es.length < 4 * size) : distributeVtu dist size es = none := by
  obtain ⟨s1, s2⟩ := shares_spec es.length size (by omega)
  have hne : shares es.length size ≠ [] := by intro h0; rw [h0] at s1; simp at s1; omega
  have hsplit := (List.dropLast_append_getLast hne).symm
  have hq : es.length / size ≤ 3 := by
    have h4 : es.length < size * 4 := by omega
    exact Nat.le_of_lt_succ (Nat.div_lt_of_lt_mul h4)
  have hlast : (shares es.length size).getLast hne < size := by
    have hall : ∀ x ∈ shares es.length size, x ≤ es.length / size + 1 := by
      intro x hx
      unfold shares at hx
      rw [if_pos h2] at hx
      unfold split at hx
      rw [if_neg (by omega)] at hx
      split_ifs at hx
      · rw [List.eq_of_mem_replicate hx]; exact Nat.le_succ _
      · obtain ⟨i, -, rfl⟩ := List.mem_map.1 hx
        split_ifs
        · exact le_rfl
        · exact Nat.le_succ _
    have := hall _ (List.getLast_mem hne)
    generalize (shares es.length size).getLast hne = x at this ⊢
    generalize es.length / size = q at this hq
    omega
  unfold distributeVtu
  rw [if_neg (by omega), if_neg (by omega), if_neg (by omega)]
  cases hm : masterDistribute dist size es with
  | none => rfl
  | some d =>
    have := masterDistribute_last dist size es (by omega) _ _ hsplit hlast d hm
    rw [Option.bind_some]
    unfold nonempty
    rw [if_neg]
    intro hall
    have := hall [] this
    simp at this

example : 5 ≤ 5 ∧ 5 < (List.range 12).length ∧ (List.range 12).length < 4 * 5 := by decide

theorem distributeVtu_total_refuted :
    ¬ ∀ (dist : ℕ → ℕ → ℚ) (size : ℕ) (es : List ℕ), 1 < size → es.Nodup → size ≤ es.length →
      ∃ d, distributeVtu dist size es = some d := by
  intro h
  obtain ⟨d, hd⟩ := h (fun _ _ => 0) 5 (List.range 12) (by omega) List.nodup_range (by simp)
  rw [distributeVtu_crowded _ 5 (List.range 12) (by omega) (by simp) (by simp)] at hd
  cases hd

end Phyem.Great
