import Verif.MgNodes.Checks

/-! # The nodes of all levels -/

namespace Phyem.MgNodes

/-- The number of parts of half an element. -/
def parts (N : ℕ) : ℕ := (N + 1) / 2

/-- Twice the number of times the smallest part, the first one, goes into half an element. -/
def weight (N : ℕ) : ℚ := if N % 2 = 1 then (parts N : ℚ) * parts N else (parts N : ℚ) * (parts N + 1)

/-- The nodes of a degree `N`: `N + 1` numbers, increasing from -1 to 1 and symmetric. -/
structure Nodes (N : ℕ) (b : List ℚ) : Prop where
  len : b.length = N + 1
  sorted : b.Pairwise (· < ·)
  first : b[0]? = some (-1 : ℚ)
  symm : (b.map fun a => -a).reverse = b

/-- Nodes that are not too far from each other: with `m` parts, the gaps are at most `6 m / D`, the second node is in the first part, and the
nodes of the left half are not too close to the center. -/
structure Spread (N : ℕ) (b : List ℚ) : Prop where
  gaps : b.IsChain fun x y => y - x ≤ 6 * parts N / weight N
  second : ∀ x, b[1]? = some x → x ≤ -1 + 4 / weight N
  early : ∀ i x, b[i]? = some x → i + 2 ≤ parts N → x < 1 - 2 * ((parts N : ℚ) - 1 - i) * (parts N - i) / weight N

/-- The half of an interval. -/
def mid (a : ℚ) : ℚ := (a + 1) / 2 - 1

lemma weight_eq (N : ℕ) : weight N = total (parts N) (N % 2 == 1) := by
  unfold weight total
  by_cases h : N % 2 = 1 <;> simp [h]

lemma neg_chain {D : ℚ} {l : List ℚ} (h : l.IsChain fun x y => y - x ≤ D) : ((l.map fun a => -a).reverse).IsChain fun x y => y - x ≤ D := by
  rw [List.isChain_reverse, List.isChain_map]
  exact h.imp fun a b hab => by linarith

lemma neg_sorted {l : List ℚ} (h : l.Pairwise (· < ·)) : ((l.map fun a => -a).reverse).Pairwise (· < ·) := by
  rw [List.pairwise_reverse, List.pairwise_map]
  exact h.imp fun {a b} hab => by linarith

lemma head_neg {l : List ℚ} : ∀ y ∈ ((l.map fun a => -a).reverse).head?, -y ∈ l.getLast? := by
  intro y hy
  rw [List.head?_reverse, List.getLast?_map] at hy
  obtain ⟨x, hx, rfl⟩ := Option.mem_map.1 hy
  simpa using hx

/-- Half a list of nodes and its mirror image, with and without the center. -/
lemma mirror {N : ℕ} {B : List ℚ} (hN : 3 ≤ N) (hl : B.length = parts N) (hs : B.Pairwise (· < ·)) (hneg : ∀ x ∈ B, x < 0)
    (h0 : B[0]? = some (-1 : ℚ)) (hg : B.IsChain fun x y => y - x ≤ 6 * parts N / weight N)
    (hlast : ∀ z ∈ B.getLast?, if N % 2 = 1 then -2 * z ≤ 6 * parts N / weight N else -z ≤ 6 * parts N / weight N)
    (h1 : ∀ x, B[1]? = some x → x ≤ -1 + 4 / weight N)
    (he : ∀ i x, B[i]? = some x → i + 2 ≤ parts N → x < 1 - 2 * ((parts N : ℚ) - 1 - i) * (parts N - i) / weight N) :
    let n := if N % 2 = 0 then B ++ 0 :: (B.map fun a => -a).reverse else B ++ (B.map fun a => -a).reverse
    Nodes N n ∧ Spread N n := by
  have hp : 2 ≤ parts N := by unfold parts; omega
  have hget : ∀ (i : ℕ) (l : List ℚ) x, (B ++ l)[i]? = some x → i < parts N → B[i]? = some x := by
    intro i l x h hi
    rwa [List.getElem?_append_left (by omega)] at h
  rcases Nat.mod_two_eq_zero_or_one N with hm | hm
  · simp only [hm, if_true]
    refine ⟨⟨?_, ?_, ?_, ?_⟩, ⟨?_, ?_, ?_⟩⟩
    · simp [hl]; unfold parts; omega
    · rw [List.pairwise_append, List.pairwise_cons]
      refine ⟨hs, ⟨?_, neg_sorted hs⟩, ?_⟩
      · intro a ha
        simp only [List.mem_reverse, List.mem_map] at ha
        obtain ⟨x, hx, rfl⟩ := ha
        linarith [hneg x hx]
      · intro a ha b hb
        rcases List.mem_cons.1 hb with rfl | hb
        · exact hneg a ha
        · simp only [List.mem_reverse, List.mem_map] at hb
          obtain ⟨x, hx, rfl⟩ := hb
          linarith [hneg x hx, hneg a ha]
    · rw [List.getElem?_append_left (by omega), h0]
    · simp [Function.comp_def]
    · rw [List.isChain_append, List.isChain_cons]
      refine ⟨hg, ⟨?_, neg_chain hg⟩, ?_⟩
      · intro y hy
        have := hlast _ (head_neg y hy)
        simp only [hm] at this
        norm_num at this
        linarith
      · intro x hx y hy
        have := hlast x hx
        simp only [hm] at this
        norm_num at this
        simp only [List.head?_cons, Option.mem_def, Option.some.injEq] at hy
        subst hy
        linarith
    · exact fun x hx => h1 x (hget 1 _ x hx (by omega))
    · exact fun i x hx hi => he i x (hget i _ x hx (by omega)) hi
  · simp only [hm, one_ne_zero, if_false]
    refine ⟨⟨?_, ?_, ?_, ?_⟩, ⟨?_, ?_, ?_⟩⟩
    · simp [hl]; unfold parts; omega
    · rw [List.pairwise_append]
      refine ⟨hs, neg_sorted hs, ?_⟩
      intro a ha b hb
      simp only [List.mem_reverse, List.mem_map] at hb
      obtain ⟨x, hx, rfl⟩ := hb
      linarith [hneg x hx, hneg a ha]
    · rw [List.getElem?_append_left (by omega), h0]
    · simp [Function.comp_def]
    · rw [List.isChain_append]
      refine ⟨hg, neg_chain hg, ?_⟩
      intro x hx y hy
      have h2 := head_neg y hy
      have : x = -y := by
        simp only [Option.mem_def] at hx h2
        rw [hx] at h2; exact Option.some.inj h2
      have h3 := hlast x hx
      simp only [hm, if_true] at h3
      linarith
    · exact fun x hx => h1 x (hget 1 _ x hx (by omega))
    · exact fun i x hx hi => he i x (hget i _ x hx (by omega)) hi

/-- Enough nodes are beyond each check node. -/
lemma enough {N : ℕ} {b : List ℚ} (hn : Nodes N b) (he : Spread N b) {i : ℕ} (hi : i + 2 ≤ parts N) :
    parts N - 1 - i ≤ b.countP fun x => decide (check (weight N) i < x) := by
  have e : b.countP (fun x => decide (check (weight N) i < x)) = b.countP fun x => decide (x < -check (weight N) i) := by
    conv_lhs => rw [← hn.symm]
    rw [List.countP_reverse, List.countP_map]
    congr 1
    funext x
    simp only [Function.comp, decide_eq_decide]
    constructor <;> intro h <;> linarith
  rw [e]
  have hlen : parts N - 1 - i ≤ b.length := by rw [hn.len]; unfold parts; omega
  have hall : (b.take (parts N - 1 - i)).countP (fun x => decide (x < -check (weight N) i)) = parts N - 1 - i := by
    rw [(List.countP_eq_length).2, List.length_take, min_eq_left hlen]
    intro x hx
    obtain ⟨j, hj, rfl⟩ := List.mem_iff_getElem.1 hx
    simp only [List.length_take, lt_min_iff] at hj
    -- the last of them
    have hk : parts N - 2 - i < b.length := by omega
    have h1 := he.early (parts N - 2 - i) _ (List.getElem?_eq_getElem hk) (by omega)
    rw [List.getElem_take]
    have h2 : b[j] ≤ b[parts N - 2 - i] := by
      rcases Nat.lt_or_ge j (parts N - 2 - i) with h | h
      · exact (List.pairwise_iff_getElem.1 hn.sorted _ _ _ _ h).le
      · have : j = parts N - 2 - i := by omega
        simp [this]
    have h3 : ((parts N - 2 - i : ℕ) : ℚ) = (parts N : ℚ) - 2 - i := by
      rw [Nat.cast_sub (by omega), Nat.cast_sub (by omega)]; norm_num
    rw [h3] at h1
    rw [decide_eq_true_eq]
    refine lt_of_le_of_lt h2 (lt_of_lt_of_eq h1 ?_)
    unfold check
    ring
  calc _ = _ := hall.symm
    _ ≤ _ := (List.take_sublist _ _).countP_le

end Phyem.MgNodes
