import Verif.MgNodes.Spec

/-! # Every level has nodes, and they are nodes of the next finer level -/

namespace Phyem.MgNodes

lemma parts_two {N : ℕ} (hN : 3 ≤ N) : 2 ≤ parts N := by unfold parts; omega

lemma weight_pos {N : ℕ} (hN : 3 ≤ N) : 0 < weight N := by
  rw [weight_eq]; exact total_pos (parts_two hN)

lemma last_one {N : ℕ} {b : List ℚ} (hn : Nodes N b) : b.getLast? = some 1 := by
  rw [← hn.symm, List.getLast?_reverse, List.head?_map, List.head?_eq_getElem?, hn.first]
  simp

lemma le_one {N : ℕ} {b : List ℚ} (hn : Nodes N b) : ∀ x ∈ b, -1 ≤ x ∧ x ≤ 1 := by
  have ge : ∀ x ∈ b, -1 ≤ x := by
    intro x hx
    have h0 := hn.first
    have hs := hn.sorted
    rcases b with _ | ⟨a, l⟩
    · simp at h0
    · simp only [List.getElem?_cons_zero, Option.some.injEq] at h0
      subst h0
      rcases List.mem_cons.1 hx with rfl | hx
      · exact le_rfl
      · exact ((List.pairwise_cons.1 hs).1 x hx).le
  intro x hx
  refine ⟨ge x hx, ?_⟩
  have : -x ∈ b := by
    rw [← hn.symm]
    simp only [List.mem_reverse, List.mem_map]
    exact ⟨x, hx, rfl⟩
  linarith [ge _ this]

/-- What the loop gives for nodes. -/
lemma picked {N : ℕ} {b : List ℚ} (hN : 3 ≤ N) (hn : Nodes N b) (he : Spread N b) : ∃ L : List ℚ,
    splitParts b (parts N) (N % 2 == 1) = some (((-1) :: L).map mid ++ [0]) ∧ L.length = parts N - 1 ∧
    ((-1) :: L).Pairwise (· < ·) ∧ (∀ q ∈ L, q ∈ b ∧ q < 1) ∧ (∀ q, L[0]? = some q → q ≤ check (weight N) 0) ∧
    (∀ i q q', L[i]? = some q → L[i + 1]? = some q' → check (weight N) i < q' ∧
      (q' ≤ q + 6 * parts N / weight N ∨ q' ≤ check (weight N) (i + 1))) ∧
    (∀ (i : ℕ) q, L[i]? = some q → q ≤ -1 + 2 * (2 + 3 * parts N * (i : ℚ)) / weight N) := by
  have hp := parts_two hN
  have hw := weight_pos hN
  have hlast := last_one hn
  have hle := le_one hn
  have henough := fun i (hi : i + 2 ≤ parts N) => enough hn he hi
  have hl := hn.len
  have h0 := hn.first
  have hs := hn.sorted
  have hg := he.gaps
  have h2 := he.second
  rcases b with _ | ⟨a, _ | ⟨x, l⟩⟩
  · simp at h0
  · simp at hl; omega
  simp only [List.getElem?_cons_zero, Option.some.injEq] at h0
  subst h0
  have hx : x ≤ check (weight N) 0 := by
    have := h2 x rfl
    unfold check
    norm_num at this ⊢
    linarith
  have hm1 : (-1 : ℚ) ≤ check (weight N) 0 := le_trans (hle x (by simp)).1 hx
  have hmono : ∀ i, check (weight N) 0 ≤ check (weight N) i := by
    intro i
    rcases Nat.eq_zero_or_pos i with rfl | h
    · exact le_rfl
    · exact (check_lt hw 0 i h).le
  have hs1 := (List.pairwise_cons.1 hs).2
  have hg1 := (List.isChain_cons_cons.1 hg).2
  have hck : checks (parts N) (N % 2 == 1) = (List.range' 0 (parts N - 1)).map (check (weight N)) := by
    have := checks_eq (parts N - 1) (N % 2 == 1)
    rw [show parts N - 1 + 1 = parts N by omega, ← weight_eq] at this
    exact this
  have hcons : (List.range' 0 (parts N - 1)).map (check (weight N)) =
      check (weight N) 0 :: (List.range' 1 (parts N - 2)).map (check (weight N)) := by
    rw [show parts N - 1 = (parts N - 2) + 1 by omega, List.range'_succ, List.map_cons]
  have hpick : pick 1 ((List.range' 0 (parts N - 1)).map (check (weight N))) (-1 :: x :: l) =
      pick x ((List.range' 0 (parts N - 1)).map (check (weight N))) l := by
    rw [hcons, pick_cons, if_neg (not_lt.2 hm1), pick_cons, if_neg (not_lt.2 hx)]
  obtain ⟨p1, p2⟩ := pick_sorted l x ((List.range' 0 (parts N - 1)).map (check (weight N))) hs1
  refine ⟨pick x ((List.range' 0 (parts N - 1)).map (check (weight N))) l, ?_, ?_, ?_, ?_, ?_, ?_, ?_⟩
  · unfold splitParts
    rw [hlast, hck, ← hpick, hcons]
    simp [mid]
  · apply pick_length _ (check_lt hw) _ _ _ _ (List.pairwise_cons.1 hs1).2
    intro i hi
    have := henough i (by omega)
    rw [Nat.zero_add]
    rw [List.countP_cons, if_neg (by simpa using le_trans hm1 (hmono i)),
      List.countP_cons, if_neg (by simpa using le_trans hx (hmono i))] at this
    omega
  · rw [List.pairwise_cons]
    refine ⟨fun q hq => ?_, p1⟩
    exact lt_of_lt_of_le ((List.pairwise_cons.1 hs).1 x (by simp)) (p2 q hq).2.1
  · intro q hq
    obtain ⟨h3, _, y, hy, h4⟩ := p2 q hq
    exact ⟨List.mem_cons_of_mem _ h3, lt_of_lt_of_le h4 (hle y (by simp [hy])).2⟩
  · intro q hq
    rw [hcons] at hq
    have := pick_head l x _ _ q hq
    rwa [max_eq_right hx] at this
  · intro i q q' hq hq'
    have := pick_next (check (weight N)) (6 * parts N / weight N) l x 0 (parts N - 1) hs1 hg1 i q q' hq hq'
    simpa using this
  · have hpq : (2 : ℚ) ≤ parts N := by exact_mod_cast hp
    intro i q hq
    have hlen : i < parts N - 1 := by
      by_contra hcon
      have h5 := (List.getElem?_eq_some_iff.1 hq).1
      have h6 : ∀ (p : ℚ) (cs bs : List ℚ), (pick p cs bs).length ≤ cs.length := by
        intro p cs bs
        induction bs generalizing p cs with
        | nil => simp [pick_nil']
        | cons b bs ih =>
          rcases cs with _ | ⟨c, cs⟩
          · simp [pick_nil]
          · rw [pick_cons]
            split_ifs
            · simpa using ih b cs
            · exact ih b (c :: cs)
      have := h6 x ((List.range' 0 (parts N - 1)).map (check (weight N))) l
      simp at this
      omega
    refine pick_upper (check (weight N)) (6 * parts N / weight N) (fun i : ℕ => -1 + 2 * (2 + 3 * parts N * (i : ℚ)) / weight N)
      ?_ ?_ ?_ hs1 hg1 i q hq hlen
    · intro i
      push_cast
      apply le_of_eq
      ring
    · intro i hi
      have hiq : (i : ℚ) + 2 ≤ parts N := by exact_mod_cast (by omega : i + 2 ≤ parts N)
      have hi0 : (0 : ℚ) ≤ i := by positivity
      unfold check
      have : 2 * ((i : ℚ) + 1) * (i + 2) / weight N ≤ 2 * (2 + 3 * parts N * (i : ℚ)) / weight N := by
        apply div_le_div_of_nonneg_right _ hw.le
        nlinarith
      linarith
    · refine le_trans hx ?_
      unfold check
      norm_num

lemma mid_lt {a b : ℚ} : mid a < mid b ↔ a < b := by unfold mid; constructor <;> intro h <;> linarith

lemma weight_cases (N : ℕ) : (N % 2 = 1 ∧ weight N = (parts N : ℚ) * parts N) ∨ (N % 2 = 0 ∧ weight N = (parts N : ℚ) * (parts N + 1)) := by
  unfold weight
  rcases Nat.mod_two_eq_zero_or_one N with h | h
  · right; simp [h]
  · left; simp [h]

/-- One level below nodes there are nodes again, and each of them is a node of one of the two halves. -/
lemma coarse_step {N : ℕ} {b : List ℚ} (hN : 3 ≤ N) (hn : Nodes N b) (he : Spread N b) : ∃ n, coarse N b = some n ∧
    (Nodes N n ∧ Spread N n) ∧ ∀ x ∈ n, ∃ a ∈ b, x = (a - 1) / 2 ∨ x = (a + 1) / 2 := by
  obtain ⟨L, hL, hlen, hs, hmem, hhead, hnext, hup⟩ := picked hN hn he
  have hp := parts_two hN
  have hw := weight_pos hN
  have hpq : (2 : ℚ) ≤ parts N := by exact_mod_cast hp
  have hwc := weight_cases N
  have hw1 : (parts N : ℚ) * parts N ≤ weight N ∧ weight N ≤ (parts N : ℚ) * (parts N + 1) := by
    rcases hwc with ⟨_, h⟩ | ⟨_, h⟩ <;> rw [h] <;> constructor <;> nlinarith
  set B : List ℚ := ((-1) :: L).map mid with hB
  have hBl : B.length = parts N := by simp [hB, hlen]; omega
  have hB0 : B[0]? = some (-1 : ℚ) := by simp [hB, mid]
  have hBs : ∀ (i : ℕ) x, B[i + 1]? = some x → ∃ q, L[i]? = some q ∧ x = mid q := by
    intro i x hx
    simp only [hB, List.map_cons, List.getElem?_cons_succ, List.getElem?_map, Option.map_eq_some_iff] at hx
    obtain ⟨q, h1, h2⟩ := hx
    exact ⟨q, h1, h2.symm⟩
  have hsorted : B.Pairwise (· < ·) := by
    rw [hB, List.pairwise_map]
    exact hs.imp fun {a b} h => mid_lt.2 h
  have hneg : ∀ x ∈ B, x < 0 := by
    intro x hx
    simp only [hB, List.map_cons, List.mem_cons, List.mem_map] at hx
    rcases hx with rfl | ⟨q, hq, rfl⟩
    · norm_num [mid]
    · have := (hmem q hq).2
      unfold mid; linarith
  have hgaps : B.IsChain fun x y => y - x ≤ 6 * parts N / weight N := by
    rw [List.isChain_iff_getElem]
    intro i hi
    obtain ⟨q', hq', e'⟩ := hBs i _ (List.getElem?_eq_getElem hi)
    have hi' : (i : ℚ) + 2 ≤ parts N := by exact_mod_cast (by omega : i + 2 ≤ parts N)
    have hi0 : (0 : ℚ) ≤ i := by positivity
    rw [e']
    rcases i with _ | i
    · have e0 : B[0] = -1 := by
        have := hB0
        rw [List.getElem?_eq_getElem (by omega)] at this
        exact Option.some.inj this
      rw [e0]
      have := hhead q' hq'
      unfold check at this
      have h6 : 4 / weight N ≤ 2 * (6 * parts N / weight N) := by
        rw [← mul_div_assoc]
        apply div_le_div_of_nonneg_right _ hw.le
        linarith
      unfold mid
      norm_num at this
      linarith
    · obtain ⟨q, hq, e⟩ := hBs i _ (List.getElem?_eq_getElem (by omega))
      rw [e]
      have hd : mid q' - mid q = (q' - q) / 2 := by unfold mid; ring
      rw [hd]
      have hpos : 0 < 6 * parts N / weight N := by positivity
      rcases (hnext i q q' hq hq').2 with h1 | h1
      · linarith
      · -- not beyond its own check node, while the one before is beyond its predecessor's
        have hlow : -1 + 2 * (i : ℚ) * (i + 1) / weight N ≤ q := by
          rcases i with _ | i
          · have := (List.pairwise_cons.1 hs).1 q (List.mem_of_getElem? hq)
            simp; linarith
          · have hq0 : L[i]? = some L[i] := List.getElem?_eq_getElem (by omega)
            have := (hnext i _ q hq0 hq).1
            unfold check at this
            push_cast
            have e2 : 2 * ((i : ℚ) + 1) * (i + 1 + 1) / weight N = 2 * ((i : ℚ) + 1) * (i + 2) / weight N := by ring
            linarith
        unfold check at h1
        push_cast at h1 hi' hi0
        have h7 : (2 * ((i : ℚ) + 1 + 1) * (i + 1 + 2) / weight N - 2 * (i : ℚ) * (i + 1) / weight N) ≤ 2 * (6 * parts N / weight N) := by
          rw [← sub_div, ← mul_div_assoc]
          apply div_le_div_of_nonneg_right _ hw.le
          nlinarith
        linarith
  have hlast : ∀ z ∈ B.getLast?, if N % 2 = 1 then -2 * z ≤ 6 * parts N / weight N else -z ≤ 6 * parts N / weight N := by
    intro z hz
    rw [List.getLast?_eq_getElem?, hBl, show parts N - 1 = parts N - 2 + 1 by omega] at hz
    obtain ⟨q, hq, rfl⟩ := hBs _ _ hz
    have key : 1 - q ≤ 2 * (weight N - ((parts N : ℚ) - 1) * (parts N - 2)) / weight N := by
      have e3 : 2 * (weight N - ((parts N : ℚ) - 1) * (parts N - 2)) / weight N = 2 - 2 * (((parts N : ℚ) - 1) * (parts N - 2)) / weight N := by
        field_simp
      rw [e3]
      rcases Nat.lt_or_ge (parts N) 3 with h3 | h3
      · have h2 : (parts N : ℚ) = 2 := by exact_mod_cast (by omega : parts N = 2)
        have := (List.pairwise_cons.1 hs).1 q (List.mem_of_getElem? hq)
        rw [h2]; norm_num; linarith
      · have hq0 : L[parts N - 3]? = some L[parts N - 3] := List.getElem?_eq_getElem (by omega)
        rw [show parts N - 2 = parts N - 3 + 1 by omega] at hq
        have := (hnext (parts N - 3) _ q hq0 hq).1
        unfold check at this
        rw [Nat.cast_sub h3] at this
        push_cast at this
        have e4 : 2 * ((parts N : ℚ) - 3 + 1) * (parts N - 3 + 2) / weight N = 2 * (((parts N : ℚ) - 1) * (parts N - 2)) / weight N := by ring
        rw [e4] at this
        linarith
    unfold mid
    rcases hwc with ⟨h1, h2⟩ | ⟨h1, h2⟩
    · rw [if_pos h1]
      have : 2 * (weight N - ((parts N : ℚ) - 1) * (parts N - 2)) / weight N ≤ 6 * parts N / weight N := by
        apply div_le_div_of_nonneg_right _ hw.le
        rw [h2]; nlinarith
      linarith
    · rw [if_neg (by omega)]
      have : 2 * (weight N - ((parts N : ℚ) - 1) * (parts N - 2)) / weight N ≤ 2 * (6 * parts N / weight N) := by
        rw [← mul_div_assoc]
        apply div_le_div_of_nonneg_right _ hw.le
        rw [h2]; nlinarith
      linarith
  have hsecond : ∀ x, B[1]? = some x → x ≤ -1 + 4 / weight N := by
    intro x hx
    obtain ⟨q, hq, rfl⟩ := hBs 0 x hx
    have := hhead q hq
    unfold check at this
    norm_num at this
    have : 0 < 4 / weight N := by positivity
    unfold mid
    linarith
  have hearly : ∀ i x, B[i]? = some x → i + 2 ≤ parts N → x < 1 - 2 * ((parts N : ℚ) - 1 - i) * (parts N - i) / weight N := by
    intro i x hx hi
    have hiq : (i : ℚ) + 2 ≤ parts N := by exact_mod_cast hi
    have hi0 : (0 : ℚ) ≤ i := by positivity
    rcases Nat.lt_or_ge (parts N) (2 * (i + 1)) with hh | hh
    · -- in the second half of the left half: the check node is in the left half
      have hx0 := hneg x (List.mem_of_getElem? hx)
      have hhq : (parts N : ℚ) + 1 ≤ 2 * (i + 1) := by exact_mod_cast hh
      have : 2 * ((parts N : ℚ) - 1 - i) * (parts N - i) / weight N ≤ 1 := by
        rw [div_le_one hw]
        nlinarith
      linarith
    · have hhq : 2 * ((i : ℚ) + 1) ≤ parts N := by exact_mod_cast hh
      rcases i with _ | k
      · rw [hB0] at hx
        have : x = -1 := (Option.some.inj hx).symm
        subst this
        have : 2 * ((parts N : ℚ) - 1 - (0 : ℕ)) * (parts N - (0 : ℕ)) / weight N < 2 := by
          rw [div_lt_iff₀ hw]
          push_cast
          nlinarith
        linarith
      · obtain ⟨q, hq, rfl⟩ := hBs k x hx
        have h1 := hup k q hq
        push_cast at hhq hiq hi0 ⊢
        have h2 : (2 + 3 * parts N * (k : ℚ)) / weight N + 2 * ((parts N : ℚ) - 1 - (k + 1)) * (parts N - (k + 1)) / weight N < 2 := by
          rw [← add_div, div_lt_iff₀ hw]
          have hk : (0 : ℚ) ≤ k := by positivity
          nlinarith
        have h3 : 2 * (2 + 3 * parts N * (k : ℚ)) / weight N = 2 * ((2 + 3 * parts N * (k : ℚ)) / weight N) := by ring
        unfold mid
        linarith
  have hres := mirror hN hBl hsorted hneg hB0 hgaps hlast hsecond hearly
  -- the nodes are nodes of the halves
  have hb0 : (-1 : ℚ) ∈ b := List.mem_of_getElem? hn.first
  have hbn : ∀ a ∈ b, -a ∈ b := by
    intro a ha
    rw [← hn.symm]
    simp only [List.mem_reverse, List.mem_map]
    exact ⟨a, ha, rfl⟩
  have hBm : ∀ x ∈ B, ∃ a ∈ b, x = (a - 1) / 2 := by
    intro x hx
    simp only [hB, List.map_cons, List.mem_cons, List.mem_map] at hx
    rcases hx with rfl | ⟨q, hq, rfl⟩
    · exact ⟨-1, hb0, by unfold mid; ring⟩
    · exact ⟨q, (hmem q hq).1, by unfold mid; ring⟩
  have hsub : ∀ x ∈ (if N % 2 = 0 then B ++ 0 :: (B.map fun a => -a).reverse else B ++ (B.map fun a => -a).reverse),
      ∃ a ∈ b, x = (a - 1) / 2 ∨ x = (a + 1) / 2 := by
    intro x hx
    have : x ∈ B ∨ x = 0 ∨ -x ∈ B := by
      split_ifs at hx
      · simp only [List.mem_append, List.mem_cons, List.mem_reverse, List.mem_map] at hx
        rcases hx with h | rfl | ⟨a, ha, rfl⟩
        · exact Or.inl h
        · exact Or.inr (Or.inl rfl)
        · right; right; simpa using ha
      · simp only [List.mem_append, List.mem_reverse, List.mem_map] at hx
        rcases hx with h | ⟨a, ha, rfl⟩
        · exact Or.inl h
        · right; right; simpa using ha
    rcases this with h | rfl | h
    · obtain ⟨a, ha, h1⟩ := hBm x h
      exact ⟨a, ha, Or.inl h1⟩
    · exact ⟨-1, hb0, Or.inr (by norm_num)⟩
    · obtain ⟨a, ha, h1⟩ := hBm _ h
      exact ⟨-a, hbn a ha, Or.inr (by linarith)⟩
  refine ⟨_, ?_, hres, hsub⟩
  have hch : ∀ x ∈ (if N % 2 = 0 then B ++ 0 :: (B.map fun a => -a).reverse else B ++ (B.map fun a => -a).reverse), x ∈ children b := by
    intro x hx
    obtain ⟨a, ha, h | h⟩ := hsub x hx
    · unfold children
      simp only [List.map_map, List.mem_append, List.mem_map, Function.comp]
      left
      exact ⟨a, ha, by rw [h]; ring⟩
    · unfold children
      rcases hbl : b with _ | ⟨y, l⟩
      · rw [hbl] at ha; simp at ha
      · have hy : y = -1 := by
          have := hn.first
          rw [hbl] at this
          simpa using this
        rw [hbl] at ha
        rcases List.mem_cons.1 ha with h1 | h1
        · -- the first node of the right half is the last one of the left half
          have h1b : (1 : ℚ) ∈ y :: l := by rw [← hbl]; simpa using hbn _ hb0
          simp only [List.map_map, List.mem_append, List.mem_map, Function.comp]
          left
          exact ⟨1, h1b, by rw [h, h1, hy]; norm_num⟩
        · simp only [List.map_cons, List.tail_cons, List.mem_append, List.mem_map]
          right
          exact ⟨a, h1, h.symm⟩
  have hok : ∀ n : List ℚ, (∀ x ∈ n, x ∈ children b) →
      (n.all fun a => (children b).any fun c => decide (|c - a| < 1 / 10 ^ 12)) = true := by
    intro n h
    rw [List.all_eq_true]
    intro x hx
    rw [List.any_eq_true]
    exact ⟨x, h x hx, by norm_num⟩
  unfold coarse
  rw [if_pos ⟨by rw [List.head?_eq_getElem?, hn.first], last_one hn⟩]
  dsimp only
  rcases Nat.mod_two_eq_zero_or_one N with hm | hm
  · rw [if_pos hm] at hch ⊢
    rw [if_pos hm]
    have e1 : parts N = N / 2 := by unfold parts; omega
    have e2 : (N % 2 == 1) = false := by rw [hm]; rfl
    rw [e1, e2] at hL
    rw [hL, Option.map_some, Option.bind_some, List.dropLast_concat, List.append_assoc]
    have e3 : [0] ++ B.reverse.map (fun a => -a) = 0 :: (B.map fun a => -a).reverse := by rw [List.map_reverse]; rfl
    rw [e3, if_pos (hok _ hch)]
  · rw [if_neg (by omega)] at hch ⊢
    rw [if_neg (by omega)]
    have e1 : parts N = N / 2 + 1 := by unfold parts; omega
    have e2 : (N % 2 == 1) = true := by rw [hm]; rfl
    rw [e1, e2] at hL
    rw [hL, Option.map_some, Option.bind_some, List.dropLast_concat, if_pos (hok _ hch)]

end Phyem.MgNodes
