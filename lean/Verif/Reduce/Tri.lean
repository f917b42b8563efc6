import Verif.Reduce.Examples
import Verif.Triangle.Props

/-!
C116 on triangles: the reference square whose side `xi = -1` is collapsed to a vertex. The nodes of this side are one
node, and its edges are no edges.
-/

namespace Phyem.Reduce

open Set Numbering Incidence Poly Triangle

/-- The first side (`xi` = the first node) of the square is mapped to one point. -/
def Collapsed (Φ : ℝ → ℝ → ℝ × ℝ) (x0 : ℝ) : Prop := ∀ y ∈ I, ∀ y' ∈ I, Φ x0 y = Φ x0 y'

section
variable {Φ : ℝ → ℝ → ℝ × ℝ} {J : ℝ → ℝ → ℕ → ℕ → ℝ} {f : ℝ × ℝ → ℝ} {v : ℝ × ℝ → ℝ × ℝ} {p q : ℕ}
  {xs ys qx wx qy wy : List ℝ}

/-- The tangent along the collapsed side vanishes. -/
lemma collapsed_tan (hE : Elem2 Φ J) {x0 : ℝ} (h0 : x0 ∈ I) (hc : Collapsed Φ x0) {y : ℝ} (hy : y ∈ I) :
    tan2 Φ x0 y (0, 1) = 0 := by
  have hd : DifferentiableAt ℝ (fun P : ℝ × ℝ => Φ P.1 P.2) (x0, y) := (hE.smooth x0 h0 y hy).differentiableAt (by norm_num)
  have h1 : HasDerivAt (fun t => Φ x0 t) (tan2 Φ x0 y (0, 1)) y := hd.hasFDerivAt.comp_hasDerivAt y (dy2 x0 y)
  have h2 : HasDerivWithinAt (fun t => Φ x0 t) 0 I y :=
    (hasDerivWithinAt_const y I (Φ x0 y)).congr (fun t ht => hc t ht y hy) rfl
  exact (uniqueDiffOn_Icc (by norm_num : (-1 : ℝ) < 1) y hy).eq_deriv _ h1.hasDerivWithinAt h2

lemma collapsed_jac (hE : Elem2 Φ J) {x0 : ℝ} (h0 : x0 ∈ I) (hc : Collapsed Φ x0) {y : ℝ} (hy : y ∈ I) :
    J x0 y 0 1 = 0 ∧ J x0 y 1 1 = 0 := by
  have h1 := collapsed_tan hE h0 hc hy
  rw [tan2, (hE.jac x0 h0 y hy).2] at h1
  exact Prod.ext_iff.1 h1

lemma rule_zero (qs ws : List ℝ) (a b : ℝ) : rule qs ws (fun _ => 0) a b = 0 := by
  have h : ∀ l m : List ℝ, (List.zipWith (fun (_ : ℝ) (_ : ℝ) => (0 : ℝ)) l m).sum = 0 := by
    intro l
    induction l with
    | nil => simp
    | cons a l ih =>
      intro m
      cases m with
      | nil => simp
      | cons b m => rw [List.zipWith_cons_cons, List.sum_cons, ih m, add_zero]
  simp [rule, h]

lemma dropRow_eq (c : List ℝ) (hc : c.length = (p + 1) * q) :
    dropRow p q c = (List.range q).flatMap fun j => (List.range p).map fun i => dof c (i + 1 + (p + 1) * j) := by
  unfold dropRow
  refine List.flatMap_congr fun j hj => ?_
  rw [List.mem_range] at hj
  have hb : (p + 1) * j + (p + 1) ≤ (p + 1) * q := by
    calc (p + 1) * j + (p + 1) = (p + 1) * (j + 1) := by ring
      _ ≤ _ := Nat.mul_le_mul_left _ hj
  have hcm : j * (p + 1) = (p + 1) * j := Nat.mul_comm _ _
  refine List.ext_getElem? fun i => ?_
  rw [List.getElem?_take, List.getElem?_map]
  by_cases hi : i < p
  · rw [if_pos hi, List.getElem?_drop, List.getElem?_range hi, Option.map_some, dof, List.getD_eq_getElem?_getD]
    have e : j * (p + 1) + 1 + i = i + 1 + (p + 1) * j := by rw [hcm]; ring
    rw [e, List.getElem?_eq_getElem (by rw [hc]; omega)]
    rfl
  · rw [if_neg hi, List.getElem?_eq_none (by simpa using hi)]
    rfl

lemma dropRow_length (c : List ℝ) (hc : c.length = (p + 1) * q) : (dropRow p q c).length = p * q := by
  rw [dropRow_eq c hc, loop_length]

lemma dropRow_at (c : List ℝ) (hc : c.length = (p + 1) * q) {i j : ℕ} (hi : i < p) (hj : j < q) :
    (dropRow p q c)[i + p * j]? = some (dof c (i + 1 + (p + 1) * j)) := by
  rw [dropRow_eq c hc, loop_at (fun i j => dof c (i + 1 + (p + 1) * j)) hi hj]

/-- The nodes of the triangle. -/
lemma redT0_at (hx : Nodes p xs) (hy : Nodes q ys) (hc : Collapsed Φ (node xs 0)) (f : ℝ × ℝ → ℝ) {i j : ℕ} (hi : i < p + 1)
    (hj : j < q + 1) : dof (redT0 Φ f xs ys) (sn0 p q i j) = f (Φ (node xs i) (node ys j)) := by
  rcases i with _ | i
  · rw [hc _ (node_in hy hj) _ (node_in hy (show 0 < q + 1 by omega))]
    rfl
  · have e : sn0 p q (i + 1) j = (i + p * j) + 1 := by simp [sn0, at0, snum, lnT0, Comp.num]; ring
    apply dof_of
    rw [e, redT0, List.getElem?_cons_succ]
    have lt : xs.tail.length = p := by simp [hx.len]
    have e2 : (ys.flatMap fun y => xs.tail.map fun x => f (Φ x y)) =
        (List.range (q + 1)).flatMap fun j => (List.range p).map fun i => f (Φ (node xs (i + 1)) (node ys j)) := by
      have hy' : ys = (List.range (q + 1)).map (node ys) := by
        refine List.ext_getElem? fun j => ?_
        rw [List.getElem?_map]
        by_cases c : j < q + 1
        · rw [List.getElem?_range c, node_at (by rw [hy.len]; exact c)]; rfl
        · rw [List.getElem?_eq_none (by rw [hy.len]; omega), List.getElem?_eq_none (by simpa using c)]; rfl
      have hx' : xs.tail = (List.range p).map fun i => node xs (i + 1) := by
        refine List.ext_getElem? fun j => ?_
        rw [List.getElem?_map, List.getElem?_tail]
        by_cases c : j < p
        · rw [List.getElem?_range c, node_at (by rw [hx.len]; omega)]; rfl
        · rw [List.getElem?_eq_none (by rw [hx.len]; omega), List.getElem?_eq_none (by simpa using c)]; rfl
      conv_lhs => rw [hy', hx']
      rw [List.flatMap_map]
      simp only [List.map_map]
      rfl
    rw [e2, loop_at (fun i j => f (Φ (node xs (i + 1)) (node ys j))) (by omega) hj]

lemma dy_lengthI (hx : Nodes p xs) (hy : Nodes q ys) : (red21i_dy Φ J v p q xs ys qy wy).length = (p + 1) * q :=
  alongY2_length hx.len hy.len _ _ _

lemma dy_lengthO (hx : Nodes p xs) (hy : Nodes q ys) : (red21o_dy Φ J v p q xs ys qy wy).length = (p + 1) * q :=
  alongY2_length hx.len hy.len _ _ _

/-- The local cochain of an inner 1-form on a triangle (`Rd_m2n2k1.py:187-210`, without the signs of reversed edges, which are
in `Reversal`). -/
noncomputable def redTi (Φ : ℝ → ℝ → ℝ × ℝ) (J : ℝ → ℝ → ℕ → ℕ → ℝ) (v : ℝ × ℝ → ℝ × ℝ) (p q : ℕ) (xs ys qx wx qy wy : List ℝ) : List ℝ :=
  (redT1i Φ J v p q xs ys qx wx qy wy).1 ++ (redT1i Φ J v p q xs ys qx wx qy wy).2

/-- The local cochain of an outer 1-form on a triangle (`Rd_m2n2k1.py:386-409`). -/
noncomputable def redTo (Φ : ℝ → ℝ → ℝ × ℝ) (J : ℝ → ℝ → ℕ → ℕ → ℝ) (v : ℝ × ℝ → ℝ × ℝ) (p q : ℕ) (xs ys qx wx qy wy : List ℝ) : List ℝ :=
  (redT1o Φ J v p q xs ys qx wx qy wy).1 ++ (redT1o Φ J v p q xs ys qx wx qy wy).2

lemma redTi_xi (hx : Nodes p xs) (hy : Nodes q ys) {i j : ℕ} (hi : i < p) (hj : j < q + 1) :
    xiI p q (dof (redTi Φ J v p q xs ys qx wx qy wy)) i j =
      dof (red21i Φ J v p q xs ys qx wx qy wy) (snum (ln21i p q) (0, i, j, 0)) := by
  have hl : (red21i_dx Φ J v p q xs ys qx wx).length = p * (q + 1) := alongX2_length hx.len hy.len _ _ _
  have e1 : snum (lnT1i p q) (0, i, j, 0) = i + p * j := by simp [snum, lnT1i, Comp.num]
  have e2 : snum (ln21i p q) (0, i, j, 0) = i + p * j := by simp [snum, ln21i, Comp.num]
  have lt : i + p * j < p * (q + 1) := lt_mul hi hj
  rw [xiI, e1, e2, dof, dof, List.getD_eq_getElem?_getD, List.getD_eq_getElem?_getD, redTi, redT1i, red21i,
    List.getElem?_append_left (by rw [hl]; exact lt), List.getElem?_append_left (by rw [hl]; exact lt)]

lemma redTi_et (hx : Nodes p xs) (hy : Nodes q ys) {i j : ℕ} (hi : i < p) (hj : j < q) :
    etI p q (dof (redTi Φ J v p q xs ys qx wx qy wy)) (i + 1) j =
      dof (red21i Φ J v p q xs ys qx wx qy wy) (snum (ln21i p q) (1, i + 1, j, 0)) := by
  have hl : (red21i_dx Φ J v p q xs ys qx wx).length = p * (q + 1) := alongX2_length hx.len hy.len _ _ _
  have e1 : snum (lnT1i p q) (1, i, j, 0) = p * (q + 1) + (i + p * j) := by simp [snum, lnT1i, Comp.num]
  have e2 : snum (ln21i p q) (1, i + 1, j, 0) = p * (q + 1) + (i + 1 + (p + 1) * j) := by simp [snum, ln21i, Comp.num]
  rw [etI, if_neg (by omega), Nat.add_sub_cancel, e1, e2]
  apply dof_of
  rw [redTi, redT1i, List.getElem?_append_right (by rw [hl]; omega), hl, Nat.add_sub_cancel_left,
    dropRow_at _ (dy_lengthI hx hy) hi hj, dof, dof, List.getD_eq_getElem?_getD, List.getD_eq_getElem?_getD, red21i,
    List.getElem?_append_right (by rw [hl]; omega), hl, Nat.add_sub_cancel_left]

lemma redTo_et (hx : Nodes p xs) (hy : Nodes q ys) {i j : ℕ} (hi : i < p) (hj : j < q) :
    etO p q (dof (redTo Φ J v p q xs ys qx wx qy wy)) (i + 1) j =
      dof (red21o Φ J v p q xs ys qx wx qy wy) (snum (ln21o p q) (0, i + 1, j, 0)) := by
  have e1 : snum (lnT1o p q) (0, i, j, 0) = i + p * j := by simp [snum, lnT1o, Comp.num]
  have e2 : snum (ln21o p q) (0, i + 1, j, 0) = i + 1 + (p + 1) * j := by simp [snum, ln21o, Comp.num]
  have l1 : i + p * j < p * q := lt_mul hi hj
  have l2 : i + 1 + (p + 1) * j < (p + 1) * q := lt_mul (by omega) hj
  rw [etO, if_neg (by omega), Nat.add_sub_cancel, e1, e2]
  apply dof_of
  rw [redTo, redT1o, List.getElem?_append_left (by rw [dropRow_length _ (dy_lengthO hx hy)]; exact l1),
    dropRow_at _ (dy_lengthO hx hy) hi hj, dof, dof, List.getD_eq_getElem?_getD, List.getD_eq_getElem?_getD, red21o,
    List.getElem?_append_left (by rw [dy_lengthO hx hy]; exact l2)]

lemma redTo_xi (hx : Nodes p xs) (hy : Nodes q ys) {i j : ℕ} (hi : i < p) (hj : j < q + 1) :
    xiO p q (dof (redTo Φ J v p q xs ys qx wx qy wy)) i j =
      dof (red21o Φ J v p q xs ys qx wx qy wy) (snum (ln21o p q) (1, i, j, 0)) := by
  have e1 : snum (lnT1o p q) (1, i, j, 0) = p * q + (i + p * j) := by simp [snum, lnT1o, Comp.num]
  have e2 : snum (ln21o p q) (1, i, j, 0) = (p + 1) * q + (i + p * j) := by simp [snum, ln21o, Comp.num]
  have hl := dropRow_length (p := p) (q := q) _ (dy_lengthO (Φ := Φ) (J := J) (v := v) (qy := qy) (wy := wy) hx hy)
  have hl2 := dy_lengthO (Φ := Φ) (J := J) (v := v) (qy := qy) (wy := wy) hx hy
  rw [xiO, e1, e2, dof, dof, List.getD_eq_getElem?_getD, List.getD_eq_getElem?_getD, redTo, redT1o, red21o,
    List.getElem?_append_right (by rw [hl]; omega), List.getElem?_append_right (by rw [hl2]; omega), hl, hl2,
    Nat.add_sub_cancel_left, Nat.add_sub_cancel_left]

/-- The numbers that quadrilaterals have on the collapsed side vanish, so leaving them away loses nothing. -/
lemma redTi_et' (hE : Elem2 Φ J) (hx : Nodes p xs) (hy : Nodes q ys) (hqy : ∀ t ∈ qy, t ∈ I) (hc : Collapsed Φ (node xs 0))
    {i j : ℕ} (hi : i < p + 1) (hj : j < q) :
    etI p q (dof (redTi Φ J v p q xs ys qx wx qy wy)) i j =
      dof (red21i Φ J v p q xs ys qx wx qy wy) (snum (ln21i p q) (1, i, j, 0)) := by
  rcases i with _ | i
  · rw [etI, if_pos rfl, red21i_at1 hx.len hy.len Φ J v qx wx qy wy hi hj,
      rule_congr hqy (h := fun _ => 0) (fun y hI => by
        obtain ⟨a, b⟩ := collapsed_jac hE (node_in hx hi) hc hI
        rw [a, b]; ring) (node_in hy (by omega)) (node_in hy (by omega))]
    exact (rule_zero _ _ _ _).symm
  · exact redTi_et hx hy (by omega) hj

lemma redTo_et' (hE : Elem2 Φ J) (hx : Nodes p xs) (hy : Nodes q ys) (hqy : ∀ t ∈ qy, t ∈ I) (hc : Collapsed Φ (node xs 0))
    {i j : ℕ} (hi : i < p + 1) (hj : j < q) :
    etO p q (dof (redTo Φ J v p q xs ys qx wx qy wy)) i j =
      dof (red21o Φ J v p q xs ys qx wx qy wy) (snum (ln21o p q) (0, i, j, 0)) := by
  rcases i with _ | i
  · rw [etO, if_pos rfl, red21o_at0 hx.len hy.len Φ J v qx wx qy wy hi hj,
      rule_congr hqy (h := fun _ => 0) (fun y hI => by
        obtain ⟨a, b⟩ := collapsed_jac hE (node_in hx hi) hc hI
        rw [a, b]; ring) (node_in hy (by omega)) (node_in hy (by omega))]
    exact (rule_zero _ _ _ _).symm
  · exact redTo_et hx hy (by omega) hj

lemma redTi_length (hx : Nodes p xs) (hy : Nodes q ys) : (redTi Φ J v p q xs ys qx wx qy wy).length = nT1 p q := by
  have hl : (red21i_dx Φ J v p q xs ys qx wx).length = p * (q + 1) := alongX2_length hx.len hy.len _ _ _
  rw [redTi, redT1i, List.length_append, hl, dropRow_length _ (dy_lengthI hx hy), nT1]
  ring

lemma redTo_length (hx : Nodes p xs) (hy : Nodes q ys) : (redTo Φ J v p q xs ys qx wx qy wy).length = nT1 p q := by
  have hl : (red21o_dx Φ J v p q xs ys qx wx).length = p * (q + 1) := alongX2_length hx.len hy.len _ _ _
  rw [redTo, redT1o, List.length_append, hl, dropRow_length _ (dy_lengthO hx hy), nT1]

/-- **C116, what the numbers on triangles are**: values at the nodes, circulations along and fluxes through the edges. -/
theorem reduceT (hE : Elem2 Φ J) (hx : Nodes p xs) (hy : Nodes q ys) (hqx : ∀ t ∈ qx, t ∈ I) (hqy : ∀ t ∈ qy, t ∈ I)
    (hc : Collapsed Φ (node xs 0)) (f : ℝ × ℝ → ℝ) (v : ℝ × ℝ → ℝ × ℝ) :
    (redTi Φ J v p q xs ys qx wx qy wy).length = nT1 p q ∧ (redTo Φ J v p q xs ys qx wx qy wy).length = nT1 p q ∧
    (∀ i j, i < p + 1 → j < q + 1 → dof (redT0 Φ f xs ys) (sn0 p q i j) = f (Φ (node xs i) (node ys j))) ∧
    (∀ i j, i < p → j < q + 1 → xiI p q (dof (redTi Φ J v p q xs ys qx wx qy wy)) i j =
      rule qx wx (fun x => dot2 (v (Φ x (node ys j))) (tan2 Φ x (node ys j) (1, 0))) (node xs i) (node xs (i + 1))) ∧
    (∀ i j, i < p + 1 → j < q → etI p q (dof (redTi Φ J v p q xs ys qx wx qy wy)) i j =
      rule qy wy (fun y => dot2 (v (Φ (node xs i) y)) (tan2 Φ (node xs i) y (0, 1))) (node ys j) (node ys (j + 1))) ∧
    (∀ i j, i < p + 1 → j < q → etO p q (dof (redTo Φ J v p q xs ys qx wx qy wy)) i j =
      rule qy wy (fun y => cross2 (v (Φ (node xs i) y)) (tan2 Φ (node xs i) y (0, 1))) (node ys j) (node ys (j + 1))) ∧
    (∀ i j, i < p → j < q + 1 → xiO p q (dof (redTo Φ J v p q xs ys qx wx qy wy)) i j =
      rule qx wx (fun x => -cross2 (v (Φ x (node ys j))) (tan2 Φ x (node ys j) (1, 0))) (node xs i) (node xs (i + 1))) := by
  obtain ⟨_, i0, i1⟩ := reduce21i (wx := wx) (wy := wy) hE hx hy hqx hqy v
  obtain ⟨_, o0, o1⟩ := reduce21o (wx := wx) (wy := wy) hE hx hy hqx hqy v
  exact ⟨redTi_length hx hy, redTo_length hx hy, fun i j hi hj => redT0_at hx hy hc f hi hj,
    fun i j hi hj => (redTi_xi hx hy hi hj).trans (i0 i j hi hj),
    fun i j hi hj => (redTi_et' hE hx hy hqy hc hi hj).trans (i1 i j hi hj),
    fun i j hi hj => (redTo_et' hE hx hy hqy hc hi hj).trans (o0 i j hi hj),
    fun i j hi hj => (redTo_xi hx hy hi hj).trans (o1 i j hi hj)⟩

/-- Every local number of an inner 1-form on a triangle is that of an edge. -/
lemma exists_edgeI {m : ℕ} (hm : m < nT1 p q) :
    (∃ i j, i < p ∧ j < q + 1 ∧ m = snum (lnT1i p q) (0, i, j, 0)) ∨
    (∃ i j, i < p ∧ j < q ∧ m = snum (lnT1i p q) (1, i, j, 0)) := by
  have e0 : ∀ i j, snum (lnT1i p q) (0, i, j, 0) = i + p * j := fun i j => by simp [snum, lnT1i, Comp.num]
  have e1 : ∀ i j, snum (lnT1i p q) (1, i, j, 0) = p * (q + 1) + (i + p * j) := fun i j => by simp [snum, lnT1i, Comp.num]
  simp only [e0, e1]
  rw [nT1] at hm
  rcases Nat.eq_zero_or_pos p with rfl | hp
  · simp at hm
  by_cases h : m < p * (q + 1)
  · exact Or.inl ⟨m % p, m / p, Nat.mod_lt _ hp, Nat.div_lt_of_lt_mul h, (Nat.mod_add_div m p).symm⟩
  · refine Or.inr ⟨(m - p * (q + 1)) % p, (m - p * (q + 1)) / p, Nat.mod_lt _ hp, Nat.div_lt_of_lt_mul (by omega), ?_⟩
    rw [Nat.mod_add_div]
    omega

lemma exists_edgeO {m : ℕ} (hm : m < nT1 p q) :
    (∃ i j, i < p ∧ j < q ∧ m = snum (lnT1o p q) (0, i, j, 0)) ∨
    (∃ i j, i < p ∧ j < q + 1 ∧ m = snum (lnT1o p q) (1, i, j, 0)) := by
  have e0 : ∀ i j, snum (lnT1o p q) (0, i, j, 0) = i + p * j := fun i j => by simp [snum, lnT1o, Comp.num]
  have e1 : ∀ i j, snum (lnT1o p q) (1, i, j, 0) = p * q + (i + p * j) := fun i j => by simp [snum, lnT1o, Comp.num]
  simp only [e0, e1]
  rw [nT1] at hm
  rcases Nat.eq_zero_or_pos p with rfl | hp
  · simp at hm
  by_cases h : m < p * q
  · exact Or.inl ⟨m % p, m / p, Nat.mod_lt _ hp, Nat.div_lt_of_lt_mul h, (Nat.mod_add_div m p).symm⟩
  · refine Or.inr ⟨(m - p * q) % p, (m - p * q) / p, Nat.mod_lt _ hp, Nat.div_lt_of_lt_mul (by omega), ?_⟩
    rw [Nat.mod_add_div]
    omega

/-- **C116, gradient on triangles**. -/
theorem gradT_commutes (hE : Elem2 Φ J) (hf : SmoothOn2 Φ f) (hx : Nodes p xs) (hy : Nodes q ys) (hqx : ∀ t ∈ qx, t ∈ I)
    (hqy : ∀ t ∈ qy, t ∈ I) (hc : Collapsed Φ (node xs 0)) {ε : ℝ}
    (e0 : ∀ i < p, ∀ j < q + 1, err qx wx (fun x => dot2 (grad2 f (Φ x (node ys j))) (tan2 Φ x (node ys j) (1, 0)))
      (node xs i) (node xs (i + 1)) ≤ ε)
    (e1 : ∀ i < p + 1, ∀ j < q, err qy wy (fun y => dot2 (grad2 f (Φ (node xs i) y)) (tan2 Φ (node xs i) y (0, 1)))
      (node ys j) (node ys (j + 1)) ≤ ε) :
    ∀ m < nT1 p q, |dof (redTi Φ J (grad2 f) p q xs ys qx wx qy wy) m -
      app (nT0 p q) (ET0i p q) (dof (redT0 Φ f xs ys)) m| ≤ ε := by
  have main := grad2_commutes hE hf hx hy hqx hqy e0 e1
  obtain ⟨g0, g1, _⟩ := inner2_differences p q (dof (red20 Φ f xs ys))
  obtain ⟨d0, d1, _⟩ := inner_differences p q (dof (redT0 Φ f xs ys))
  have n0 : ∀ {i j}, i < p + 1 → j < q + 1 → dof (redT0 Φ f xs ys) (sn0 p q i j) =
      dof (red20 Φ f xs ys) (snum (ln20 p q) (0, i, j, 0)) := fun hi hj =>
    (redT0_at hx hy hc f hi hj).trans (red20_at hx.len hy.len Φ f hi hj).symm
  intro m hm
  rcases exists_edgeI hm with ⟨i, j, hi, hj, rfl⟩ | ⟨i, j, hi, hj, rfl⟩
  · have h1 := redTi_xi (Φ := Φ) (J := J) (v := grad2 f) (qx := qx) (wx := wx) (qy := qy) (wy := wy) hx hy hi hj
    have h2 := d0 i j hi hj
    rw [xiI] at h1 h2
    rw [h1, h2, n0 (by omega) hj, n0 (by omega) hj, ← g0 i j hi hj]
    exact main _ (by simp [snum, ln21i, Comp.num, nd21]; have := lt_mul hi hj; omega)
  · have h1 := redTi_et (Φ := Φ) (J := J) (v := grad2 f) (qx := qx) (wx := wx) (qy := qy) (wy := wy) hx hy hi hj
    have h2 := d1 (i + 1) j (by omega) hj
    rw [etI, if_neg (by omega), Nat.add_sub_cancel] at h1 h2
    rw [h1, h2, n0 (by omega) (by omega), n0 (by omega) (by omega), ← g1 (i + 1) j (by omega) hj]
    exact main _ (by simp [snum, ln21i, Comp.num, nd21]; have := lt_mul (show i + 1 < p + 1 by omega) hj; omega)

/-- **C116, curl on triangles**. -/
theorem curlT_commutes (hE : Elem2 Φ J) (hf : SmoothOn2 Φ f) (hx : Nodes p xs) (hy : Nodes q ys) (hqx : ∀ t ∈ qx, t ∈ I)
    (hqy : ∀ t ∈ qy, t ∈ I) (hc : Collapsed Φ (node xs 0)) {ε : ℝ}
    (e0 : ∀ i < p + 1, ∀ j < q, err qy wy (fun y => cross2 (curl2 f (Φ (node xs i) y)) (tan2 Φ (node xs i) y (0, 1)))
      (node ys j) (node ys (j + 1)) ≤ ε)
    (e1 : ∀ i < p, ∀ j < q + 1, err qx wx (fun x => -cross2 (curl2 f (Φ x (node ys j))) (tan2 Φ x (node ys j) (1, 0)))
      (node xs i) (node xs (i + 1)) ≤ ε) :
    ∀ m < nT1 p q, |dof (redTo Φ J (curl2 f) p q xs ys qx wx qy wy) m -
      app (nT0 p q) (ET0o p q) (dof (redT0 Φ f xs ys)) m| ≤ ε := by
  have main := curl2_commutes hE hf hx hy hqx hqy e0 e1
  obtain ⟨g0, g1, _⟩ := outer2_differences p q (dof (red20 Φ f xs ys))
  obtain ⟨d0, d1, _⟩ := outer_differences p q (dof (redT0 Φ f xs ys))
  have n0 : ∀ {i j}, i < p + 1 → j < q + 1 → dof (redT0 Φ f xs ys) (sn0 p q i j) =
      dof (red20 Φ f xs ys) (snum (ln20 p q) (0, i, j, 0)) := fun hi hj =>
    (redT0_at hx hy hc f hi hj).trans (red20_at hx.len hy.len Φ f hi hj).symm
  intro m hm
  rcases exists_edgeO hm with ⟨i, j, hi, hj, rfl⟩ | ⟨i, j, hi, hj, rfl⟩
  · have h1 := redTo_et (Φ := Φ) (J := J) (v := curl2 f) (qx := qx) (wx := wx) (qy := qy) (wy := wy) hx hy hi hj
    have h2 := d0 (i + 1) j (by omega) hj
    rw [etO, if_neg (by omega), Nat.add_sub_cancel] at h1 h2
    rw [h1, h2, n0 (by omega) (by omega), n0 (by omega) (by omega), ← g0 (i + 1) j (by omega) hj]
    exact main _ (by simp [snum, ln21o, Comp.num, nd21]; have := lt_mul (show i + 1 < p + 1 by omega) hj; omega)
  · have h1 := redTo_xi (Φ := Φ) (J := J) (v := curl2 f) (qx := qx) (wx := wx) (qy := qy) (wy := wy) hx hy hi hj
    have h2 := d1 i j hi hj
    rw [xiO] at h1 h2
    have h3 := g1 i j hi hj
    rw [h1, h2, n0 (by omega) hj, n0 (by omega) hj]
    have h4 := main (snum (ln21o p q) (1, i, j, 0))
      (by simp [snum, ln21o, Comp.num, nd21]; have := lt_mul hi hj; omega)
    rw [h3] at h4
    refine le_of_eq_of_le ?_ h4
    congr 1
    try ring

/-- **C116, rotation on triangles**. -/
theorem rotT_commutes (hE : Elem2 Φ J) (hv : SmoothOn2 Φ v) (hx : Nodes p xs) (hy : Nodes q ys) (hqx : ∀ t ∈ qx, t ∈ I)
    (hqy : ∀ t ∈ qy, t ∈ I) (hc : Collapsed Φ (node xs 0)) {ε δ : ℝ}
    (e0 : ∀ i < p, ∀ j < q + 1, err qx wx (fun x => dot2 (v (Φ x (node ys j))) (tan2 Φ x (node ys j) (1, 0)))
      (node xs i) (node xs (i + 1)) ≤ ε)
    (e1 : ∀ i < p + 1, ∀ j < q, err qy wy (fun y => dot2 (v (Φ (node xs i) y)) (tan2 Φ (node xs i) y (0, 1)))
      (node ys j) (node ys (j + 1)) ≤ ε)
    (e2 : ∀ i < p, ∀ j < q, err2 qx wx qy wy
      (fun x y => rot2 v (Φ x y) * cross2 (tan2 Φ x y (1, 0)) (tan2 Φ x y (0, 1)))
      (node xs i) (node xs (i + 1)) (node ys j) (node ys (j + 1)) ≤ δ) :
    ∀ m < nd22 p q, |dof (red22 Φ J (rot2 v) p q xs ys qx wx qy wy) m -
      app (nT1 p q) (ET1i p q) (dof (redTi Φ J v p q xs ys qx wx qy wy)) m| ≤ 4 * ε + δ := by
  intro m hm
  have main := rot2_commutes hE hv hx hy hqx hqy e0 e1 e2 m hm
  obtain ⟨_, _, g⟩ := inner2_differences p q (dof (red21i Φ J v p q xs ys qx wx qy wy))
  obtain ⟨_, _, d⟩ := inner_differences p q (dof (redTi Φ J v p q xs ys qx wx qy wy))
  obtain ⟨t, dd, i, j, k, hd, ⟨hi, hj, hk⟩, rfl⟩ := Stacked.exists_snum (st22 p q) hm
  rcases t with _ | t <;> simp [ln22] at hd
  subst hd
  simp only at hi hj hk
  obtain rfl : k = 0 := by omega
  change |dof _ (snum (ln22 p q) (0, i, j, 0)) - app _ _ _ (snum (ln22 p q) (0, i, j, 0))| ≤ _ at main ⊢
  rw [g i j hi hj] at main
  rw [d i j hi hj, redTi_et' hE hx hy hqy hc (by omega) hj, redTi_et' hE hx hy hqy hc (by omega) hj,
    redTi_xi hx hy hi (by omega), redTi_xi hx hy hi (by omega)]
  exact main

/-- **C116, divergence on triangles**. -/
theorem divT_commutes (hE : Elem2 Φ J) (hv : SmoothOn2 Φ v) (hx : Nodes p xs) (hy : Nodes q ys) (hqx : ∀ t ∈ qx, t ∈ I)
    (hqy : ∀ t ∈ qy, t ∈ I) (hc : Collapsed Φ (node xs 0)) {ε δ : ℝ}
    (e0 : ∀ i < p + 1, ∀ j < q, err qy wy (fun y => cross2 (v (Φ (node xs i) y)) (tan2 Φ (node xs i) y (0, 1)))
      (node ys j) (node ys (j + 1)) ≤ ε)
    (e1 : ∀ i < p, ∀ j < q + 1, err qx wx (fun x => -cross2 (v (Φ x (node ys j))) (tan2 Φ x (node ys j) (1, 0)))
      (node xs i) (node xs (i + 1)) ≤ ε)
    (e2 : ∀ i < p, ∀ j < q, err2 qx wx qy wy
      (fun x y => div2 v (Φ x y) * cross2 (tan2 Φ x y (1, 0)) (tan2 Φ x y (0, 1)))
      (node xs i) (node xs (i + 1)) (node ys j) (node ys (j + 1)) ≤ δ) :
    ∀ m < nd22 p q, |dof (red22 Φ J (div2 v) p q xs ys qx wx qy wy) m -
      app (nT1 p q) (ET1o p q) (dof (redTo Φ J v p q xs ys qx wx qy wy)) m| ≤ 4 * ε + δ := by
  intro m hm
  have main := div2_commutes hE hv hx hy hqx hqy e0 e1 e2 m hm
  obtain ⟨_, _, g⟩ := outer2_differences p q (dof (red21o Φ J v p q xs ys qx wx qy wy))
  obtain ⟨_, _, d⟩ := outer_differences p q (dof (redTo Φ J v p q xs ys qx wx qy wy))
  obtain ⟨t, dd, i, j, k, hd, ⟨hi, hj, hk⟩, rfl⟩ := Stacked.exists_snum (st22 p q) hm
  rcases t with _ | t <;> simp [ln22] at hd
  subst hd
  simp only at hi hj hk
  obtain rfl : k = 0 := by omega
  change |dof _ (snum (ln22 p q) (0, i, j, 0)) - app _ _ _ (snum (ln22 p q) (0, i, j, 0))| ≤ _ at main ⊢
  rw [g i j hi hj] at main
  rw [d i j hi hj, redTo_et' hE hx hy hqy hc (by omega) hj, redTo_et' hE hx hy hqy hc (by omega) hj,
    redTo_xi hx hy hi (by omega), redTo_xi hx hy hi (by omega)]
  exact main

/-- **C116, gradient on triangles, exactly**. -/
theorem gradT_exact (hE : Elem2 Φ J) (hf : SmoothOn2 Φ f) (hx : Nodes p xs) (hy : Nodes q ys) (hqx : ∀ t ∈ qx, t ∈ I)
    (hqy : ∀ t ∈ qy, t ∈ I) (hc : Collapsed Φ (node xs 0)) {n : ℕ} (hX : ExactTo n qx wx) (hY : ExactTo n qy wy)
    (e0 : ∀ y ∈ I, PolyOn n fun x => dot2 (grad2 f (Φ x y)) (tan2 Φ x y (1, 0)))
    (e1 : ∀ x ∈ I, PolyOn n fun y => dot2 (grad2 f (Φ x y)) (tan2 Φ x y (0, 1))) :
    ∀ m < nT1 p q, dof (redTi Φ J (grad2 f) p q xs ys qx wx qy wy) m =
      app (nT0 p q) (ET0i p q) (dof (redT0 Φ f xs ys)) m := fun m hm =>
  eq_of_err (gradT_commutes hE hf hx hy hqx hqy hc
    (fun _ hi _ hj => (err_zero hX hqx (e0 _ (node_in hy hj)) (node_in hx (by omega)) (node_in hx (by omega))).le)
    (fun _ hi _ hj => (err_zero hY hqy (e1 _ (node_in hx hi)) (node_in hy (by omega)) (node_in hy (by omega))).le) m hm)

/-- **C116, curl on triangles, exactly**. -/
theorem curlT_exact (hE : Elem2 Φ J) (hf : SmoothOn2 Φ f) (hx : Nodes p xs) (hy : Nodes q ys) (hqx : ∀ t ∈ qx, t ∈ I)
    (hqy : ∀ t ∈ qy, t ∈ I) (hc : Collapsed Φ (node xs 0)) {n : ℕ} (hX : ExactTo n qx wx) (hY : ExactTo n qy wy)
    (e0 : ∀ x ∈ I, PolyOn n fun y => cross2 (curl2 f (Φ x y)) (tan2 Φ x y (0, 1)))
    (e1 : ∀ y ∈ I, PolyOn n fun x => -cross2 (curl2 f (Φ x y)) (tan2 Φ x y (1, 0))) :
    ∀ m < nT1 p q, dof (redTo Φ J (curl2 f) p q xs ys qx wx qy wy) m =
      app (nT0 p q) (ET0o p q) (dof (redT0 Φ f xs ys)) m := fun m hm =>
  eq_of_err (curlT_commutes hE hf hx hy hqx hqy hc
    (fun _ hi _ hj => (err_zero hY hqy (e0 _ (node_in hx hi)) (node_in hy (by omega)) (node_in hy (by omega))).le)
    (fun _ hi _ hj => (err_zero hX hqx (e1 _ (node_in hy hj)) (node_in hx (by omega)) (node_in hx (by omega))).le) m hm)

/-- **C116, rotation on triangles, exactly**. -/
theorem rotT_exact (hE : Elem2 Φ J) (hv : SmoothOn2 Φ v) (hx : Nodes p xs) (hy : Nodes q ys) (hqx : ∀ t ∈ qx, t ∈ I)
    (hqy : ∀ t ∈ qy, t ∈ I) (hc : Collapsed Φ (node xs 0)) {n : ℕ} (hX : ExactTo n qx wx) (hY : ExactTo n qy wy)
    (e0 : ∀ y ∈ I, PolyOn n fun x => dot2 (v (Φ x y)) (tan2 Φ x y (1, 0)))
    (e1 : ∀ x ∈ I, PolyOn n fun y => dot2 (v (Φ x y)) (tan2 Φ x y (0, 1)))
    (e2 : PolyOn2 n fun x y => rot2 v (Φ x y) * cross2 (tan2 Φ x y (1, 0)) (tan2 Φ x y (0, 1))) :
    ∀ m < nd22 p q, dof (red22 Φ J (rot2 v) p q xs ys qx wx qy wy) m =
      app (nT1 p q) (ET1i p q) (dof (redTi Φ J v p q xs ys qx wx qy wy)) m := fun m hm =>
  eq_of_err ((rotT_commutes hE hv hx hy hqx hqy hc
    (fun _ hi _ hj => (err_zero hX hqx (e0 _ (node_in hy hj)) (node_in hx (by omega)) (node_in hx (by omega))).le)
    (fun _ hi _ hj => (err_zero hY hqy (e1 _ (node_in hx hi)) (node_in hy (by omega)) (node_in hy (by omega))).le)
    (fun _ hi _ hj => (err2_zero hX hY hqx hqy e2 (node_in hx (by omega)) (node_in hx (by omega)) (node_in hy (by omega))
      (node_in hy (by omega))).le) m hm).trans (by norm_num))

/-- **C116, divergence on triangles, exactly**. -/
theorem divT_exact (hE : Elem2 Φ J) (hv : SmoothOn2 Φ v) (hx : Nodes p xs) (hy : Nodes q ys) (hqx : ∀ t ∈ qx, t ∈ I)
    (hqy : ∀ t ∈ qy, t ∈ I) (hc : Collapsed Φ (node xs 0)) {n : ℕ} (hX : ExactTo n qx wx) (hY : ExactTo n qy wy)
    (e0 : ∀ x ∈ I, PolyOn n fun y => cross2 (v (Φ x y)) (tan2 Φ x y (0, 1)))
    (e1 : ∀ y ∈ I, PolyOn n fun x => -cross2 (v (Φ x y)) (tan2 Φ x y (1, 0)))
    (e2 : PolyOn2 n fun x y => div2 v (Φ x y) * cross2 (tan2 Φ x y (1, 0)) (tan2 Φ x y (0, 1))) :
    ∀ m < nd22 p q, dof (red22 Φ J (div2 v) p q xs ys qx wx qy wy) m =
      app (nT1 p q) (ET1o p q) (dof (redTo Φ J v p q xs ys qx wx qy wy)) m := fun m hm =>
  eq_of_err ((divT_commutes hE hv hx hy hqx hqy hc
    (fun _ hi _ hj => (err_zero hY hqy (e0 _ (node_in hx hi)) (node_in hy (by omega)) (node_in hy (by omega))).le)
    (fun _ hi _ hj => (err_zero hX hqx (e1 _ (node_in hy hj)) (node_in hx (by omega)) (node_in hx (by omega))).le)
    (fun _ hi _ hj => (err2_zero hX hY hqx hqy e2 (node_in hx (by omega)) (node_in hx (by omega)) (node_in hy (by omega))
      (node_in hy (by omega))).le) m hm).trans (by norm_num))

end

/-- The collapsed square with a curved side. -/
noncomputable def fan (x y : ℝ) : ℝ × ℝ := ((1 + x) / 2, (1 + x) * y ^ 2 / 2 + (1 + x) * y)

noncomputable def fanJ (x y : ℝ) (i j : ℕ) : ℝ :=
  if i = 0 then if j = 0 then 1 / 2 else 0 else if j = 0 then y ^ 2 / 2 + y else (1 + x) * (y + 1)

lemma fan_elem : Elem2 fan fanJ where
  smooth x _ y _ := by unfold fan; fun_prop
  jac x _ y _ := by
    have hd : DifferentiableAt ℝ (fun P : ℝ × ℝ => fan P.1 P.2) (x, y) := by unfold fan; fun_prop
    refine ⟨part2x hd ?_, part2y hd ?_⟩
    · refine HasDerivAt.prodMk ?_ ?_
      · simpa [fanJ] using ((hasDerivAt_id x).const_add 1).div_const 2
      · have h := ((((hasDerivAt_id x).const_add 1).mul_const (y ^ 2)).div_const 2).fun_add
          (((hasDerivAt_id x).const_add 1).mul_const y)
        simpa [fanJ] using h
    · refine HasDerivAt.prodMk ?_ ?_
      · simpa [fanJ] using hasDerivAt_const y ((1 + x) / 2)
      · have h := (((hasDerivAt_pow 2 y).const_mul (1 + x)).div_const 2).fun_add ((hasDerivAt_id y).const_mul (1 + x))
        refine h.congr_deriv ?_
        simp [fanJ]
        ring

lemma fan_collapsed : Collapsed fan (node [-1, 0, 1] 0) := by
  intro y _ y' _
  simp [fan, node]

lemma fan_tan {x y : ℝ} (hx : x ∈ I) (hy : y ∈ I) :
    tan2 fan x y (1, 0) = (1 / 2, y ^ 2 / 2 + y) ∧ tan2 fan x y (0, 1) = (0, (1 + x) * (y + 1)) := by
  unfold tan2
  rw [(fan_elem.jac x hx y hy).1, (fan_elem.jac x hx y hy).2]
  simp [fanJ]

/-- The gradient of `x y` on a triangle with a curved side. -/
example : ∀ m < nT1 2 2, dof (redTi fan fanJ (grad2 exF) 2 2 [-1, 0, 1] [-1, 0, 1] gp gw gp gw) m =
    app (nT0 2 2) (ET0i 2 2) (dof (redT0 fan exF [-1, 0, 1] [-1, 0, 1])) m := by
  refine gradT_exact fan_elem (fun x _ y _ => by unfold exF; fun_prop) nodes3 nodes3 gauss_in gauss_in fan_collapsed
    gauss_exact gauss_exact (fun y hy => cubic (y ^ 2 / 2 + y) (y ^ 2 / 2 + y) 0 0 fun x hx => ?_)
    (fun x hx => cubic ((1 + x) ^ 2 / 2) ((1 + x) ^ 2 / 2) 0 0 fun y hy => ?_)
  all_goals rw [grad2, fan, exF_x, exF_y]
  · rw [(fan_tan hx hy).1, dot2]; dsimp only; ring
  · rw [(fan_tan hx hy).2, dot2]; dsimp only; ring

/-- The curl of `x y` there. -/
example : ∀ m < nT1 2 2, dof (redTo fan fanJ (curl2 exF) 2 2 [-1, 0, 1] [-1, 0, 1] gp gw gp gw) m =
    app (nT0 2 2) (ET0o 2 2) (dof (redT0 fan exF [-1, 0, 1] [-1, 0, 1])) m := by
  refine curlT_exact fan_elem (fun x _ y _ => by unfold exF; fun_prop) nodes3 nodes3 gauss_in gauss_in fan_collapsed
    gauss_exact gauss_exact (fun x hx => cubic ((1 + x) ^ 2 / 2) ((1 + x) ^ 2 / 2) 0 0 fun y hy => ?_)
    (fun y hy => cubic (-(y ^ 2 / 2 + y)) (-(y ^ 2 / 2 + y)) 0 0 fun x hx => ?_)
  all_goals rw [curl2, fan, exF_x, exF_y]
  · rw [(fan_tan hx hy).2, cross2]; dsimp only; ring
  · rw [(fan_tan hx hy).1, cross2]; dsimp only; ring

/-- The rotation of a field there. -/
example : ∀ m < nd22 2 2, dof (red22 fan fanJ (rot2 exV) 2 2 [-1, 0, 1] [-1, 0, 1] gp gw gp gw) m =
    app (nT1 2 2) (ET1i 2 2) (dof (redTi fan fanJ exV 2 2 [-1, 0, 1] [-1, 0, 1] gp gw gp gw)) m := by
  refine rotT_exact fan_elem (fun x _ y _ => by unfold exV; fun_prop) nodes3 nodes3 gauss_in gauss_in fan_collapsed
    gauss_exact gauss_exact (fun y hy => cubic (1 / 4) (1 / 4) 0 0 fun x hx => ?_)
    (fun x hx => cubic ((1 + x) ^ 2 / 2) ((1 + x) ^ 2 / 2) 0 0 fun y hy => ?_)
    ⟨fun k l => if k ≤ 1 ∧ l ≤ 1 then 1 else 0, fun x hx y hy => ?_⟩
  · rw [(fan_tan hx hy).1, dot2, fan, exV]; dsimp only; ring
  · rw [(fan_tan hx hy).2, dot2, fan, exV]; dsimp only; ring
  · dsimp only
    rw [(fan_tan hx hy).1, (fan_tan hx hy).2, rot2, fan, exV_x, exV_y]
    simp [Finset.sum_range_succ, cross2]
    ring

/-- The divergence of a field there. -/
example : ∀ m < nd22 2 2, dof (red22 fan fanJ (div2 exV) 2 2 [-1, 0, 1] [-1, 0, 1] gp gw gp gw) m =
    app (nT1 2 2) (ET1o 2 2) (dof (redTo fan fanJ exV 2 2 [-1, 0, 1] [-1, 0, 1] gp gw gp gw)) m := by
  refine divT_exact fan_elem (fun x _ y _ => by unfold exV; fun_prop) nodes3 nodes3 gauss_in gauss_in fan_collapsed
    gauss_exact gauss_exact (fun x hx => cubic ((1 + x) ^ 2 / 2) (-(1 + x) ^ 2 / 2) (-3 * (1 + x) ^ 2 / 2) (-(1 + x) ^ 2 / 2)
      fun y hy => ?_)
    (fun y hy => cubic (-((1 / 2 - y ^ 2 / 2 - y) * (y ^ 2 / 2 + y) - 1 / 4)) (-((1 / 2 - y ^ 2 / 2 - y) * (y ^ 2 / 2 + y) - 1 / 4))
      0 0 fun x hx => ?_)
    ⟨fun k l => if k ≤ 1 ∧ l ≤ 1 then 1 / 2 else 0, fun x hx y hy => ?_⟩
  · rw [(fan_tan hx hy).2, cross2, fan, exV]; dsimp only; ring
  · rw [(fan_tan hx hy).1, cross2, fan, exV]; dsimp only; ring
  · dsimp only
    rw [(fan_tan hx hy).1, (fan_tan hx hy).2, div2, fan, exV_x, exV_y]
    simp [Finset.sum_range_succ, cross2]
    ring

end Phyem.Reduce
