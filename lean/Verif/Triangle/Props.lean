import Verif.Triangle.Lemmas

/-!
C86, the discrete part: numbering and incidence matrices on triangles.

The reference element is the square with nodes `(i, j)`, `i ≤ px`, `j ≤ py`; its side `i = 0` is collapsed to one corner of
the triangle. So all nodes `(0, j)` are one node, and the edges between them do not exist.
-/

namespace Phyem.Triangle

open Phyem.Numbering Phyem.Incidence Finset Poly

/-- C86: the nodes of the square are numbered `0, …, nT0 - 1` without gaps; two of them have the same number exactly when
they are the same node, or both on the collapsed side. -/
theorem nodes_numbered (px py : ℕ) :
    (∀ i j, i < px + 1 → j < py + 1 → sn0 px py i j < px * (py + 1) + 1) ∧
    (∀ n, n < px * (py + 1) + 1 → ∃ i j, i < px + 1 ∧ j < py + 1 ∧ sn0 px py i j = n) ∧
    ∀ i j i' j', i < px + 1 → j < py + 1 → i' < px + 1 → j' < py + 1 →
      (sn0 px py i j = sn0 px py i' j' ↔ (i = 0 ∧ i' = 0) ∨ (i = i' ∧ j = j')) := by
  refine ⟨?_, ?_, ?_⟩
  · intro i j hi hj
    obtain ⟨x, hx, hv⟩ := at0_valid hi hj
    have := (stk0 px py).bijective.1 _ x _ _ _ hx hv
    simpa [sn0, snum, hx, nT0] using this
  · intro n hn
    obtain ⟨t, x, i, j, k, hx, ⟨hi, hj, hk⟩, e⟩ := Stacked.exists_snum (stk0 px py) (n := n) hn
    rcases t with _ | _ | t <;> simp [lnT0] at hx
    · subst hx
      refine ⟨0, 0, by omega, by omega, ?_⟩
      rw [← e]
      simp only at hi hj hk
      obtain rfl : i = 0 := by omega
      obtain rfl : j = 0 := by omega
      obtain rfl : k = 0 := by omega
      simp [sn0, at0, snum, lnT0]
    · subst hx
      simp only at hi hj hk
      obtain rfl : k = 0 := by omega
      refine ⟨i + 1, j, by omega, by omega, ?_⟩
      rw [← e]
      simp [sn0, at0, snum, lnT0]
  · intro i j i' j' hi hj hi' hj'
    obtain ⟨x, hx, hv⟩ := at0_valid hi hj
    obtain ⟨x', hx', hv'⟩ := at0_valid hi' hj'
    constructor
    · intro e
      have := (goodT0o px py).snum_inj hx hx' hv hv' e
      unfold at0 at this
      split_ifs at this with h1 h2 <;> simp at this
      · exact Or.inl ⟨h1, h2⟩
      · exact Or.inr ⟨by omega, this.2⟩
    · rintro (⟨rfl, rfl⟩ | ⟨rfl, rfl⟩)
      · rfl
      · rfl

theorem exists_unique_edge {xs : List Comp} {e : ℕ} (h : Stacked 0 xs e) (P : ℕ → ℕ → ℕ → Prop)
    (hP : ∀ t i j, P t i j ↔ ∃ x, xs[t]? = some x ∧ x.valid i j 0) (hc : ∀ x ∈ xs, x.c = 1) (n : ℕ) (hn : n < e) :
    ∃! q : ℕ × ℕ × ℕ, P q.1 q.2.1 q.2.2 ∧ snum xs (q.1, q.2.1, q.2.2, 0) = n := by
  obtain ⟨t, x, i, j, k, ⟨h1, h2, h3⟩, hu⟩ := h.bijective.2 n hn
  have hk : k = 0 := by
    have := hc x (List.mem_of_getElem? h1)
    have := h2.2.2
    omega
  subst hk
  refine ⟨(t, i, j), ⟨(hP _ _ _).2 ⟨x, h1, h2⟩, by simp [snum, h1, h3]⟩, ?_⟩
  rintro ⟨t', i', j'⟩ ⟨hp, he⟩
  obtain ⟨x', h1', h2'⟩ := (hP _ _ _).1 hp
  obtain ⟨rfl, rfl, rfl, -⟩ := hu t' x' i' j' 0 h1' h2' (by simpa [snum, h1'] using he)
  rfl

/-- The edges of the triangle: of an inner form, first those along `xi`, then those along `eta` (except on the collapsed
side: edge `(1, i, j)` is at the nodes `i + 1`). -/
def isEdgeI (px py t i j : ℕ) : Prop := (t = 0 ∧ i < px ∧ j < py + 1) ∨ (t = 1 ∧ i < px ∧ j < py)

/-- The same for an outer form, in the other order. -/
def isEdgeO (px py t i j : ℕ) : Prop := (t = 0 ∧ i < px ∧ j < py) ∨ (t = 1 ∧ i < px ∧ j < py + 1)

/-- C86: both edge numberings are bijective onto `0, …, nT1 - 1`. -/
theorem edges_numbered (px py : ℕ) :
    (∀ t i j, isEdgeI px py t i j → snum (lnT1i px py) (t, i, j, 0) < px * py + px * (py + 1)) ∧
    (∀ n, n < px * py + px * (py + 1) →
      ∃! q : ℕ × ℕ × ℕ, isEdgeI px py q.1 q.2.1 q.2.2 ∧ snum (lnT1i px py) (q.1, q.2.1, q.2.2, 0) = n) ∧
    (∀ t i j, isEdgeO px py t i j → snum (lnT1o px py) (t, i, j, 0) < px * py + px * (py + 1)) ∧
    (∀ n, n < px * py + px * (py + 1) →
      ∃! q : ℕ × ℕ × ℕ, isEdgeO px py q.1 q.2.1 q.2.2 ∧ snum (lnT1o px py) (q.1, q.2.1, q.2.2, 0) = n) := by
  have hi : ∀ t i j, isEdgeI px py t i j ↔ ∃ x, (lnT1i px py)[t]? = some x ∧ x.valid i j 0 := by
    intro t i j
    rcases t with _ | _ | t <;> simp [isEdgeI, lnT1i, Comp.valid]
  have ho : ∀ t i j, isEdgeO px py t i j ↔ ∃ x, (lnT1o px py)[t]? = some x ∧ x.valid i j 0 := by
    intro t i j
    rcases t with _ | _ | t <;> simp [isEdgeO, lnT1o, Comp.valid]
  refine ⟨?_, exists_unique_edge (stk1i px py) _ hi (by simp [lnT1i]), ?_,
    exists_unique_edge (stk1o px py) _ ho (by simp [lnT1o])⟩
  · intro t i j h
    obtain ⟨x, h1, h2⟩ := (hi t i j).1 h
    simpa [snum, h1, nT1] using (stk1i px py).bijective.1 t x i j 0 h1 h2
  · intro t i j h
    obtain ⟨x, h1, h2⟩ := (ho t i j).1 h
    simpa [snum, h1, nT1] using (stk1o px py).bijective.1 t x i j 0 h1 h2

variable {R : Type*} [CommRing R]

/-- Value of an inner 1-cochain on the edge along `xi` from node `(i, j)` to `(i + 1, j)`. -/
def xiI (px py : ℕ) (v : ℕ → R) (i j : ℕ) : R := v (snum (lnT1i px py) (0, i, j, 0))

/-- Value on the edge along `eta` from `(i, j)` to `(i, j + 1)`: nothing on the collapsed side. -/
def etI (px py : ℕ) (v : ℕ → R) (i j : ℕ) : R := if i = 0 then 0 else v (snum (lnT1i px py) (1, i - 1, j, 0))

/-- The flux of an outer 1-cochain through the edge along `eta` from `(i, j)` to `(i, j + 1)`. -/
def etO (px py : ℕ) (v : ℕ → R) (i j : ℕ) : R := if i = 0 then 0 else v (snum (lnT1o px py) (0, i - 1, j, 0))

/-- The flux of an outer 1-cochain through the edge along `xi` from `(i, j)` to `(i + 1, j)`. -/
def xiO (px py : ℕ) (v : ℕ → R) (i j : ℕ) : R := v (snum (lnT1o px py) (1, i, j, 0))

/-- C86: the inner matrices take differences of node values along edges and sum edge values around cells. -/
theorem inner_differences (px py : ℕ) (v : ℕ → R) :
    (∀ i j, i < px → j < py + 1 →
      xiI px py (app (nT0 px py) (ET0i px py) v) i j = v (sn0 px py (i + 1) j) - v (sn0 px py i j)) ∧
    (∀ i j, i < px + 1 → j < py →
      etI px py (app (nT0 px py) (ET0i px py) v) i j = v (sn0 px py i (j + 1)) - v (sn0 px py i j)) ∧
    (∀ i j, i < px → j < py →
      app (nT1 px py) (ET1i px py) v (snum (ln22 px py) (0, i, j, 0)) =
        (etI px py v (i + 1) j - etI px py v i j) - (xiI px py v i (j + 1) - xiI px py v i j)) := by
  refine ⟨?_, ?_, ?_⟩ <;> intro i j hi hj
  · have := (goodT0i px py).app (t := 0) rfl rfl (i := i) (j := j) (k := 0) ⟨hi, hj, Nat.one_pos⟩ v
    refine this.trans ?_
    simp [sn0]; ring
  · rcases i with _ | i
    · simp [etI, sn0, at0]
    · have := (goodT0i px py).app (t := 1) rfl rfl (i := i) (j := j) (k := 0) ⟨by simp only; omega, hj, Nat.one_pos⟩ v
      simp only [etI, Nat.add_one_ne_zero, if_false, Nat.add_sub_cancel]
      refine this.trans ?_
      simp [sn0]; ring
  · have := (goodT1i px py).app (t := 0) rfl rfl (i := i) (j := j) (k := 0) ⟨hi, hj, Nat.one_pos⟩ v
    refine this.trans ?_
    rcases i with _ | i <;> simp [etI, xiI] <;> ring

/-- C86: the outer matrices: curl (`∂/∂eta`, `-∂/∂xi`) and net outflow of every cell. -/
theorem outer_differences (px py : ℕ) (v : ℕ → R) :
    (∀ i j, i < px + 1 → j < py →
      etO px py (app (nT0 px py) (ET0o px py) v) i j = v (sn0 px py i (j + 1)) - v (sn0 px py i j)) ∧
    (∀ i j, i < px → j < py + 1 →
      xiO px py (app (nT0 px py) (ET0o px py) v) i j = -(v (sn0 px py (i + 1) j) - v (sn0 px py i j))) ∧
    (∀ i j, i < px → j < py →
      app (nT1 px py) (ET1o px py) v (snum (ln22 px py) (0, i, j, 0)) =
        (etO px py v (i + 1) j - etO px py v i j) + (xiO px py v i (j + 1) - xiO px py v i j)) := by
  refine ⟨?_, ?_, ?_⟩ <;> intro i j hi hj
  · rcases i with _ | i
    · simp [etO, sn0, at0]
    · have := (goodT0o px py).app (t := 0) rfl rfl (i := i) (j := j) (k := 0) ⟨by simp only; omega, hj, Nat.one_pos⟩ v
      simp only [etO, Nat.add_one_ne_zero, if_false, Nat.add_sub_cancel]
      refine this.trans ?_
      simp [sn0]; ring
  · have := (goodT0o px py).app (t := 1) rfl rfl (i := i) (j := j) (k := 0) ⟨hi, hj, Nat.one_pos⟩ v
    refine this.trans ?_
    simp [sn0]; ring
  · have := (goodT1o px py).app (t := 0) rfl rfl (i := i) (j := j) (k := 0) ⟨hi, hj, Nat.one_pos⟩ v
    refine this.trans ?_
    rcases i with _ | i <;> simp [etO, xiO] <;> ring

/-- C86: rot of grad vanishes on triangles, on all cochains. -/
theorem rot_grad_zero (px py : ℕ) (v : ℕ → R) (r : ℕ) (hr : r < px * py) :
    app (nT1 px py) (ET1i px py) (app (nT0 px py) (ET0i px py) v) r = 0 := by
  obtain ⟨t, d, i, j, k, hd, ⟨hi, hj, hk⟩, rfl⟩ := Stacked.exists_snum (Numbering.st22 px py) hr
  rcases t with _ | t <;> simp [ln22] at hd
  subst hd
  simp only at hi hj hk
  obtain rfl : k = 0 := by omega
  obtain ⟨g0, g1, -⟩ := inner_differences px py v
  refine ((inner_differences px py (app (nT0 px py) (ET0i px py) v)).2.2 i j hi hj).trans ?_
  rw [g0 i j (by omega) (by omega), g0 i (j + 1) (by omega) (by omega), g1 i j (by omega) (by omega),
    g1 (i + 1) j (by omega) (by omega)]
  ring

/-- C86: div of curl vanishes on triangles, on all cochains. -/
theorem div_curl_zero (px py : ℕ) (v : ℕ → R) (r : ℕ) (hr : r < px * py) :
    app (nT1 px py) (ET1o px py) (app (nT0 px py) (ET0o px py) v) r = 0 := by
  obtain ⟨t, d, i, j, k, hd, ⟨hi, hj, hk⟩, rfl⟩ := Stacked.exists_snum (Numbering.st22 px py) hr
  rcases t with _ | t <;> simp [ln22] at hd
  subst hd
  simp only at hi hj hk
  obtain rfl : k = 0 := by omega
  obtain ⟨g0, g1, -⟩ := outer_differences px py v
  refine ((outer_differences px py (app (nT0 px py) (ET0o px py) v)).2.2 i j hi hj).trans ?_
  rw [g0 i j (by omega) (by omega), g0 (i + 1) j (by omega) (by omega), g1 i j (by omega) (by omega),
    g1 i (j + 1) (by omega) (by omega)]
  ring

/-- C86: the products of the matrices are zero. -/
theorem products_zero (px py : ℕ) (r c : ℕ) (hr : r < px * py) (hc : c < px * (py + 1) + 1) :
    mul (nT1 px py) (ET1i px py) (ET0i px py) r c = 0 ∧ mul (nT1 px py) (ET1o px py) (ET0o px py) r c = 0 :=
  ⟨mul_zero_of_app (n' := nT0 px py) (fun v => rot_grad_zero px py v r hr) c hc,
    mul_zero_of_app (n' := nT0 px py) (fun v => div_curl_zero px py v r hr) c hc⟩

example : (ET1i 1 2 1 4, ET0i 1 2 1 0, ET1o 2 1 1 0) = (1, -1, -1) := by decide +kernel

/-! ### Shapes -/

theorem place_some {rows cols : ℕ} {l : List (ℕ × ℕ × ℤ)} (h : ∀ x ∈ l, x.1 < rows ∧ x.2.1 < cols) :
    place rows cols l = some (rows, cols, run l) := by
  unfold place
  rw [if_pos]
  simpa using fun a b c hm => h (a, b, c) hm

theorem place_none {rows cols : ℕ} {l : List (ℕ × ℕ × ℤ)} (x : ℕ × ℕ × ℤ) (hx : x ∈ l)
    (h : rows ≤ x.1 ∨ cols ≤ x.2.1) : place rows cols l = none := by
  unfold place
  rw [if_neg]
  intro hc
  have := List.all_eq_true.1 hc x hx
  simp at this
  omega

/-- C86: the outer matrices have one row and one column per dof, for all degrees. -/
theorem outer_shapes (px py : ℕ) :
    imT0o px py = some (nT1 px py, nT0 px py, ET0o px py) ∧
    imT1o px py = some (px * py, nT1 px py, ET1o px py) :=
  ⟨place_some (goodT0o px py).in_range, place_some (goodT1o px py).in_range⟩

/-- C86, restricted to equal degrees: the inner matrices have one row and one column per dof. Missing: unequal degrees, see
`inner_shapes_refuted`. -/
theorem inner_shapes_partial (p : ℕ) :
    imT0i p p = some (nT1 p p, nT0 p p, ET0i p p) ∧ imT1i p p = some (p * p, nT1 p p, ET1i p p) := by
  have e : (p + 1) * p + p * p = nT1 p p := by simp only [nT1]; ring
  unfold imT0i imT1i
  rw [e]
  exact ⟨place_some (goodT0i p p).in_range, place_some (goodT1i p p).in_range⟩

/-- C86: what the code does with the inner matrices of all degrees. With more intervals along `xi` it raises; with more
along `eta` the arrays have surplus rows (gradient) and surplus columns (rotation). -/
theorem inner_shapes (px py : ℕ) (hx : 0 < px) (hy : 0 < py) :
    (py < px → imT0i px py = none ∧ imT1i px py = none) ∧
    (px ≤ py → imT0i px py = some (nT1 px py + (py - px), nT0 px py, ET0i px py) ∧
      imT1i px py = some (px * py, nT1 px py + (py - px), ET1i px py)) := by
  constructor
  · intro h
    have hlt : (px + 1) * py + px * py ≤ snum (lnT1i px py) (1, px - 1, py - 1, 0) := by
      obtain ⟨a, rfl⟩ : ∃ a, px = a + 1 := ⟨px - 1, by omega⟩
      obtain ⟨b, rfl⟩ : ∃ b, py = b + 1 := ⟨py - 1, by omega⟩
      simp [snum, lnT1i, Comp.num]
      nlinarith
    constructor
    · refine place_none (snum (lnT1i px py) (1, px - 1, py - 1, 0), snum (lnT0 px py) (at0 (px - 1 + 1) (py - 1)), -1) ?_
        (Or.inl hlt)
      rw [mem_assignments]
      exact ⟨1, _, _, px - 1, py - 1, 0, rfl, rfl, ⟨by simp only; omega, by simp only; omega, by simp⟩, rfl,
        List.mem_cons_self⟩
    · refine place_none (snum (ln22 px py) (0, px - 1, py - 1, 0), snum (lnT1i px py) (1, px - 1, py - 1, 0), 1) ?_
        (Or.inr hlt)
      rw [mem_assignments]
      refine ⟨0, _, _, px - 1, py - 1, 0, rfl, rfl, ⟨by simp only; omega, by simp only; omega, by simp⟩, rfl, ?_⟩
      simp [rowOf]
  · intro h
    have e : (px + 1) * py + px * py = nT1 px py + (py - px) := by
      obtain ⟨d, rfl⟩ := Nat.exists_eq_add_of_le h
      simp only [nT1, Nat.add_sub_cancel_left]
      ring
    unfold imT0i imT1i
    rw [e]
    refine ⟨place_some fun x hx => ?_, place_some fun x hx => ?_⟩
    · have := (goodT0i px py).in_range x hx
      simp only [nT0] at this
      omega
    · have := (goodT1i px py).in_range x hx
      simp only [nd22] at this
      omega

/-- C86 fails for inner forms of unequal degrees: degree `(2, 1)` raises, degree `(1, 2)` gives a gradient with six rows
for five edges. -/
theorem inner_shapes_refuted :
    imT0i 2 1 = none ∧ (imT0i 1 2).map (fun x => (x.1, x.2.1)) = some (6, 4) ∧ nT1 1 2 = 5 := by
  decide +kernel

end Phyem.Triangle
