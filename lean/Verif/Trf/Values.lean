import Verif.Trf.Props

/-!
C112: where the refining function is looked at. The value of a cell or triangle that is compared with the threshold is the one at
its centre, or the largest one at its vertices, centre and middles of edges.
-/

namespace Phyem.Trf

/-- The points of a triangle at which the refining function is looked at with 'middle': combinations of the vertices with these
weights. -/
def weights : List (ℚ × ℚ × ℚ) :=
  [(1, 0, 0), (0, 1, 0), (0, 0, 1), (1 / 3, 1 / 3, 1 / 3), (0, 1 / 2, 1 / 2), (1 / 2, 1 / 2, 0), (1 / 2, 0, 1 / 2)]

/-- The combination of three points. -/
def comb (V : Three) (l : ℚ × ℚ × ℚ) : Pt :=
  ⟨l.1 * V.a.x + l.2.1 * V.b.x + l.2.2 * V.c.x, l.1 * V.a.y + l.2.1 * V.b.y + l.2.2 * V.c.y⟩

/-- `v` is the largest value of `f` at the points with `P`, and `f` has a value at each of them. -/
def Largest (f : Pt → Option ℚ) (P : Pt → Prop) (v : ℚ) : Prop :=
  (∀ p, P p → ∃ u, f p = some u ∧ u ≤ v) ∧ ∃ p, P p ∧ f p = some v

lemma maxAt_largest (f : Pt → Option ℚ) : ∀ (l : List Pt) (v : ℚ), maxAt f l = some v ↔ Largest f (· ∈ l) v
  | [], v => by simp [maxAt, Largest]
  | [p], v => by
    simp only [maxAt, Largest, List.mem_singleton, forall_eq, exists_eq_left]
    exact ⟨fun h => ⟨⟨v, h, le_refl v⟩, h⟩, fun h => h.2⟩
  | p :: q :: l, v => by
    rw [maxAt, Option.bind_eq_some_iff]
    · constructor
      · rintro ⟨u, hu, h⟩
        rw [Option.map_eq_some_iff] at h
        obtain ⟨w, hw, rfl⟩ := h
        obtain ⟨h1, x, hx, hfx⟩ := (maxAt_largest f (q :: l) w).mp hw
        refine ⟨fun y hy => ?_, ?_⟩
        · rcases List.mem_cons.mp hy with rfl | hy
          · exact ⟨u, hu, le_max_left _ _⟩
          · obtain ⟨z, hz, hle⟩ := h1 y hy
            exact ⟨z, hz, hle.trans (le_max_right _ _)⟩
        · rcases le_total u w with hle | hle
          · exact ⟨x, List.mem_cons_of_mem _ hx, by rw [max_eq_right hle, hfx]⟩
          · exact ⟨p, by simp, by rw [max_eq_left hle, hu]⟩
      · rintro ⟨h1, x, hx, hfx⟩
        obtain ⟨u, hu, huv⟩ := h1 p (by simp)
        have hex : ∃ w, maxAt f (q :: l) = some w := by
          have hall : ∀ y ∈ q :: l, ∃ u, f y = some u := fun y hy =>
            (h1 y (List.mem_cons_of_mem _ hy)).imp fun _ h => h.1
          clear h1 hx hfx hu
          induction l generalizing q with
          | nil => exact (hall q (by simp)).imp fun u h => by rw [maxAt]; exact h
          | cons q' l ih =>
            obtain ⟨a, ha⟩ := hall q (by simp)
            obtain ⟨b, hb⟩ := ih q' fun y hy => hall y (List.mem_cons_of_mem _ hy)
            refine ⟨max a b, ?_⟩
            rw [maxAt, ha, hb]
            · rfl
            · simp
        obtain ⟨w, hw⟩ := hex
        obtain ⟨g1, y, hy, hfy⟩ := (maxAt_largest f (q :: l) w).mp hw
        refine ⟨u, hu, ?_⟩
        rw [hw, Option.map_some, Option.some.injEq]
        apply le_antisymm
        · obtain ⟨z, hz, hle⟩ := h1 y (List.mem_cons_of_mem _ hy)
          rw [hfy, Option.some.injEq] at hz
          exact max_le huv (hz ▸ hle)
        · rcases List.mem_cons.mp hx with rfl | hx
          · rw [hu, Option.some.injEq] at hfx
            exact hfx ▸ le_max_left _ _
          · obtain ⟨z, hz, hle⟩ := g1 x hx
            rw [hfx, Option.some.injEq] at hz
            exact hz ▸ hle.trans (le_max_right _ _)
    · simp

/-- **C112, the values**: with 'center' the value at the image of the centre of the square or the triangle, with 'middle' the
largest one at the images of the vertices, the centre and the middles of the edges; no value when the refining function has none,
and none at the centre of a triangle when it is no number. -/
theorem values_right (w : World) (c : ℕ) (t : Tri) (v : ℚ) :
    (cellValue w .center c = some v ↔ w.rff (w.map c ⟨0, 0⟩) = some v) ∧
    (cellValue w .middle c = some v ↔
      Largest (fun p => w.rff (w.map c p)) (fun p => p.x ∈ [-1, 0, 1] ∧ p.y ∈ [-1, 0, 1]) v) ∧
    (triValue w .center t = some v ↔
      w.number = true ∧ w.rff (w.map t.cell (comb (verts t) (1 / 3, 1 / 3, 1 / 3))) = some v) ∧
    (triValue w .middle t = some v ↔
      Largest (fun p => w.rff (w.map t.cell p)) (fun p => ∃ l ∈ weights, p = comb (verts t) l) v) := by
  have hc : centerOf (verts t) = comb (verts t) (1 / 3, 1 / 3, 1 / 3) := by
    simp only [centerOf, comb, mid, Pt.mk.injEq]
    constructor <;> ring
  refine ⟨Iff.rfl, ?_, ?_, ?_⟩
  · rw [cellValue, maxAt_largest]
    have : ∀ p : Pt, p ∈ ([⟨-1, -1⟩, ⟨0, -1⟩, ⟨1, -1⟩, ⟨-1, 0⟩, ⟨0, 0⟩, ⟨1, 0⟩, ⟨-1, 1⟩, ⟨0, 1⟩, ⟨1, 1⟩] : List Pt) ↔
        (p.x ∈ [-1, 0, 1] ∧ p.y ∈ [-1, 0, 1]) := by
      rintro ⟨x, y⟩
      simp only [List.mem_cons, List.not_mem_nil, or_false, Pt.mk.injEq]
      tauto
    simp only [this]
  · simp only [triValue, hc]
    cases w.number <;> simp
  · rw [triValue, maxAt_largest]
    have : ∀ p : Pt, p ∈ sevenOf (verts t) ↔ ∃ l ∈ weights, p = comb (verts t) l := by
      intro p
      have e : sevenOf (verts t) = weights.map (comb (verts t)) := by
        have h1 : ∀ V : Three, V.a = comb V (1, 0, 0) ∧ V.b = comb V (0, 1, 0) ∧ V.c = comb V (0, 0, 1) := fun V => by
          simp [comb]
        have h2 : ∀ V : Three, mid V.b V.c = comb V (0, 1 / 2, 1 / 2) ∧ mid V.a V.b = comb V (1 / 2, 1 / 2, 0) ∧
            mid V.a V.c = comb V (1 / 2, 0, 1 / 2) := fun V => by
          simp only [comb, mid, Pt.mk.injEq]
          refine ⟨⟨?_, ?_⟩, ⟨?_, ?_⟩, ?_, ?_⟩ <;> ring
        simp only [sevenOf, weights, List.map_cons, List.map_nil, ← hc, ← (h1 (verts t)).1, ← (h1 (verts t)).2.1, ← (h1 (verts t)).2.2,
          ← (h2 (verts t)).1, ← (h2 (verts t)).2.1, ← (h2 (verts t)).2.2]
      rw [e, List.mem_map]
      exact ⟨fun ⟨l, a, b⟩ => ⟨l, a, b.symm⟩, fun ⟨l, a, b⟩ => ⟨l, a, b.symm⟩⟩
    simp only [this]

/-- A refining function with different values at the points of a triangle: at its centre and the largest one. -/
example : triValue ⟨fun _ p => p, fun p => some (-p.y), true⟩ .center ⟨0, .W, []⟩ = some (2 / 3) ∧
    triValue ⟨fun _ p => p, fun p => some (-p.y), true⟩ .middle ⟨0, .W, []⟩ = some 1 ∧
    cellValue ⟨fun _ p => p, fun p => some (p.x + p.y), true⟩ .middle 0 = some 2 := by
  refine ⟨?_, ?_, ?_⟩
  · norm_num [triValue, centerOf, verts, start, mid]
  · norm_num [triValue, sevenOf, maxAt, centerOf, verts, start, mid]
  · norm_num [cellValue, maxAt]

end Phyem.Trf
