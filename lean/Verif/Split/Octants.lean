import Verif.Split.Space

/-! Which nodes the octants of a box have. -/

namespace Phyem.Split

variable {R : Type} [Field R]

/-- The coordinates of the corners of a box around a place: 0 and 2 are the ends, 1 is the middle. -/
def spots (u : ℕ) : List ℕ := if u = 0 then [0] else if u = 1 then [0, 1] else [1]

/-- The corners of a box around corner `q` of its octant `j`; corner `x + 2 y + 4 z` is the one with the signs `x`, `y` and `z`. -/
def nearest (j q : ℕ) : List ℕ :=
  (spots (j / 4 + q / 4)).flatMap fun z => (spots (j / 2 % 2 + q / 2 % 2)).flatMap fun y => (spots (j % 2 + q % 2)).map fun x => x + 2 * y + 4 * z

set_option maxHeartbeats 1600000 in
/-- **Nodes of octants.** Each corner of an octant is a node of the box, the middle of an edge or face, which has the key of its nodes in increasing order, or
the middle of the box, which has the same key in all octants. -/
theorem octant_nodes (o d : Pt3 R) (v : ℕ → ℕ) (j q : ℕ) (hj : j < 8) (hq : q < 8) :
    ∃ e key, (splitHexa o d (v 0) (v 1) (v 2) (v 3) (v 4) (v 5) (v 6) (v 7))[j]? = some e ∧ e.map[q]? = some key ∧
      (∀ i, nearest j q = [i] → key = .node (v i)) ∧
      ((nearest j q).length = 2 ∨ (nearest j q).length = 4 → key = srt ((nearest j q).map v)) ∧
      ((nearest j q).length = 8 → key = .tup [v 0, v 1, v 3, v 2, v 4, v 5, v 6, v 7]) := by
  interval_cases j <;> interval_cases q <;>
    (refine ⟨_, _, rfl, rfl, ?_, ?_, ?_⟩ <;>
      simp only [nearest, spots, List.flatMap_cons, List.flatMap_nil, List.map_cons, List.map_nil, List.append_nil, List.cons_append, List.nil_append] <;>
      norm_num) <;>
    (try exact fun h => absurd h (by simp)) <;>
    (try (rw [middles_spec, List.perm_iff_count]; intro x; simp only [List.count_cons, List.count_nil]; ring))

/-- The second corner of the first octant is the middle of an edge, the fourth the middle of a face, and the last one the middle of the box. -/
example : nearest 0 0 = [0] ∧ nearest 0 1 = [0, 1] ∧ nearest 0 3 = [0, 1, 2, 3] ∧ nearest 5 4 = [4, 5] ∧ nearest 0 7 = [0, 1, 2, 3, 4, 5, 6, 7] := by
  decide +kernel

end Phyem.Split
