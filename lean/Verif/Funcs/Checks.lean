import Verif.Funcs.Ops3
import Mathlib.Tactic.Tauto

/-!
# C96: accuracy of numerical derivatives and the check of given derivatives
-/

namespace Phyem.Funcs

open Set

/-! ### Helpers -/

theorem npd2_eq (a : Ax2) (f : F2 ℝ) : npd2 a f = diff2 a f := by
  funext t x y
  cases a <;> norm_num [npd2, diff2, line2, coord2, central, h2]

theorem npd3_eq (a : Ax3) (f : F3 ℝ) : npd3 a f = diff3 a f := by
  funext t x y z
  cases a <;> norm_num [npd3, diff3, line3, coord3, central, h3]

theorem tol_eq : (tol : ℝ) = 1e-5 := by norm_num [tol]

theorem rel_iff {a b c e : ℝ} : (b ≠ 0 ∧ |(a - c) / b| < e) ↔ (b ≠ 0 ∧ |a - c| < e * |b|) := by
  refine and_congr_right fun h => ?_
  rw [abs_div, div_lt_iff₀ (abs_pos.mpr h)]

theorem close_iff (v : List (ℝ × ℝ)) : close tol v = true ↔ Agree v := by
  simp only [close, Agree, Bool.and_eq_true, Bool.or_eq_true, List.all_eq_true, tol_eq,
    decide_eq_true_eq, bne_iff_ne, rel_iff]
  cases v <;> simp

theorem closeZ_iff (v : List (ℝ × ℝ)) : closeZ tol v = true ↔ AgreeZ v := by
  simp only [closeZ, AgreeZ, Bool.and_eq_true, Bool.or_eq_true, List.all_eq_true, tol_eq,
    decide_eq_true_eq, bne_iff_ne, rel_iff]
  cases v <;> simp

theorem check2_iff (a : Ax2) (f d : F2 ℝ) (t : ℝ) (pts : List (ℝ × ℝ)) :
    checkPartial2 a f d t pts = true ↔ Agrees2 a f d t pts := by
  rw [checkPartial2, close_iff, npd2_eq, Agrees2]

theorem check3_iff (a : Ax3) (f d : F3 ℝ) (t : ℝ) (pts : List (ℝ × ℝ × ℝ)) :
    checkPartial3 a f d t pts = true ↔ Agrees3 a f d t pts := by
  unfold checkPartial3 Agrees3
  rw [npd3_eq]
  split_ifs
  · exact closeZ_iff _
  · exact close_iff _

theorem opt2_iff (a : Ax2) (f : F2 ℝ) (d : Option (F2 ℝ)) (t : ℝ) (pts : List (ℝ × ℝ)) :
    optCheck2 a f d t pts = true ↔ ∀ g ∈ d, Agrees2 a f g t pts := by
  cases d with
  | none => simp [optCheck2]
  | some g => simp [optCheck2, check2_iff]

theorem opt3_iff (a : Ax3) (f : F3 ℝ) (d : Option (F3 ℝ)) (t : ℝ) (pts : List (ℝ × ℝ × ℝ)) :
    optCheck3 a f d t pts = true ↔ ∀ g ∈ d, Agrees3 a f g t pts := by
  cases d with
  | none => simp [optCheck3]
  | some g => simp [optCheck3, check3_iff]

theorem elements_iff {α : Type} (l : List α) (q : α → ℕ → Bool) :
    (l.zipIdx.all fun e => q e.1 e.2) = true ↔ ∀ i e, l[i]? = some e → q e i = true := by
  rw [List.all_eq_true]
  constructor
  · intro h i e he
    exact h (e, i) (List.mem_zipIdx_iff_getElem?.mpr he)
  · intro h p hp
    exact h p.2 p.1 (List.mem_zipIdx_iff_getElem?.mp hp)

/-! ### Accuracy -/

/-- **C96.** A numerical partial derivative in the plane differs from the true one by at most
`M h² / 6`. -/
theorem numerical2 (a : Ax2) (f : F2 ℝ) {t x y p M : ℝ}
    (hd : HasDerivAt (line2 a f t x y) p (coord2 a t x y))
    (hM : ThirdBound (line2 a f t x y) (coord2 a t x y) 1e-4 M) :
    |npd2 a f t x y - p| ≤ M * 1e-4 ^ 2 / 6 :=
  part_near (d := none) ⟨hd, M, hM, le_rfl⟩

/-- **C96.** The same in space. -/
theorem numerical3 (a : Ax3) (f : F3 ℝ) {t x y z p M : ℝ}
    (hd : HasDerivAt (line3 a f t x y z) p (coord3 a t x y z))
    (hM : ThirdBound (line3 a f t x y z) (coord3 a t x y z) 1e-6 M) :
    |npd3 a f t x y z - p| ≤ M * 1e-6 ^ 2 / 6 :=
  part_near3 (d := none) ⟨hd, M, hM, le_rfl⟩

/-- **C96.** The difference formulas: the central one is exact for quadratic functions, the others
are off by half the second derivative times the step, each to its side, and exact for affine ones;
another method is refused. -/
theorem derivative_exact {K : Type} [Field K] [NeZero (2 : K)] (a b c x h : K) (hh : h ≠ 0) :
    derivative (fun u => a * u ^ 2 + b * u + c) x "central" h = some (2 * a * x + b) ∧
    derivative (fun u => a * u ^ 2 + b * u + c) x "forward" h = some (2 * a * x + b + a * h) ∧
    derivative (fun u => a * u ^ 2 + b * u + c) x "backward" h = some (2 * a * x + b - a * h) ∧
    ∀ (f : K → K) (method : String), method ∉ ["central", "forward", "backward"] →
      derivative f x method h = none := by
  have h2 : (2 : K) ≠ 0 := NeZero.ne 2
  refine ⟨?_, ?_, ?_, ?_⟩
  · simp only [derivative, central, if_true, Option.some.injEq]
    field_simp
    ring
  · simp only [derivative, show ("forward" = "central") = False by decide, if_false, if_true,
      Option.some.injEq]
    field_simp
    ring
  · simp only [derivative, show ("backward" = "central") = False by decide,
      show ("backward" = "forward") = False by decide, if_false, if_true, Option.some.injEq]
    field_simp
    ring
  · intro f method hm
    simp only [List.mem_cons, List.not_mem_nil, or_false, not_or] at hm
    simp [derivative, hm.1, hm.2.1, hm.2.2]

/-! ### Setting a mesh -/

/-- **C96.** A scalar gets a mesh exactly if it has no given derivatives, or the kind of the mesh is
known and every given derivative agrees with the difference quotient on every element, at the drawn
time.  Nothing but the mesh changes. -/
theorem setMesh_scalar2 (a b : S2 ℝ) (m : Mesh2 ℝ) (draw : ℕ → ℕ → ℝ) :
    a.setMesh m draw = some b ↔ b = { a with mesh := some m } ∧
      (a.given = [] ∨ m.kind ≠ .other ∧ ∀ g ∈ a.given, ∀ i pts, m.elements[i]? = some pts →
        Agrees2 g.2.1 g.2.2.1 g.2.2.2 (draw g.1 i) pts) := by
  have hany : a.anyGiven = false ↔ a.given = [] := by
    simp only [S2.anyGiven, S2.given, Bool.or_eq_false_iff, Option.isSome_eq_false_iff,
      Option.isNone_iff_eq_none, List.append_eq_nil_iff, List.map_eq_nil_iff,
      Option.toList_eq_nil_iff]
  unfold S2.setMesh
  cases hg : a.anyGiven with
  | false =>
    rw [hany] at hg
    simp [hg, eq_comm]
  | true =>
    have hne : a.given ≠ [] := by
      intro h
      rw [hany.mpr h] at hg
      simp at hg
    simp only [if_true, hne, false_or]
    by_cases hk : m.kind = .other
    · simp [hk]
    · rw [if_neg hk]
      have key : ((m.elements.zipIdx.all fun e => optCheck2 .t a.s a.dt (draw 0 e.2) e.1 &&
        optCheck2 .x a.s a.dx (draw 0 e.2) e.1 && optCheck2 .y a.s a.dy (draw 0 e.2) e.1) &&
      (m.elements.zipIdx.all fun e => optCheck2 .t (npd2 .t a.s) a.ddtt (draw 1 e.2) e.1) &&
      (m.elements.zipIdx.all fun e => optCheck2 .x (npd2 .x a.s) a.ddxx (draw 2 e.2) e.1 &&
        optCheck2 .y (npd2 .x a.s) a.ddxy (draw 2 e.2) e.1) &&
      (m.elements.zipIdx.all fun e => optCheck2 .x (npd2 .y a.s) a.ddyx (draw 3 e.2) e.1 &&
        optCheck2 .y (npd2 .y a.s) a.ddyy (draw 3 e.2) e.1)) = true ↔
        ∀ g ∈ a.given, ∀ i pts, m.elements[i]? = some pts →
          Agrees2 g.2.1 g.2.2.1 g.2.2.2 (draw g.1 i) pts := by
        rw [Bool.and_eq_true, Bool.and_eq_true, Bool.and_eq_true,
          elements_iff m.elements (fun pts i => optCheck2 .t a.s a.dt (draw 0 i) pts &&
            optCheck2 .x a.s a.dx (draw 0 i) pts && optCheck2 .y a.s a.dy (draw 0 i) pts),
          elements_iff m.elements (fun pts i => optCheck2 .t (npd2 .t a.s) a.ddtt (draw 1 i) pts),
          elements_iff m.elements (fun pts i => optCheck2 .x (npd2 .x a.s) a.ddxx (draw 2 i) pts &&
            optCheck2 .y (npd2 .x a.s) a.ddxy (draw 2 i) pts),
          elements_iff m.elements (fun pts i => optCheck2 .x (npd2 .y a.s) a.ddyx (draw 3 i) pts &&
            optCheck2 .y (npd2 .y a.s) a.ddyy (draw 3 i) pts)]
        simp only [Bool.and_eq_true, opt2_iff, npd2_eq, S2.given, List.mem_append, List.mem_map,
          Option.mem_toList]
        constructor
        · rintro ⟨⟨⟨H0, H1⟩, H2⟩, H3⟩ g hg i pts hi
          have H0 := H0 i pts hi
          have H1 := H1 i pts hi
          have H2 := H2 i pts hi
          have H3 := H3 i pts hi
          rcases hg with ((((((h | h) | h) | h) | h) | h) | h) | h <;>
            obtain ⟨d, hd, rfl⟩ := h
          · exact H0.1.1 d hd
          · exact H0.1.2 d hd
          · exact H0.2 d hd
          · exact H1 d hd
          · exact H2.1 d hd
          · exact H2.2 d hd
          · exact H3.1 d hd
          · exact H3.2 d hd
        · intro H
          refine ⟨⟨⟨fun i pts hi => ⟨⟨fun d hd => ?_, fun d hd => ?_⟩, fun d hd => ?_⟩,
            fun i pts hi d hd => ?_⟩, fun i pts hi => ⟨fun d hd => ?_, fun d hd => ?_⟩⟩,
            fun i pts hi => ⟨fun d hd => ?_, fun d hd => ?_⟩⟩
          · exact H (0, .t, a.s, d) (by simp [Option.mem_def.mp hd]) i pts hi
          · exact H (0, .x, a.s, d) (by simp [Option.mem_def.mp hd]) i pts hi
          · exact H (0, .y, a.s, d) (by simp [Option.mem_def.mp hd]) i pts hi
          · exact H (1, .t, diff2 .t a.s, d) (by simp [Option.mem_def.mp hd]) i pts hi
          · exact H (2, .x, diff2 .x a.s, d) (by simp [Option.mem_def.mp hd]) i pts hi
          · exact H (2, .y, diff2 .x a.s, d) (by simp [Option.mem_def.mp hd]) i pts hi
          · exact H (3, .x, diff2 .y a.s, d) (by simp [Option.mem_def.mp hd]) i pts hi
          · exact H (3, .y, diff2 .y a.s, d) (by simp [Option.mem_def.mp hd]) i pts hi
      by_cases hall : ∀ g ∈ a.given, ∀ i pts, m.elements[i]? = some pts →
          Agrees2 g.2.1 g.2.2.1 g.2.2.2 (draw g.1 i) pts
      · rw [if_pos (key.mpr hall), and_iff_left ⟨hk, hall⟩]
        simp [eq_comm]
      · rw [if_neg (fun h => hall (key.mp h))]
        simp only [reduceCtorEq, false_iff]
        exact fun h => hall h.2.2

/-- **C96.** The same for vectors in the plane. -/
theorem setMesh_vector2 (v w : V2 ℝ) (m : Mesh2 ℝ) (draw : ℕ → ℝ) :
    v.setMesh m draw = some w ↔ w = { v with mesh := some m } ∧
      (v.given = [] ∨ m.kind ≠ .other ∧ ∀ g ∈ v.given, ∀ i pts, m.elements[i]? = some pts →
        Agrees2 g.1 g.2.1 g.2.2 (draw i) pts) := by
  have hany : v.anyGiven = false ↔ v.given = [] := by
    simp only [V2.anyGiven, V2.given, Bool.or_eq_false_iff, Option.isSome_eq_false_iff,
      Option.isNone_iff_eq_none, List.append_eq_nil_iff, List.map_eq_nil_iff,
      Option.toList_eq_nil_iff]
  unfold V2.setMesh
  cases hg : v.anyGiven with
  | false =>
    rw [hany] at hg
    simp [hg, eq_comm]
  | true =>
    have hne : v.given ≠ [] := by
      intro h
      rw [hany.mpr h] at hg
      simp at hg
    simp only [if_true, hne, false_or]
    by_cases hk : m.kind = .other
    · simp [hk]
    · rw [if_neg hk]
      have key : (m.elements.zipIdx.all fun e => optCheck2 .t v.v0 v.dudt (draw e.2) e.1 &&
        optCheck2 .t v.v1 v.dvdt (draw e.2) e.1 && optCheck2 .x v.v0 v.dudx (draw e.2) e.1 &&
        optCheck2 .y v.v0 v.dudy (draw e.2) e.1 && optCheck2 .x v.v1 v.dvdx (draw e.2) e.1 &&
        optCheck2 .y v.v1 v.dvdy (draw e.2) e.1) = true ↔
        ∀ g ∈ v.given, ∀ i pts, m.elements[i]? = some pts →
          Agrees2 g.1 g.2.1 g.2.2 (draw i) pts := by
        rw [elements_iff m.elements (fun pts i => optCheck2 .t v.v0 v.dudt (draw i) pts &&
          optCheck2 .t v.v1 v.dvdt (draw i) pts && optCheck2 .x v.v0 v.dudx (draw i) pts &&
          optCheck2 .y v.v0 v.dudy (draw i) pts && optCheck2 .x v.v1 v.dvdx (draw i) pts &&
          optCheck2 .y v.v1 v.dvdy (draw i) pts)]
        simp only [Bool.and_eq_true, opt2_iff, V2.given, List.mem_append, List.mem_map,
          Option.mem_toList]
        constructor
        · rintro H g hg i pts hi
          have H := H i pts hi
          rcases hg with ((((h | h) | h) | h) | h) | h <;> obtain ⟨d, hd, rfl⟩ := h
          · exact H.1.1.1.1.1 d hd
          · exact H.1.1.1.1.2 d hd
          · exact H.1.1.1.2 d hd
          · exact H.1.1.2 d hd
          · exact H.1.2 d hd
          · exact H.2 d hd
        · intro H i pts hi
          refine ⟨⟨⟨⟨⟨fun d hd => ?_, fun d hd => ?_⟩, fun d hd => ?_⟩, fun d hd => ?_⟩,
            fun d hd => ?_⟩, fun d hd => ?_⟩
          · exact H (.t, v.v0, d) (by simp [Option.mem_def.mp hd]) i pts hi
          · exact H (.t, v.v1, d) (by simp [Option.mem_def.mp hd]) i pts hi
          · exact H (.x, v.v0, d) (by simp [Option.mem_def.mp hd]) i pts hi
          · exact H (.y, v.v0, d) (by simp [Option.mem_def.mp hd]) i pts hi
          · exact H (.x, v.v1, d) (by simp [Option.mem_def.mp hd]) i pts hi
          · exact H (.y, v.v1, d) (by simp [Option.mem_def.mp hd]) i pts hi
      by_cases hall : ∀ g ∈ v.given, ∀ i pts, m.elements[i]? = some pts →
          Agrees2 g.1 g.2.1 g.2.2 (draw i) pts
      · rw [if_pos (key.mpr hall), and_iff_left ⟨hk, hall⟩]
        simp [eq_comm]
      · rw [if_neg (fun h => hall (key.mp h))]
        simp only [reduceCtorEq, false_iff]
        exact fun h => hall h.2.2

/-- **C96.** The same for scalars in space; meshes of multigrids are refused. -/
theorem setMesh_scalar3 (a b : S3 ℝ) (m : Mesh3 ℝ) (draw : ℕ → ℝ) :
    a.setMesh m draw = some b ↔ b = { a with mesh := some m } ∧
      (a.given = [] ∨ m.kind = .part ∧ ∀ g ∈ a.given, ∀ i pts, m.elements[i]? = some pts →
        Agrees3 g.1 g.2.1 g.2.2 (draw i) pts) := by
  have hany : a.anyGiven = false ↔ a.given = [] := by
    simp only [S3.anyGiven, S3.given, Bool.or_eq_false_iff, Option.isSome_eq_false_iff,
      Option.isNone_iff_eq_none, List.append_eq_nil_iff, List.map_eq_nil_iff,
      Option.toList_eq_nil_iff]
  unfold S3.setMesh
  cases hg : a.anyGiven with
  | false =>
    rw [hany] at hg
    simp [hg, eq_comm]
  | true =>
    have hne : a.given ≠ [] := by
      intro h
      rw [hany.mpr h] at hg
      simp at hg
    simp only [if_true, hne, false_or]
    by_cases hk : m.kind = .part
    · rw [if_neg (not_not.mpr hk)]
      have key : (m.elements.zipIdx.all fun e => optCheck3 .t a.s a.dt (draw e.2) e.1 &&
        optCheck3 .x a.s a.dx (draw e.2) e.1 && optCheck3 .y a.s a.dy (draw e.2) e.1 &&
        optCheck3 .z a.s a.dz (draw e.2) e.1) = true ↔
        ∀ g ∈ a.given, ∀ i pts, m.elements[i]? = some pts →
          Agrees3 g.1 g.2.1 g.2.2 (draw i) pts := by
        rw [elements_iff m.elements (fun pts i => optCheck3 .t a.s a.dt (draw i) pts &&
          optCheck3 .x a.s a.dx (draw i) pts && optCheck3 .y a.s a.dy (draw i) pts &&
          optCheck3 .z a.s a.dz (draw i) pts)]
        simp only [Bool.and_eq_true, opt3_iff, S3.given, List.mem_append, List.mem_map,
          Option.mem_toList]
        constructor
        · rintro H g hg i pts hi
          have H := H i pts hi
          rcases hg with ((h | h) | h) | h <;> obtain ⟨d, hd, rfl⟩ := h
          · exact H.1.1.1 d hd
          · exact H.1.1.2 d hd
          · exact H.1.2 d hd
          · exact H.2 d hd
        · intro H i pts hi
          refine ⟨⟨⟨fun d hd => ?_, fun d hd => ?_⟩, fun d hd => ?_⟩, fun d hd => ?_⟩
          · exact H (.t, a.s, d) (by simp [Option.mem_def.mp hd]) i pts hi
          · exact H (.x, a.s, d) (by simp [Option.mem_def.mp hd]) i pts hi
          · exact H (.y, a.s, d) (by simp [Option.mem_def.mp hd]) i pts hi
          · exact H (.z, a.s, d) (by simp [Option.mem_def.mp hd]) i pts hi
      by_cases hall : ∀ g ∈ a.given, ∀ i pts, m.elements[i]? = some pts →
          Agrees3 g.1 g.2.1 g.2.2 (draw i) pts
      · rw [if_pos (key.mpr hall), and_iff_left ⟨hk, hall⟩]
        simp [eq_comm]
      · rw [if_neg (fun h => hall (key.mp h))]
        simp only [reduceCtorEq, false_iff]
        exact fun h => hall h.2.2
    · simp [hk]

/-- **C96, partial.** Vectors in space are checked at the points with the coordinate `x` in place of
`z`.  What is missing: the check at the points of the elements. -/
theorem setMesh_vector3_partial (v w : V3 ℝ) (m : Mesh3 ℝ) (draw : ℕ → ℝ) :
    v.setMesh m draw = some w ↔ w = { v with mesh := some m } ∧
      (v.given = [] ∨ m.kind = .part ∧ ∀ g ∈ v.given, ∀ i pts, m.elements[i]? = some pts →
        Agrees3 g.1 g.2.1 g.2.2 (draw i) (pts.map fun p => (p.1, p.2.1, p.1))) := by
  have hany : v.anyGiven = false ↔ v.given = [] := by
    simp only [V3.anyGiven, V3.given, Bool.or_eq_false_iff, Option.isSome_eq_false_iff,
      Option.isNone_iff_eq_none, List.append_eq_nil_iff, List.map_eq_nil_iff,
      Option.toList_eq_nil_iff]
  unfold V3.setMesh
  cases hg : v.anyGiven with
  | false =>
    rw [hany] at hg
    simp [hg, eq_comm]
  | true =>
    have hne : v.given ≠ [] := by
      intro h
      rw [hany.mpr h] at hg
      simp at hg
    simp only [if_true, hne, false_or]
    by_cases hk : m.kind = .part
    · rw [if_neg (not_not.mpr hk)]
      have key : ∀ q : List (ℝ × ℝ × ℝ) → ℕ → Bool, (∀ pts i, q pts i = true ↔
          ∀ g ∈ v.given, Agrees3 g.1 g.2.1 g.2.2 (draw i) (pts.map fun p => (p.1, p.2.1, p.1))) →
          ((m.elements.zipIdx.all fun e => q e.1 e.2) = true ↔
            ∀ g ∈ v.given, ∀ i pts, m.elements[i]? = some pts →
              Agrees3 g.1 g.2.1 g.2.2 (draw i) (pts.map fun p => (p.1, p.2.1, p.1))) := by
        intro q hq
        rw [elements_iff]
        constructor
        · exact fun H g hg i pts hi => (hq pts i).mp (H i pts hi) g hg
        · exact fun H i pts hi => (hq pts i).mpr fun g hg => H g hg i pts hi
      have key := key (fun e1 e2 => 
        optCheck3 .t v.v0 v.dudt (draw e2) (e1.map fun p => (p.1, p.2.1, p.1)) &&
        optCheck3 .t v.v1 v.dvdt (draw e2) (e1.map fun p => (p.1, p.2.1, p.1)) &&
        optCheck3 .t v.v2 v.dwdt (draw e2) (e1.map fun p => (p.1, p.2.1, p.1)) &&
        optCheck3 .x v.v0 v.dudx (draw e2) (e1.map fun p => (p.1, p.2.1, p.1)) &&
        optCheck3 .y v.v0 v.dudy (draw e2) (e1.map fun p => (p.1, p.2.1, p.1)) &&
        optCheck3 .z v.v0 v.dudz (draw e2) (e1.map fun p => (p.1, p.2.1, p.1)) &&
        optCheck3 .x v.v1 v.dvdx (draw e2) (e1.map fun p => (p.1, p.2.1, p.1)) &&
        optCheck3 .y v.v1 v.dvdy (draw e2) (e1.map fun p => (p.1, p.2.1, p.1)) &&
        optCheck3 .z v.v1 v.dvdz (draw e2) (e1.map fun p => (p.1, p.2.1, p.1)) &&
        optCheck3 .x v.v2 v.dwdx (draw e2) (e1.map fun p => (p.1, p.2.1, p.1)) &&
        optCheck3 .y v.v2 v.dwdy (draw e2) (e1.map fun p => (p.1, p.2.1, p.1)) &&
        optCheck3 .z v.v2 v.dwdz (draw e2) (e1.map fun p => (p.1, p.2.1, p.1)))
        (by
          intro pts i
          simp only [Bool.and_eq_true, opt3_iff, V3.given, List.mem_append, List.mem_map,
            Option.mem_toList]
          constructor
          · rintro ⟨⟨⟨⟨⟨⟨⟨⟨⟨⟨⟨H1, H2⟩, H3⟩, H4⟩, H5⟩, H6⟩, H7⟩, H8⟩, H9⟩, H10⟩, H11⟩, H12⟩ g hg
            rcases hg with ((((((((((h | h) | h) | h) | h) | h) | h) | h) | h) | h) | h) | h <;>
              obtain ⟨d, hd, rfl⟩ := h
            exacts [H1 d hd, H2 d hd, H3 d hd, H4 d hd, H5 d hd, H6 d hd, H7 d hd, H8 d hd, H9 d hd,
              H10 d hd, H11 d hd, H12 d hd]
          · intro H
            refine ⟨⟨⟨⟨⟨⟨⟨⟨⟨⟨⟨fun d hd => ?_, fun d hd => ?_⟩, fun d hd => ?_⟩, fun d hd => ?_⟩,
              fun d hd => ?_⟩, fun d hd => ?_⟩, fun d hd => ?_⟩, fun d hd => ?_⟩, fun d hd => ?_⟩,
              fun d hd => ?_⟩, fun d hd => ?_⟩, fun d hd => ?_⟩
            · exact H (.t, v.v0, d) (by simp [Option.mem_def.mp hd])
            · exact H (.t, v.v1, d) (by simp [Option.mem_def.mp hd])
            · exact H (.t, v.v2, d) (by simp [Option.mem_def.mp hd])
            · exact H (.x, v.v0, d) (by simp [Option.mem_def.mp hd])
            · exact H (.y, v.v0, d) (by simp [Option.mem_def.mp hd])
            · exact H (.z, v.v0, d) (by simp [Option.mem_def.mp hd])
            · exact H (.x, v.v1, d) (by simp [Option.mem_def.mp hd])
            · exact H (.y, v.v1, d) (by simp [Option.mem_def.mp hd])
            · exact H (.z, v.v1, d) (by simp [Option.mem_def.mp hd])
            · exact H (.x, v.v2, d) (by simp [Option.mem_def.mp hd])
            · exact H (.y, v.v2, d) (by simp [Option.mem_def.mp hd])
            · exact H (.z, v.v2, d) (by simp [Option.mem_def.mp hd]))
      by_cases hall : ∀ g ∈ v.given, ∀ i pts, m.elements[i]? = some pts →
          Agrees3 g.1 g.2.1 g.2.2 (draw i) (pts.map fun p => (p.1, p.2.1, p.1))
      · rw [and_iff_left ⟨hk, hall⟩]
        refine Iff.trans (Eq.to_iff (congrArg (· = some w) (if_pos (key.mpr hall)))) ?_
        simp [eq_comm]
      · refine Iff.trans (Eq.to_iff (congrArg (· = some w) (if_neg (fun h => hall (key.mp h))))) ?_
        simp only [reduceCtorEq, false_iff]
        exact fun h => hall h.2.2
    · simp [hk]

/-! ### Consequences -/

/-- **C96.** A given derivative that agrees with the difference quotients is close to the true
derivative. -/
theorem agreed_close (a : Ax2) (f d : F2 ℝ) (t : ℝ) (pts : List (ℝ × ℝ)) (h : Agrees2 a f d t pts)
    {x y p M : ℝ} (hm : (x, y) ∈ pts) (hd : HasDerivAt (line2 a f t x y) p (coord2 a t x y))
    (hM : ThirdBound (line2 a f t x y) (coord2 a t x y) 1e-4 M) :
    |d t x y - p| < 1e-5 * max 1 (|p| + M * 1e-4 ^ 2 / 6) + M * 1e-4 ^ 2 / 6 := by
  have hn := numerical2 a f hd hM
  rw [npd2_eq] at hn
  have hr : |diff2 a f t x y| ≤ |p| + M * 1e-4 ^ 2 / 6 := by
    have := abs_sub_abs_le_abs_sub (diff2 a f t x y) p
    linarith
  have key : |d t x y - diff2 a f t x y| < 1e-5 * max 1 (|p| + M * 1e-4 ^ 2 / 6) := by
    have mem : (d t x y, diff2 a f t x y) ∈ pts.map fun p => (d t p.1 p.2, diff2 a f t p.1 p.2) :=
      List.mem_map.mpr ⟨(x, y), hm, rfl⟩
    rcases h.2 with h | h
    · refine lt_of_lt_of_le (h _ mem) ?_
      have := le_max_left 1 (|p| + M * 1e-4 ^ 2 / 6)
      calc (1e-5 : ℝ) = 1e-5 * 1 := by ring
        _ ≤ _ := mul_le_mul_of_nonneg_left this (by norm_num)
    · refine lt_of_lt_of_le (h _ mem).2 ?_
      exact mul_le_mul_of_nonneg_left (hr.trans (le_max_right _ _)) (by norm_num)
  have := abs_sub_le (d t x y) (diff2 a f t x y) p
  linarith

/-- **C96.** The true derivatives of smooth functions are accepted: if all third derivatives at the
checked points are bounded by `M` with `M h² / 6 < 1e-5`, then a mesh of known kind, without empty
elements, is set. -/
theorem true_accepted2 (v : V2 ℝ) (m : Mesh2 ℝ) (draw : ℕ → ℝ) (hk : m.kind ≠ .other)
    (hne : ∀ pts ∈ m.elements, pts ≠ []) {M : ℝ} (hM : M * 1e-4 ^ 2 / 6 < 1e-5)
    (h : ∀ g ∈ v.given, ∀ i pts, m.elements[i]? = some pts → ∀ q ∈ pts,
      HasDerivAt (line2 g.1 g.2.1 (draw i) q.1 q.2) (g.2.2 (draw i) q.1 q.2)
        (coord2 g.1 (draw i) q.1 q.2) ∧
      ThirdBound (line2 g.1 g.2.1 (draw i) q.1 q.2) (coord2 g.1 (draw i) q.1 q.2) 1e-4 M) :
    v.setMesh m draw = some { v with mesh := some m } := by
  rw [setMesh_vector2]
  refine ⟨rfl, .inr ⟨hk, fun g hg i pts hi => ⟨?_, .inl ?_⟩⟩⟩
  · simpa using hne pts (List.mem_of_getElem? hi)
  · intro r hr
    obtain ⟨q, hq, rfl⟩ := List.mem_map.mp hr
    have hd := h g hg i pts hi q hq
    have := numerical2 g.1 g.2.1 hd.1 hd.2
    rw [npd2_eq, abs_sub_comm] at this
    exact lt_of_le_of_lt this hM

/-- A vector in space with a wrong derivative: the first component is `z`, its derivative in `x` is
said to be `z - x`. -/
noncomputable def wrong3 : V3 ℝ :=
  { V3.plain (fun _ _ _ z => z) zero3 zero3 with dudx := some fun _ x _ z => z - x }

/-- **C96, refuted.** A wrong derivative of a vector in space is accepted on every mesh, although it
is wrong at every point with `z ≠ x`. -/
theorem setMesh_vector3_refuted (m : Mesh3 ℝ) (draw : ℕ → ℝ) (hk : m.kind = .part)
    (hne : ∀ pts ∈ m.elements, pts ≠ []) :
    wrong3.setMesh m draw = some { wrong3 with mesh := some m } ∧
      ∀ t x y z, HasDerivAt (line3 .x wrong3.v0 t x y z) 0 x := by
  constructor
  · rw [setMesh_vector3_partial]
    refine ⟨rfl, .inr ⟨hk, fun g hg i pts hi => ?_⟩⟩
    have : g = (.x, fun _ _ _ z => z, fun _ x _ z => z - x) := by
      simpa [V3.given, wrong3, V3.plain] using hg
    subst this
    refine ⟨?_, .inl ?_⟩
    · simpa using hne pts (List.mem_of_getElem? hi)
    · intro r hr
      simp only [List.map_map, List.mem_map, Function.comp] at hr
      obtain ⟨q, _, rfl⟩ := hr
      norm_num [diff3, line3, coord3]
  · intro t x y z
    exact hasDerivAt_const _ _

/-! ### Construction -/

/-- **C96.** An object made from functions and a mesh only is never checked. -/
theorem make_plain (f g : F2 ℝ) (m : Option (Mesh2 ℝ)) (draw : ℕ → ℕ → ℝ) (draw' : ℕ → ℝ) :
    S2.make f false none none m draw = some (.plain f m) ∧
      V2.make (.fn f) (.fn g) false none none none m draw' = some (.plain f g m) := by
  cases m with
  | none => exact ⟨rfl, rfl⟩
  | some m => exact ⟨rfl, rfl⟩

/-- What a given derivative stands for: nothing, a function, or the number zero for the zero
function. -/
def Given (d : DArg (F2 ℝ) ℝ) (o : Option (F2 ℝ)) : Prop :=
  d = .none ∧ o = none ∨ (∃ f, d = .fn f ∧ o = some f) ∨ d = .num 0 ∧ o = some fun _ _ _ => 0

lemma parseD_given (d : DArg (F2 ℝ) ℝ) (o : Option (F2 ℝ)) :
    parseD zero2 d = some o ↔ Given d o := by
  cases d with
  | none => simp [parseD, Given, eq_comm]
  | fn f => simp [parseD, Given, eq_comm]
  | num c =>
    by_cases hc : c = 0
    · subst hc
      simp only [parseD, if_true, Option.some.injEq, Given, reduceCtorEq, false_and, exists_false,
        false_or, true_and]
      exact eq_comm
    · simp [parseD, Given, hc]

/-- **C94.** The derivatives given to the constructor are kept as they are: a number zero stands for
the zero function, and for a steady function the time derivative is the zero function. -/
theorem make_given (s : F2 ℝ) (steady : Bool) (dt dx dy : DArg (F2 ℝ) ℝ)
    (draw : ℕ → ℕ → ℝ) (a : S2 ℝ)
    (h : S2.make s steady (some [dt, dx, dy]) none none draw = some a) :
    a.s = s ∧ Given dx a.dx ∧ Given dy a.dy ∧
      (if steady then a.dt = some fun _ _ _ => 0 else Given dt a.dt) ∧
      a.ddtt = none ∧ a.ddxx = none ∧ a.ddxy = none ∧ a.ddyx = none ∧ a.ddyy = none := by
  simp only [← parseD_given]
  change a.s = s ∧ parseD zero2 dx = some a.dx ∧ parseD zero2 dy = some a.dy ∧
      (if steady then a.dt = some zero2 else parseD zero2 dt = some a.dt) ∧
      a.ddtt = none ∧ a.ddxx = none ∧ a.ddxy = none ∧ a.ddyx = none ∧ a.ddyy = none
  unfold S2.make at h
  simp only [parseAll, List.length_cons, List.length_nil, if_true, List.mapM_cons, List.mapM_nil]
    at h
  cases h1 : parseD zero2 dt with
  | none => simp [h1] at h
  | some p1 =>
    cases h2 : parseD zero2 dx with
    | none => simp [h1, h2] at h
    | some p2 =>
      cases h3 : parseD zero2 dy with
      | none => simp [h1, h2, h3] at h
      | some p3 =>
        simp [h1, h2, h3] at h
        subst h
        cases steady <;> simp

/-- The hypotheses of `make_given` are met: zero, a function and nothing. -/
example (draw : ℕ → ℕ → ℝ) : ∃ a, S2.make (fun _ x y : ℝ => x * y) false
    (some [.num 0, .fn fun _ _ y => y, .none]) none none draw = some a ∧
      a.dt = some (fun _ _ _ => 0) ∧ a.dy = none := by
  refine ⟨{ S2.plain (fun _ x y : ℝ => x * y) none with
    dt := some zero2, dx := some fun _ _ y => y }, ?_, rfl, rfl⟩
  simp [S2.make, parseAll, parseD, S2.plain]

/-- **C94.** Wrong numbers of derivatives and numbers other than zero are refused. -/
theorem make_refuses (s : F2 ℝ) (steady : Bool) (l : List (DArg (F2 ℝ) ℝ)) (m : Option (Mesh2 ℝ))
    (second : Option (List (DArg (F2 ℝ) ℝ))) (draw : ℕ → ℕ → ℝ)
    (h : l.length ≠ 3 ∨ ∃ c : ℝ, c ≠ 0 ∧ .num c ∈ l) :
    S2.make s steady (some l) second m draw = none := by
  have hp : parseAll zero2 3 (some l) = none := by
    change (if l.length = 3 then l.mapM (parseD zero2) else none) = none
    split_ifs with hl
    · rcases h with h | ⟨c, hc, hm⟩
      · exact absurd hl h
      · clear hl
        induction l with
        | nil => simp at hm
        | cons d l ih =>
          rcases List.mem_cons.mp hm with rfl | hm
          · simp [List.mapM_cons, parseD, hc]
          · rw [List.mapM_cons, ih hm]
            cases parseD zero2 d <;> simp
    · rfl
  simp [S2.make, hp]

/-- The hypotheses of `true_accepted2` are met by a vector with one given derivative. -/
example (draw : ℕ → ℝ) : ({ V2.plain (fun _ x _ : ℝ => x ^ 2) zero2 none with
      dudx := some fun _ x _ => 2 * x } : V2 ℝ).setMesh ⟨0, .part, [[(1, 2), (3, 4)]]⟩ draw =
    some { V2.plain (fun _ x _ : ℝ => x ^ 2) zero2 none with
      dudx := some fun _ x _ => 2 * x, mesh := some ⟨0, .part, [[(1, 2), (3, 4)]]⟩ } := by
  refine true_accepted2 (M := 0) _ _ draw (by simp) (by simp) (by norm_num) ?_
  intro g hg i pts hi q hq
  have : g = (.x, fun _ x _ => x ^ 2, fun _ x _ => 2 * x) := by
    simpa [V2.given, V2.plain] using hg
  subst this
  have d : ∀ u : ℝ, HasDerivAt (fun u : ℝ => u ^ 2) (2 * u) u := fun u => by
    simpa using hasDerivAt_pow 2 u
  refine ⟨d _, fun u => 2 * u, fun _ => 2, fun _ => 0, fun u _ => ⟨d u, ?_, hasDerivAt_const _ _, by simp⟩⟩
  simpa using (hasDerivAt_id u).const_mul 2

end Phyem.Funcs
