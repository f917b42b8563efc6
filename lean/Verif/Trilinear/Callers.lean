import Verif.Trilinear.Props
import Verif.Recon.Props

/-!
C91: the vectors and the matrices that are made of the array of a trilinear term.
-/

namespace Phyem.Trilinear

open Finset

variable {K : Type} [Field K]

/-! ### Helpers -/

theorem sum_one (L : List (List ℕ)) (F : List ℕ → K) (t n : ℕ) (h : ∀ idx ∈ L, idx.getD t 0 < n) (w : ℕ → K) :
    ∑ r ∈ range n, ((L.filter fun idx => [t].map (fun l => idx.getD l 0) = [r]).map F).sum * w r =
      (L.map fun idx => F idx * w (idx.getD t 0)).sum := by
  induction L with
  | nil => simp
  | cons x L ih =>
    have ih := ih fun idx hi => h idx (by simp [hi])
    rw [List.map_cons, List.sum_cons, ← ih]
    have hx : x.getD t 0 < n := h x (by simp)
    have : ∀ r ∈ range n, (((x :: L).filter fun idx => [t].map (fun l => idx.getD l 0) = [r]).map F).sum * w r =
        (if x.getD t 0 = r then F x * w r else 0) +
          ((L.filter fun idx => [t].map (fun l => idx.getD l 0) = [r]).map F).sum * w r := by
      intro r _
      by_cases hr : x.getD t 0 = r
      · rw [List.filter_cons_of_pos (by simpa using hr), if_pos hr, List.map_cons, List.sum_cons, add_mul]
      · rw [List.filter_cons_of_neg (by simpa using hr), if_neg hr, zero_add]
    rw [sum_congr rfl this, sum_add_distrib, sum_ite_eq, if_pos (mem_range.mpr hx)]

theorem sum_two (L : List (List ℕ)) (F : List ℕ → K) (s t m n : ℕ) (hs : ∀ idx ∈ L, idx.getD s 0 < m)
    (h : ∀ idx ∈ L, idx.getD t 0 < n) (u w : ℕ → K) :
    ∑ q ∈ range m, ∑ r ∈ range n,
      ((L.filter fun idx => [s, t].map (fun l => idx.getD l 0) = [q, r]).map F).sum * u q * w r =
      (L.map fun idx => F idx * u (idx.getD s 0) * w (idx.getD t 0)).sum := by
  induction L with
  | nil => simp
  | cons x L ih =>
    have ih := ih (fun idx hi => hs idx (by simp [hi])) fun idx hi => h idx (by simp [hi])
    rw [List.map_cons, List.sum_cons, ← ih]
    have hx : x.getD t 0 < n := h x (by simp)
    have hx' : x.getD s 0 < m := hs x (by simp)
    have : ∀ q ∈ range m, ∀ r ∈ range n,
        (((x :: L).filter fun idx => [s, t].map (fun l => idx.getD l 0) = [q, r]).map F).sum * u q * w r =
        (if x.getD s 0 = q then (if x.getD t 0 = r then F x * u q * w r else 0) else 0) +
          ((L.filter fun idx => [s, t].map (fun l => idx.getD l 0) = [q, r]).map F).sum * u q * w r := by
      intro q _ r _
      by_cases hq : x.getD s 0 = q
      · by_cases hr : x.getD t 0 = r
        · rw [List.filter_cons_of_pos (by simpa using ⟨hq, hr⟩), if_pos hq, if_pos hr, List.map_cons, List.sum_cons, add_mul, add_mul]
        · rw [List.filter_cons_of_neg (by simpa using fun _ => hr), if_pos hq, if_neg hr, zero_add]
      · rw [List.filter_cons_of_neg (by simp only [List.map_cons, List.map_nil]; simpa using fun a => absurd (by simpa using a) hq), if_neg hq, zero_add]
    rw [sum_congr rfl fun q hq => sum_congr rfl fun r hr => this q hq r hr]
    simp only [sum_add_distrib]
    congr 1
    rw [sum_eq_single (x.getD s 0)]
    · simp only [if_true]
      rw [sum_ite_eq, if_pos (mem_range.mpr hx)]
    · intro q _ hq
      exact sum_eq_zero fun r _ => by rw [if_neg (Ne.symm hq)]
    · intro hn; exact absurd (mem_range.mpr hx') hn

theorem sum_flat {α β : Type} (l : List α) (f : α → List β) (g : β → K) :
    ((l.flatMap f).map g).sum = (l.map fun a => ((f a).map g).sum).sum := by
  induction l with
  | nil => simp
  | cons a l ih => simp [List.flatMap_cons, ih]

theorem sum_indices (nA nB nC : ℕ) (G : List ℕ → K) :
    ((Nonlinear.indices [nA, nB, nC]).map G).sum =
      ∑ i ∈ range nA, ∑ j ∈ range nB, ∑ k ∈ range nC, G [i, j, k] := by
  rw [Nonlinear.indices, sum_flat, Nonlinear.sum_range_list]
  refine sum_congr rfl fun i _ => ?_
  rw [List.map_map, Nonlinear.indices, sum_flat, Nonlinear.sum_range_list]
  refine sum_congr rfl fun j _ => ?_
  rw [List.map_map, Nonlinear.indices, sum_flat, Nonlinear.sum_range_list]
  refine sum_congr rfl fun k _ => ?_
  simp [Nonlinear.indices]

theorem bound {nA nB nC : ℕ} {idx : List ℕ} (h : idx ∈ Nonlinear.indices [nA, nB, nC]) (l : ℕ) (hl : l < 3) :
    idx.getD l 0 < [nA, nB, nC].getD l 0 := (Nonlinear.mem_indices h).2 l hl

/-- The cochain of a form, with `w` for the test form. -/
def with1 (test : ℕ) (w : ℕ → K) (coch : ℕ → Nonlinear.Arr1 K) (f : ℕ) : ℕ → K := if f = test then w else (coch f).2

/-- The cochain of a form, with `w` and `u` for the forms of the rows and the columns. -/
def with2 (row col : ℕ) (w u : ℕ → K) (coch : ℕ → Nonlinear.Arr1 K) (f : ℕ) : ℕ → K :=
  if f = row then w else if f = col then u else (coch f).2

/-! ### Theorems -/

/-- The vector for a test form, tested with `w`, is the array contracted with `w` and the cochains of the other two forms. The forms
are `A`, `B`, `C`, and the test form is one of them and no other. -/
theorem vector_is_contraction (A B C test nA nB nC : ℕ) (d : ℕ → ℕ → ℕ → K) (coch : ℕ → Nonlinear.Arr1 K)
    (hA : (coch A).1 = nA) (hB : (coch B).1 = nB) (hC : (coch C).1 = nC) (h : [A, B, C].count test = 1) :
    ∃ v, vectorCall [A, B, C] (arr [nA, nB, nC] d) test coch = some v ∧ v.shape = [(coch test).1] ∧
      ∀ w : ℕ → K, ∑ r ∈ range (coch test).1, v.val [r] * w r =
        full nA nB nC d (with1 test w coch A) (with1 test w coch B) (with1 test w coch C) := by
  have cases : (test = A ∧ B ≠ test ∧ C ≠ test) ∨ (test = B ∧ A ≠ test ∧ C ≠ test) ∨ (test = C ∧ A ≠ test ∧ B ≠ test) := by
    simp only [List.count_cons, List.count_nil, beq_iff_eq] at h
    split_ifs at h <;> simp_all
  rcases cases with ⟨rfl, h1, h2⟩ | ⟨rfl, h1, h2⟩ | ⟨rfl, h1, h2⟩
  · have hp : places [test, B, C] test = [0] := by simp [places, List.range_succ, h1, h2]
    have hg : ((List.range 3).filter fun i => [test, B, C].getD i 0 ≠ test) = [1, 2] := by simp [List.range_succ, h1, h2]
    refine ⟨_, by simp only [vectorCall, hp, hg, Nonlinear.einsum]; rw [if_pos (by simp [arr, hB, hC])], by simp [arr, hA], ?_⟩
    intro w
    rw [hA]
    simp only [arr]
    rw [sum_one _ _ 0 nA (fun idx hi => bound hi 0 (by omega)), sum_indices, full]
    refine sum_congr rfl fun i _ => sum_congr rfl fun j _ => sum_congr rfl fun k _ => ?_
    simp only [with1, h1, h2, if_true, if_false, List.zip_cons_cons, List.zip_nil_left, List.map_cons, List.map_nil, List.prod_cons,
      List.prod_nil, List.getD_cons_zero, List.getD_cons_succ]
    ring
  · have hp : places [A, test, C] test = [1] := by simp [places, List.range_succ, h1, h2]
    have hg : ((List.range 3).filter fun i => [A, test, C].getD i 0 ≠ test) = [0, 2] := by simp [List.range_succ, h1, h2]
    refine ⟨_, by simp only [vectorCall, hp, hg, Nonlinear.einsum]; rw [if_pos (by simp [arr, hA, hC])], by simp [arr, hB], ?_⟩
    intro w
    rw [hB]
    simp only [arr]
    rw [sum_one _ _ 1 nB (fun idx hi => bound hi 1 (by omega)), sum_indices, full]
    refine sum_congr rfl fun i _ => sum_congr rfl fun j _ => sum_congr rfl fun k _ => ?_
    simp only [with1, h1, h2, if_true, if_false, List.zip_cons_cons, List.zip_nil_left, List.map_cons, List.map_nil, List.prod_cons,
      List.prod_nil, List.getD_cons_zero, List.getD_cons_succ]
    ring
  · have hp : places [A, B, test] test = [2] := by simp [places, List.range_succ, h1, h2]
    have hg : ((List.range 3).filter fun i => [A, B, test].getD i 0 ≠ test) = [0, 1] := by simp [List.range_succ, h1, h2]
    refine ⟨_, by simp only [vectorCall, hp, hg, Nonlinear.einsum]; rw [if_pos (by simp [arr, hA, hB])], by simp [arr, hC], ?_⟩
    intro w
    rw [hC]
    simp only [arr]
    rw [sum_one _ _ 2 nC (fun idx hi => bound hi 2 (by omega)), sum_indices, full]
    refine sum_congr rfl fun i _ => sum_congr rfl fun j _ => sum_congr rfl fun k _ => ?_
    simp only [with1, h1, h2, if_true, if_false, List.zip_cons_cons, List.zip_nil_left, List.map_cons, List.map_nil, List.prod_cons,
      List.prod_nil, List.getD_cons_zero, List.getD_cons_succ]
    ring

theorem places_length (abc : List ℕ) (test : ℕ) : (places abc test).length = abc.count test := by
  have key : ∀ l : List ℕ, ((List.range l.length).filter fun i => l.getD i 0 = test).length = l.count test := by
    intro l
    induction l with
    | nil => simp
    | cons a l ih =>
      rw [List.length_cons, List.range_succ_eq_map, List.filter_cons]
      have : ((List.map Nat.succ (List.range l.length)).filter fun i => decide ((a :: l).getD i 0 = test)).length =
          l.count test := by
        rw [List.filter_map, List.length_map, ← ih]
        simp [Function.comp_def]
      split_ifs with ha
      · rw [List.length_cons, this]
        have : a = test := by simpa using ha
        simp [this]
      · rw [this]
        have : a ≠ test := by simpa using ha
        rw [List.count_cons_of_ne this]
  exact key abc

/-- A form that is not there, or there twice, is refused as test form. -/
theorem vector_refuses (abc : List ℕ) (data : Nonlinear.Arr K) (test : ℕ) (coch : ℕ → Nonlinear.Arr1 K)
    (h : abc.count test ≠ 1) : vectorCall abc data test coch = none := by
  have := places_length abc test
  unfold vectorCall
  split
  · next t ht => rw [ht] at this; simp at this; omega
  · rfl

/-- The matrix before the cases. -/
theorem mat_core (abc : List ℕ) (nA nB nC r c g row col : ℕ) (d : ℕ → ℕ → ℕ → K) (coch : ℕ → Nonlinear.Arr1 K)
    (hr : places abc row = [r]) (hc : places abc col = [c]) (hne : r ≠ c)
    (hg : ((List.range 3).filter fun i => i ≠ r ∧ i ≠ c) = [g]) (hr3 : r < 3) (hc3 : c < 3)
    (hl : [nA, nB, nC][g]? = some (coch (abc.getD g 0)).1) :
    ∃ M, matrixCall abc (arr [nA, nB, nC] d) row col coch = some M ∧
      M.shape = [[nA, nB, nC].getD r 0, [nA, nB, nC].getD c 0] ∧
      ∀ w u : ℕ → K, ∑ s ∈ range ([nA, nB, nC].getD r 0), ∑ t ∈ range ([nA, nB, nC].getD c 0), M.val [s, t] * w s * u t =
        ∑ i ∈ range nA, ∑ j ∈ range nB, ∑ k ∈ range nC, d i j k * (coch (abc.getD g 0)).2 ([i, j, k].getD g 0) *
          w ([i, j, k].getD r 0) * u ([i, j, k].getD c 0) := by
  refine ⟨_, by simp only [matrixCall, hr, hc, if_pos hne, hg, Nonlinear.einsum]; rw [if_pos (by simpa [arr] using hl)], rfl, ?_⟩
  intro w u
  simp only [arr]
  rw [sum_two _ _ r c _ _ (fun idx hi => bound hi r hr3) (fun idx hi => bound hi c hc3), sum_indices]
  refine sum_congr rfl fun i _ => sum_congr rfl fun j _ => sum_congr rfl fun k _ => ?_
  simp only [List.zip_cons_cons, List.zip_nil_left, List.map_cons, List.map_nil, List.prod_cons,
      List.prod_nil, mul_one, List.getD_cons_zero, List.getD_cons_succ]

/-- The matrix for two of the forms, tested with `w` from the left and applied to `u`, is the array contracted with `w`, `u` and the
cochain of the third form. -/
theorem matrix_is_contraction (A B C row col nA nB nC : ℕ) (d : ℕ → ℕ → ℕ → K) (coch : ℕ → Nonlinear.Arr1 K)
    (hA : (coch A).1 = nA) (hB : (coch B).1 = nB) (hC : (coch C).1 = nC) (hr : [A, B, C].count row = 1)
    (hc : [A, B, C].count col = 1) (hne : row ≠ col) :
    ∃ M, matrixCall [A, B, C] (arr [nA, nB, nC] d) row col coch = some M ∧ M.shape = [(coch row).1, (coch col).1] ∧
      ∀ w u : ℕ → K, ∑ r ∈ range (coch row).1, ∑ s ∈ range (coch col).1, M.val [r, s] * w r * u s =
        full nA nB nC d (with2 row col w u coch A) (with2 row col w u coch B) (with2 row col w u coch C) := by
  have cases : (row = A ∧ col = B ∧ C ≠ A ∧ C ≠ B) ∨ (row = A ∧ col = C ∧ B ≠ A ∧ B ≠ C) ∨
      (row = B ∧ col = A ∧ C ≠ A ∧ C ≠ B) ∨ (row = B ∧ col = C ∧ A ≠ B ∧ A ≠ C) ∨
      (row = C ∧ col = A ∧ B ≠ A ∧ B ≠ C) ∨ (row = C ∧ col = B ∧ A ≠ B ∧ A ≠ C) := by
    simp only [List.count_cons, List.count_nil, beq_iff_eq] at hr hc
    split_ifs at hr hc <;> simp_all
  rcases cases with ⟨rfl, rfl, h1, h2⟩ | ⟨rfl, rfl, h1, h2⟩ | ⟨rfl, rfl, h1, h2⟩ | ⟨rfl, rfl, h1, h2⟩ | ⟨rfl, rfl, h1, h2⟩ |
    ⟨rfl, rfl, h1, h2⟩
  · have hp : places [row, col, C] row = [0] := by simp [places, List.range_succ, h1, hne.symm]
    have hq : places [row, col, C] col = [1] := by simp [places, List.range_succ, h2, hne]
    obtain ⟨M, h3, h4, h5⟩ := mat_core [row, col, C] nA nB nC 0 1 2 row col d coch hp hq (by omega) (by decide) (by omega) (by omega)
      (by simp [hC])
    refine ⟨M, h3, by rw [h4]; simp [hA, hB], fun w u => ?_⟩
    have h6 := h5 w u
    simp only [List.getD_cons_zero, List.getD_cons_succ] at h6
    rw [hA, hB, h6, full]
    refine sum_congr rfl fun i _ => sum_congr rfl fun j _ => sum_congr rfl fun k _ => ?_
    simp only [with2, h1, h2, hne, hne.symm, if_true, if_false]
    ring
  · have hp : places [row, B, col] row = [0] := by simp [places, List.range_succ, h1, hne.symm]
    have hq : places [row, B, col] col = [2] := by simp [places, List.range_succ, h2, hne]
    obtain ⟨M, h3, h4, h5⟩ := mat_core [row, B, col] nA nB nC 0 2 1 row col d coch hp hq (by omega) (by decide) (by omega) (by omega)
      (by simp [hB])
    refine ⟨M, h3, by rw [h4]; simp [hA, hC], fun w u => ?_⟩
    have h6 := h5 w u
    simp only [List.getD_cons_zero, List.getD_cons_succ] at h6
    rw [hA, hC, h6, full]
    refine sum_congr rfl fun i _ => sum_congr rfl fun j _ => sum_congr rfl fun k _ => ?_
    simp only [with2, h1, h2, hne, hne.symm, if_true, if_false]
    ring
  · have hp : places [col, row, C] row = [1] := by simp [places, List.range_succ, h2, hne.symm]
    have hq : places [col, row, C] col = [0] := by simp [places, List.range_succ, h1, hne]
    obtain ⟨M, h3, h4, h5⟩ := mat_core [col, row, C] nA nB nC 1 0 2 row col d coch hp hq (by omega) (by decide) (by omega) (by omega)
      (by simp [hC])
    refine ⟨M, h3, by rw [h4]; simp [hB, hA], fun w u => ?_⟩
    have h6 := h5 w u
    simp only [List.getD_cons_zero, List.getD_cons_succ] at h6
    rw [hB, hA, h6, full]
    refine sum_congr rfl fun i _ => sum_congr rfl fun j _ => sum_congr rfl fun k _ => ?_
    simp only [with2, h2, h1, hne, hne.symm, if_true, if_false]
    ring
  · have hp : places [A, row, col] row = [1] := by simp [places, List.range_succ, h1, hne.symm]
    have hq : places [A, row, col] col = [2] := by simp [places, List.range_succ, h2, hne]
    obtain ⟨M, h3, h4, h5⟩ := mat_core [A, row, col] nA nB nC 1 2 0 row col d coch hp hq (by omega) (by decide) (by omega) (by omega)
      (by simp [hA])
    refine ⟨M, h3, by rw [h4]; simp [hB, hC], fun w u => ?_⟩
    have h6 := h5 w u
    simp only [List.getD_cons_zero, List.getD_cons_succ] at h6
    rw [hB, hC, h6, full]
    refine sum_congr rfl fun i _ => sum_congr rfl fun j _ => sum_congr rfl fun k _ => ?_
    simp only [with2, h1, h2, hne, hne.symm, if_true, if_false]
  · have hp : places [col, B, row] row = [2] := by simp [places, List.range_succ, h2, hne.symm]
    have hq : places [col, B, row] col = [0] := by simp [places, List.range_succ, h1, hne]
    obtain ⟨M, h3, h4, h5⟩ := mat_core [col, B, row] nA nB nC 2 0 1 row col d coch hp hq (by omega) (by decide) (by omega) (by omega)
      (by simp [hB])
    refine ⟨M, h3, by rw [h4]; simp [hC, hA], fun w u => ?_⟩
    have h6 := h5 w u
    simp only [List.getD_cons_zero, List.getD_cons_succ] at h6
    rw [hC, hA, h6, full]
    refine sum_congr rfl fun i _ => sum_congr rfl fun j _ => sum_congr rfl fun k _ => ?_
    simp only [with2, h2, h1, hne, hne.symm, if_true, if_false]
    ring
  · have hp : places [A, col, row] row = [2] := by simp [places, List.range_succ, h2, hne.symm]
    have hq : places [A, col, row] col = [1] := by simp [places, List.range_succ, h1, hne]
    obtain ⟨M, h3, h4, h5⟩ := mat_core [A, col, row] nA nB nC 2 1 0 row col d coch hp hq (by omega) (by decide) (by omega) (by omega)
      (by simp [hA])
    refine ⟨M, h3, by rw [h4]; simp [hC, hB], fun w u => ?_⟩
    have h6 := h5 w u
    simp only [List.getD_cons_zero, List.getD_cons_succ] at h6
    rw [hC, hB, h6, full]
    refine sum_congr rfl fun i _ => sum_congr rfl fun j _ => sum_congr rfl fun k _ => ?_
    simp only [with2, h2, h1, hne, hne.symm, if_true, if_false]
    ring

/-- Forms that are the same, that are not there or there twice are refused. -/
theorem matrix_refuses (abc : List ℕ) (data : Nonlinear.Arr K) (row col : ℕ) (coch : ℕ → Nonlinear.Arr1 K)
    (h : abc.count row ≠ 1 ∨ abc.count col ≠ 1 ∨ row = col) : matrixCall abc data row col coch = none := by
  unfold matrixCall
  split
  · next r c hr hc =>
    have e1 := places_length abc row
    have e2 := places_length abc col
    rw [hr] at e1
    rw [hc] at e2
    simp only [List.length_singleton] at e1 e2
    rcases h with h | h | rfl
    · omega
    · omega
    · rw [hr] at hc
      simp at hc
      rw [if_neg (by simpa using hc)]
  · rfl

/-- The field at a point is what the reconstruction matrices give for the cochain (see C93). -/
theorem field_is_reconstruction (rm : List (List K)) (c vs : List K) (h : Recon.values rm c = some vs) :
    field rm (Recon.fn c) = vs := by
  induction rm generalizing vs with
  | nil => simp [Recon.values] at h; simp [field, h]
  | cons row rm ih =>
    simp only [Recon.values, List.mapM_cons, Option.bind_eq_bind, Option.bind_eq_some_iff] at h
    obtain ⟨v, hv, vs', hvs, hh⟩ := h
    have hl : row.length = c.length := by
      by_contra hl
      rw [Recon.contract_none hl] at hv
      cases hv
    rw [Recon.contract_some hl] at hv
    have : vs = v :: vs' := by simpa using hh.symm
    rw [this, ← Option.some.inj hv, ← ih vs' hvs]
    rfl

/-! ### Concrete cases -/

/-- Two points of an element: A a scalar with two dofs, B and C vectors with two dofs. -/
def exPts : List (Pt ℚ) :=
  [⟨1, [[1, 0]], [[1, 2], [0, 1]], [[1, 2], [0, 1]]⟩, ⟨1 / 2, [[1, 3]], [[0, 2], [1, -1]], [[0, 2], [1, -1]]⟩]

theorem exPts_fits : Fits 1 2 2 2 2 2 exPts := by
  intro q hq
  simp only [exPts, List.mem_cons, List.not_mem_nil, or_false] at hq
  rcases hq with rfl | rfl <;> simp

example : (cross 2 1 2 2 exPts).isSome = true ∧
    (cross 2 1 2 2 exPts).map (fun d => (d 0 0 1, d 0 1 0, d 1 0 1)) = some (0, 0, -3) ∧
    (cross 2 1 2 2 exPts).map (fun d => full 2 2 2 d (fun i => [1, 1].getD i 0) (fun i => [1, 2].getD i 0)
      (fun i => [3, 1].getD i 0)) = some 15 := by
  refine ⟨by decide +kernel, ?_, ?_⟩
  · decide +kernel
  · norm_num [cross, full, Finset.sum_range_succ, ein, exPts, at_]

example : ∀ q ∈ exPts, q.b = q.c := by decide +kernel

/-- The forms 7, 8, 9 with two dofs each; 8 is the test form. -/
def exCoch : ℕ → Nonlinear.Arr1 ℚ := fun f => (2, fun i => (f : ℚ) + i)

example : (exCoch 7).1 = 2 ∧ [7, 8, 9].count 8 = 1 ∧ [7, 8, 9].count 9 = 1 ∧ [7, 8, 8].count 8 ≠ 1 := by decide

end Phyem.Trilinear
