import Verif.Assembly.Lemmas

/-!
Properties C29, C30 and C33.
-/

namespace Phyem.Assembly

open Finset Chaining

/-! ### C29 -/

/-- Assembling never fails on well formed input, and entry `(i, j)` of the result is the sum over the elements of
the local entries at places numbered `(i, j)`, whether the local matrices are stored by rows or by columns, and
whatever the order of the stored numbers and the repetitions in the gathering matrices. -/
theorem assemble_spec {dep wid : ℕ} (es : List El) (h : ∀ e ∈ es, e.OK dep wid) :
    ∃ T, assemble none dep wid es = some T ∧
      ∀ i j, entryAt T i j = (es.map fun e => share e.row e.col e.mat.entry i j).sum :=
  assemble_aux none es h

/-- Two elements sharing a dof; the first matrix is stored by columns, the second by rows. -/
def exEls : List El :=
  [⟨[0, 1], [0, 1], ⟨false, [0, 2, 3], [0, 1, 1], [1, 2, 3]⟩⟩, ⟨[1, 2], [1, 2], ⟨true, [0, 2, 3], [1, 0, 1], [5, 4, 6]⟩⟩]

example : (∀ e ∈ exEls, e.OK 3 3) := by
  intro e he
  simp only [exEls, List.mem_cons, List.not_mem_nil, or_false] at he
  rcases he with rfl | rfl <;>
    exact ⟨⟨by decide, by decide, by decide, by decide, by decide, by decide⟩, by decide, by decide⟩

example : ∃ T, assemble none 3 3 exEls = some T ∧ entryAt T 1 1 = 3 + 4 ∧ entryAt T 1 2 = 5 :=
  ⟨[(0, 0, 1), (1, 0, 2), (1, 1, 3), (1, 2, 5), (1, 1, 4), (2, 2, 6)], by decide +kernel, by decide +kernel,
    by decide +kernel⟩

/-- Assembling is linear: if the local matrices `es` are combinations `a • es₁ + b • es₂` entry by entry (as
`a * M + b * N` is), the assembled entries are the same combination; the storages may differ. -/
theorem assemble_linear {dep wid : ℕ} (a b : ℚ) (es es₁ es₂ : List El)
    (h : ∀ e ∈ es, e.OK dep wid) (h₁ : ∀ e ∈ es₁, e.OK dep wid) (h₂ : ∀ e ∈ es₂, e.OK dep wid)
    (hl₁ : es₁.length = es.length) (hl₂ : es₂.length = es.length)
    (hc : ∀ (k : ℕ) (e e₁ e₂ : El), es[k]? = some e → es₁[k]? = some e₁ → es₂[k]? = some e₂ →
      e₁.row = e.row ∧ e₂.row = e.row ∧ e₁.col = e.col ∧ e₂.col = e.col ∧
        ∀ r c, r < e.row.length → c < e.col.length → e.mat.entry r c = a * e₁.mat.entry r c + b * e₂.mat.entry r c) :
    ∃ T T₁ T₂, assemble none dep wid es = some T ∧ assemble none dep wid es₁ = some T₁ ∧
      assemble none dep wid es₂ = some T₂ ∧ ∀ i j, entryAt T i j = a * entryAt T₁ i j + b * entryAt T₂ i j := by
  obtain ⟨T, e1, e2⟩ := assemble_spec es h
  obtain ⟨T₁, f1, f2⟩ := assemble_spec es₁ h₁
  obtain ⟨T₂, g1, g2⟩ := assemble_spec es₂ h₂
  refine ⟨T, T₁, T₂, e1, f1, g1, ?_⟩
  intro i j
  rw [e2, f2, g2]
  clear h h₁ h₂ e1 e2 f1 f2 g1 g2
  induction es generalizing es₁ es₂ with
  | nil =>
    simp only [List.length_nil, List.length_eq_zero_iff] at hl₁ hl₂
    subst hl₁; subst hl₂; simp
  | cons e es ih =>
    cases es₁ with
    | nil => simp at hl₁
    | cons e₁ es₁ =>
      cases es₂ with
      | nil => simp at hl₂
      | cons e₂ es₂ =>
        have := ih es₁ es₂ (by simpa using hl₁) (by simpa using hl₂) fun k e e₁ e₂ x y z =>
          hc (k + 1) e e₁ e₂ (by simpa using x) (by simpa using y) (by simpa using z)
        simp only [List.map_cons, List.sum_cons, this]
        obtain ⟨q1, q2, q3, q4, q5⟩ := hc 0 e e₁ e₂ rfl rfl rfl
        have : share e.row e.col e.mat.entry i j =
            a * share e₁.row e₁.col e₁.mat.entry i j + b * share e₂.row e₂.col e₂.mat.entry i j := by
          unfold share
          rw [q1, q2, q3, q4, Finset.mul_sum, Finset.mul_sum, ← Finset.sum_add_distrib]
          apply Finset.sum_congr rfl
          intro r hr
          rw [Finset.mul_sum, Finset.mul_sum, ← Finset.sum_add_distrib]
          apply Finset.sum_congr rfl
          intro c hc'
          split_ifs
          · exact q5 r c (Finset.mem_range.mp hr) (Finset.mem_range.mp hc')
          · simp
        rw [this]
        ring

/-- Assembling commutes with transposition (`M.T` swaps the gathering matrices and the local entries). -/
theorem assemble_transpose {dep wid : ℕ} (es es' : List El) (h : ∀ e ∈ es, e.OK dep wid)
    (h' : ∀ e ∈ es', e.OK wid dep) (hl : es'.length = es.length)
    (hc : ∀ (k : ℕ) (e e' : El), es[k]? = some e → es'[k]? = some e' → e'.row = e.col ∧ e'.col = e.row ∧
      ∀ r c, r < e.row.length → c < e.col.length → e'.mat.entry c r = e.mat.entry r c) :
    ∃ T T', assemble none dep wid es = some T ∧ assemble none wid dep es' = some T' ∧
      ∀ i j, entryAt T' j i = entryAt T i j := by
  obtain ⟨T, e1, e2⟩ := assemble_spec es h
  obtain ⟨T', f1, f2⟩ := assemble_spec es' h'
  refine ⟨T, T', e1, f1, ?_⟩
  intro i j
  rw [e2, f2]
  clear h h' e1 e2 f1 f2
  induction es generalizing es' with
  | nil =>
    simp only [List.length_nil, List.length_eq_zero_iff] at hl
    subst hl; simp
  | cons e es ih =>
    cases es' with
    | nil => simp at hl
    | cons e' es' =>
      have := ih es' (by simpa using hl) fun k e e' x y =>
        hc (k + 1) e e' (by simpa using x) (by simpa using y)
      simp only [List.map_cons, List.sum_cons, this]
      obtain ⟨q1, q2, q3⟩ := hc 0 e e' rfl rfl
      congr 1
      unfold share
      rw [q1, q2, Finset.sum_comm]
      apply Finset.sum_congr rfl
      intro r hr
      apply Finset.sum_congr rfl
      intro c hc'
      by_cases hh : e.row[r]? = some i ∧ e.col[c]? = some j
      · rw [if_pos hh, if_pos ⟨hh.2, hh.1⟩, q3 r c (Finset.mem_range.mp hr) (Finset.mem_range.mp hc')]
      · rw [if_neg hh, if_neg fun q => hh ⟨q.2, q.1⟩]

/-! ### C30 -/

/-- Entry `i` of the assembled vector is the sum over the elements of the local entries at places numbered `i`,
provided no dof occurs twice in one element. -/
theorem vassemble_partial {num : ℕ} (es : List (List ℕ × List ℚ))
    (h : ∀ e ∈ es, e.2.length = e.1.length ∧ ∀ n ∈ e.1, n < num) (hn : ∀ e ∈ es, e.1.Nodup) :
    ∃ v, vassemble num es = some v ∧ v.length = num ∧
      ∀ i < num, v[i]? = some (es.map fun e => vshare e.1 (fun r => e.2.getD r 0) i).sum := by
  refine ⟨_, vassemble_aux es h, by simp, ?_⟩
  intro i hi
  rw [List.getElem?_map, List.getElem?_range hi, Option.map_some]
  congr 2
  apply List.map_congr_left
  intro e he
  exact lastAt_nodup e.1 e.2 i (hn e he) (h e he).1

example : vassemble 3 [([0, 1], [1, 2]), ([1, 2], [10, 20])] = some [1, 12, 20] := by decide +kernel

/-- If a dof occurs twice in one element only the last of its local entries is counted: here `1` is lost. -/
theorem vassemble_refuted : vassemble 2 [([0, 1, 0], [1, 2, 4])] = some [4, 2] ∧
    vshare [0, 1, 0] (fun r => [1, 2, 4].getD r 0) 0 = 5 := by
  constructor
  · decide +kernel
  · decide +kernel

/-- Matrix and vector assembling are consistent: the assembled matrix times a global vector `x` is the assembled
vector of the products of the local matrices with the local values of `x`. -/
theorem assemble_matvec_partial {dep wid : ℕ} (es : List El) (h : ∀ e ∈ es, e.OK dep wid) (hn : ∀ e ∈ es, e.row.Nodup)
    (x : ℕ → ℚ) (loc : List (List ℕ × List ℚ)) (hl : loc = es.map fun e =>
      (e.row, (List.range e.row.length).map fun r => ∑ c ∈ range e.col.length, e.mat.entry r c * x (e.col.getD c 0))) :
    ∃ T v, assemble none dep wid es = some T ∧ vassemble dep loc = some v ∧
      ∀ i < dep, v[i]? = some (∑ j ∈ range wid, entryAt T i j * x j) := by
  obtain ⟨T, e1, e2⟩ := assemble_spec es h
  obtain ⟨v, f1, f2, f3⟩ := vassemble_partial (num := dep) loc
    (by subst hl; simp only [List.mem_map]; rintro _ ⟨e, he, rfl⟩; exact ⟨by simp, (h e he).row⟩)
    (by subst hl; simp only [List.mem_map]; rintro _ ⟨e, he, rfl⟩; exact hn e he)
  refine ⟨T, v, e1, f1, ?_⟩
  intro i hi
  rw [f3 i hi]
  congr 1
  subst hl
  rw [List.map_map]
  simp only [e2]
  clear e1 e2 f1 f2 f3 hn
  induction es with
  | nil => simp
  | cons e es ih =>
    simp only [List.map_cons, List.sum_cons, add_mul, Finset.sum_add_distrib]
    rw [ih fun e' he' => h e' (by simp [he'])]
    congr 1
    have hcol := (h e (by simp)).col
    unfold vshare share
    simp only [Function.comp]
    simp only [Finset.sum_mul]
    rw [Finset.sum_comm]
    apply Finset.sum_congr rfl
    intro r hr
    rw [Finset.sum_comm]
    have hr' := Finset.mem_range.mp hr
    have hgd : ((List.range e.row.length).map fun r => ∑ c ∈ range e.col.length,
        e.mat.entry r c * x (e.col.getD c 0)).getD r 0 = ∑ c ∈ range e.col.length,
        e.mat.entry r c * x (e.col.getD c 0) := by
      rw [List.getD_eq_getElem?_getD, List.getElem?_map, List.getElem?_range hr']; rfl
    rw [hgd]
    by_cases hri : e.row[r]? = some i
    · rw [if_pos hri]
      apply Finset.sum_congr rfl
      intro c hc
      have hc' := Finset.mem_range.mp hc
      rw [Finset.sum_eq_single e.col[c]]
      · simp [hri, List.getD_eq_getElem?_getD, List.getElem?_eq_getElem hc']
      · intro j _ hj
        rw [List.getElem?_eq_getElem hc']
        have : ¬ e.col[c] = j := fun q => hj q.symm
        simp [this]
      · intro hj
        exact absurd (Finset.mem_range.mpr (hcol _ (List.getElem_mem hc'))) hj
    · rw [if_neg hri]
      symm
      apply Finset.sum_eq_zero
      intro c _
      apply Finset.sum_eq_zero
      intro j _
      simp [hri]

/-! ### C33 -/

theorem sum_perm_map {α : Type} {l l' : List α} (h : l.Perm l') (f : α → ℚ) : (l.map f).sum = (l'.map f).sum :=
  (h.map f).sum_eq

theorem sum_flatten_map {α : Type} (f : α → ℚ) : ∀ (ls : List (List α)),
    (ls.map fun l => (l.map f).sum).sum = (ls.flatten.map f).sum := by
  intro ls
  induction ls with
  | nil => rfl
  | cons l ls ih => simp [ih]

/-- Whatever the distribution of the elements over the ranks, the ranks' assembled matrices exist and their sum is
the matrix assembled from all elements in one process, also with a `threshold`. -/
theorem distribution_matrix (t : Option ℚ) {dep wid : ℕ} (es : List El) (h : ∀ e ∈ es, e.OK dep wid)
    (ranks : List (List El)) (hr : ranks.flatten.Perm es) :
    ∃ T Ts, assemble t dep wid es = some T ∧ ranks.map (assemble t dep wid) = Ts.map some ∧
      ∀ i j, globalEntry Ts i j = entryAt T i j := by
  obtain ⟨T, e1, e2⟩ := assemble_aux t es h
  have hall : ∀ rk : List (List El), (∀ l ∈ rk, ∀ e ∈ l, e.OK dep wid) →
      ∃ Ts, rk.map (assemble t dep wid) = Ts.map some ∧ ∀ i j, globalEntry Ts i j =
        (rk.map fun l => (l.map fun e => share e.row e.col (cutMat t e.mat).entry i j).sum).sum := by
    intro rk
    induction rk with
    | nil => intro _; exact ⟨[], rfl, fun i j => rfl⟩
    | cons l rk ih =>
      intro hk
      obtain ⟨Ts, g1, g2⟩ := ih fun l' hl' => hk l' (by simp [hl'])
      obtain ⟨T', k1, k2⟩ := assemble_aux t l (hk l (by simp))
      refine ⟨T' :: Ts, by simp [g1, k1], ?_⟩
      intro i j
      have := g2 i j
      unfold globalEntry at this ⊢
      simp [k2, this]
  obtain ⟨Ts, g1, g2⟩ := hall ranks fun l hl e he =>
    h e (hr.subset (List.mem_flatten.mpr ⟨l, hl, he⟩))
  refine ⟨T, Ts, e1, g1, ?_⟩
  intro i j
  rw [g2, e2, sum_flatten_map]
  exact sum_perm_map hr _

/-- Whatever the distribution of the elements over the ranks, the ranks' assembled vectors exist and gather to the
vector assembled from all elements in one process (also if dofs repeat within an element). -/
theorem distribution_vector {num : ℕ} (es : List (List ℕ × List ℚ))
    (h : ∀ e ∈ es, e.2.length = e.1.length ∧ ∀ n ∈ e.1, n < num)
    (ranks : List (List (List ℕ × List ℚ))) (hr : ranks.flatten.Perm es) :
    ∃ v vs, vassemble num es = some v ∧ ranks.map (vassemble num) = vs.map some ∧ vgather num vs = v := by
  refine ⟨_, ranks.map fun l => (List.range num).map fun n => (l.map fun e => amount e n).sum,
    vassemble_aux es h, ?_, ?_⟩
  · rw [List.map_map]
    apply List.map_congr_left
    intro l hl
    exact vassemble_aux l fun e he => h e (hr.subset (List.mem_flatten.mpr ⟨l, hl, he⟩))
  · unfold vgather
    apply List.map_congr_left
    intro n hn
    rw [List.map_map, ← sum_perm_map hr, ← sum_flatten_map]
    congr 1
    apply List.map_congr_left
    intro l _
    simp only [Function.comp]
    rw [List.getD_eq_getElem?_getD, List.getElem?_map, List.getElem?_range (List.mem_range.mp hn)]
    rfl

example : ([[([1, 2], [10, 20])], [], [([0, 1], [1, 2])]] : List (List (List ℕ × List ℚ))).map (vassemble 3) =
    [[0, 10, 20], [0, 0, 0], [1, 2, 0]].map some ∧ vgather 3 [[0, 10, 20], [0, 0, 0], [1, 2, 0]] = [1, 12, 20] := by
  decide +kernel

end Phyem.Assembly
