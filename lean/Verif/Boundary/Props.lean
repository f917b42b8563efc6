import Verif.Boundary.Lemmas

/-!
C122: boundary integrals of forms with a given function over a boundary section.
-/

namespace Phyem.Boundary

open Finset Phyem.Poly Phyem.Geometry Phyem.Recon Phyem.Reduce Phyem.Numbering Phyem.LocalDofs Phyem.Incidence

/-! ### The dofs of the faces -/

lemma outer_find {f : ℕ} (hf : f < 4) (p q : ℕ) : Reversal.faceDofs .quad .outer p q f = find21o p q (f / 2) (f % 2) := by
  have : f = 0 ∨ f = 1 ∨ f = 2 ∨ f = 3 := by omega
  rcases this with rfl | rfl | rfl | rfl <;>
    simp [Reversal.faceDofs, find21o, sliceOf, slice, ln21o, atSide, Reversal.rowAt, Reversal.colAt, Reversal.dyO, Reversal.dxO] <;>
    exact List.map_eq_flatMap

lemma inner_find {f : ℕ} (hf : f < 4) (p q : ℕ) : Reversal.faceDofs .quad .inner p q f = find21i p q (f / 2) (f % 2) := by
  have : f = 0 ∨ f = 1 ∨ f = 2 ∨ f = 3 := by omega
  rcases this with rfl | rfl | rfl | rfl <;>
    simp [Reversal.faceDofs, find21i, sliceOf, slice, ln21i, atSide, Reversal.rowAt, Reversal.colAt, Reversal.dyI, Reversal.dxI] <;>
    exact List.map_eq_flatMap

lemma zero_find {f : ℕ} (hf : f < 4) (p q : ℕ) : dofs20 p q f = find20 p q (f / 2) (f % 2) := by
  have : f = 0 ∨ f = 1 ∨ f = 2 ∨ f = 3 := by omega
  rcases this with rfl | rfl | rfl | rfl <;> norm_num [dofs20, find20]

lemma along_eq {p : ℕ} {xs : List ℝ} (h : RefNodes p xs) : Along xs = I := by
  unfold Along
  rw [h.first, h.len, Nat.add_sub_cancel, h.last]

lemma side_eq {p : ℕ} {xs : List ℝ} (h : RefNodes p xs) : sideNode xs 0 = -1 ∧ sideNode xs 1 = 1 := by
  unfold sideNode
  rw [if_pos rfl, if_neg one_ne_zero, h.first, h.len, Nat.add_sub_cancel, h.last]
  exact ⟨rfl, rfl⟩

lemma deg_pos {p : ℕ} {xs : List ℝ} (h : RefNodes p xs) : 0 < p := by
  by_contra hc
  obtain rfl : p = 0 := by omega
  have := h.first.symm.trans h.last
  norm_num at this

lemma mem_outer {p q f : ℕ} {l : List ℕ} (h : Reversal.faceDofs .quad .outer p q f = some l) (d : ℕ) :
    d ∈ l ↔ (f < 2 ∧ ∃ j < q, (⟨0, p + 1, q, 1⟩ : Comp).num (if f = 0 then 0 else p) j 0 = d) ∨
      (¬ f < 2 ∧ ∃ i < p, (⟨(p + 1) * q, p, q + 1, 1⟩ : Comp).num i (if f = 2 then 0 else q) 0 = d) := by
  unfold Reversal.faceDofs at h
  dsimp only at h
  split_ifs at h with h0 h1 h2 h3 <;> simp only [Option.some.injEq] at h <;> subst h <;>
    simp [h0, *, Reversal.rowAt, Reversal.colAt, Reversal.dyO, Reversal.dxO]

lemma mem_inner {p q f : ℕ} {l : List ℕ} (h : Reversal.faceDofs .quad .inner p q f = some l) (d : ℕ) :
    d ∈ l ↔ (f < 2 ∧ ∃ j < q, (⟨p * (q + 1), p + 1, q, 1⟩ : Comp).num (if f = 0 then 0 else p) j 0 = d) ∨
      (¬ f < 2 ∧ ∃ i < p, (⟨0, p, q + 1, 1⟩ : Comp).num i (if f = 2 then 0 else q) 0 = d) := by
  unfold Reversal.faceDofs at h
  dsimp only at h
  split_ifs at h with h0 h1 h2 h3 <;> simp only [Option.some.injEq] at h <;> subst h <;>
    simp [h0, *, Reversal.rowAt, Reversal.colAt, Reversal.dyI, Reversal.dxI]

lemma faces_lt {o : Reversal.Ori} {p q f : ℕ} {l : List ℕ} (h : Reversal.faceDofs .quad o p q f = some l) : f < 4 := by
  cases o <;> unfold Reversal.faceDofs at h <;> dsimp only at h <;> split_ifs at h <;> omega

/-- Two sides of an element share no dof of a 1-form. -/
lemma outer_disjoint {p q f f' d : ℕ} {l l' : List ℕ} (hp : 0 < p) (hq : 0 < q)
    (h : Reversal.faceDofs .quad .outer p q f = some l) (h' : Reversal.faceDofs .quad .outer p q f' = some l') (hne : f ≠ f') :
    ¬ (d ∈ l ∧ d ∈ l') := by
  have a := faces_lt h
  have a' := faces_lt h'
  rw [mem_outer h, mem_outer h']
  have key : ∀ {i j : ℕ}, i ≤ p → j < q → (⟨0, p + 1, q, 1⟩ : Comp).num i j 0 < (p + 1) * q := fun {i j} hi hj => by
    have := (num_lt ⟨0, p + 1, q, 1⟩ (i := i) (j := j) (k := 0) ⟨by dsimp only; omega, hj, by dsimp only; omega⟩).2
    simpa [Comp.size] using this
  have key' : ∀ {i j : ℕ}, (p + 1) * q ≤ (⟨(p + 1) * q, p, q + 1, 1⟩ : Comp).num i j 0 := fun {i j} => Nat.le_add_right _ _
  rintro ⟨⟨c, j, hj, e⟩ | ⟨c, i, hi, e⟩, ⟨c', j', hj', e'⟩ | ⟨c', i', hi', e'⟩⟩
  · have := num_inj ⟨0, p + 1, q, 1⟩ ⟨by dsimp only; split_ifs <;> omega, hj, by dsimp only; omega⟩
      ⟨by dsimp only; split_ifs <;> omega, hj', by dsimp only; omega⟩ (e.trans e'.symm)
    have := this.1
    split_ifs at this <;> omega
  · have k1 := key (i := if f = 0 then 0 else p) (by split_ifs <;> omega) hj
    have k2 := key' (i := i') (j := if f' = 2 then 0 else q)
    omega
  · have k1 := key (i := if f' = 0 then 0 else p) (by split_ifs <;> omega) hj'
    have k2 := key' (i := i) (j := if f = 2 then 0 else q)
    omega
  · have := num_inj ⟨(p + 1) * q, p, q + 1, 1⟩ ⟨hi, by dsimp only; split_ifs <;> omega, by dsimp only; omega⟩
      ⟨hi', by dsimp only; split_ifs <;> omega, by dsimp only; omega⟩ (e.trans e'.symm)
    have := this.2.1
    split_ifs at this <;> omega

lemma inner_disjoint {p q f f' d : ℕ} {l l' : List ℕ} (hp : 0 < p) (hq : 0 < q)
    (h : Reversal.faceDofs .quad .inner p q f = some l) (h' : Reversal.faceDofs .quad .inner p q f' = some l') (hne : f ≠ f') :
    ¬ (d ∈ l ∧ d ∈ l') := by
  have a := faces_lt h
  have a' := faces_lt h'
  rw [mem_inner h, mem_inner h']
  have key : ∀ {i j : ℕ}, i < p → j ≤ q → (⟨0, p, q + 1, 1⟩ : Comp).num i j 0 < p * (q + 1) := fun {i j} hi hj => by
    have := (num_lt ⟨0, p, q + 1, 1⟩ (i := i) (j := j) (k := 0) ⟨hi, by dsimp only; omega, by dsimp only; omega⟩).2
    simpa [Comp.size] using this
  have key' : ∀ {i j : ℕ}, p * (q + 1) ≤ (⟨p * (q + 1), p + 1, q, 1⟩ : Comp).num i j 0 := fun {i j} => Nat.le_add_right _ _
  rintro ⟨⟨c, j, hj, e⟩ | ⟨c, i, hi, e⟩, ⟨c', j', hj', e'⟩ | ⟨c', i', hi', e'⟩⟩
  · have := num_inj ⟨p * (q + 1), p + 1, q, 1⟩ ⟨by dsimp only; split_ifs <;> omega, hj, by dsimp only; omega⟩
      ⟨by dsimp only; split_ifs <;> omega, hj', by dsimp only; omega⟩ (e.trans e'.symm)
    have := this.1
    split_ifs at this <;> omega
  · have k1 := key hi' (j := if f' = 2 then 0 else q) (by split_ifs <;> omega)
    have k2 := key' (i := if f = 0 then 0 else p) (j := j)
    omega
  · have k1 := key hi (j := if f = 2 then 0 else q) (by split_ifs <;> omega)
    have k2 := key' (i := if f' = 0 then 0 else p) (j := j')
    omega
  · have := num_inj ⟨0, p, q + 1, 1⟩ ⟨hi, by dsimp only; split_ifs <;> omega, by dsimp only; omega⟩
      ⟨hi', by dsimp only; split_ifs <;> omega, by dsimp only; omega⟩ (e.trans e'.symm)
    have := this.2.1
    split_ifs at this <;> omega

/-! ### Traces that vanish -/

lemma entry_unit {rm : List (List ℝ)} {r d N : ℕ} (hd : d < N) : entry rm r d = ∑ k ∈ range N, entry rm r k * unit d k := by
  rw [sum_eq_single d]
  · simp [unit]
  · intro b _ hb; simp [unit, hb]
  · intro hn; exact absurd (mem_range.2 hd) hn

variable {e : El} (h : Good e)

include h in
lemma outer_zero {f : ℕ} (hf : f < 4) {l : List ℕ} (hl : Reversal.faceDofs .quad .outer e.p e.q f = some l) {d : ℕ} (hd : d ∉ l)
    {t : ℝ} (ht : t ∈ I) :
    (if f < 2 then (rec21o e.xs e.ys (unit d) (facePoint2 f t).1 (facePoint2 f t).2).1
      else (rec21o e.xs e.ys (unit d) (facePoint2 f t).1 (facePoint2 f t).2).2) = 0 := by
  rw [outer_find hf] at hl
  obtain ⟨s0, s1⟩ := side_eq h.hx
  obtain ⟨r0, r1⟩ := side_eq h.hy
  have : f = 0 ∨ f = 1 ∨ f = 2 ∨ f = 3 := by omega
  rcases this with rfl | rfl | rfl | rfl <;> norm_num [facePoint2] at hl ⊢
  · rw [face21o_x h.hx.incr h.hy.incr h.hx.len h.hy.len d hl, along_eq h.hy, s0] at hd
    exact by_contra fun hc => hd ⟨t, ht, hc⟩
  · rw [face21o_x h.hx.incr h.hy.incr h.hx.len h.hy.len d hl, along_eq h.hy, s1] at hd
    exact by_contra fun hc => hd ⟨t, ht, hc⟩
  · rw [face21o_y h.hx.incr h.hy.incr h.hx.len h.hy.len d hl, along_eq h.hx, r0] at hd
    exact by_contra fun hc => hd ⟨t, ht, hc⟩
  · rw [face21o_y h.hx.incr h.hy.incr h.hx.len h.hy.len d hl, along_eq h.hx, r1] at hd
    exact by_contra fun hc => hd ⟨t, ht, hc⟩

include h in
lemma inner_zero {f : ℕ} (hf : f < 4) {l : List ℕ} (hl : Reversal.faceDofs .quad .inner e.p e.q f = some l) {d : ℕ} (hd : d ∉ l)
    {t : ℝ} (ht : t ∈ I) :
    (if f < 2 then (rec21i e.xs e.ys (unit d) (facePoint2 f t).1 (facePoint2 f t).2).2
      else (rec21i e.xs e.ys (unit d) (facePoint2 f t).1 (facePoint2 f t).2).1) = 0 := by
  rw [inner_find hf] at hl
  obtain ⟨s0, s1⟩ := side_eq h.hx
  obtain ⟨r0, r1⟩ := side_eq h.hy
  have : f = 0 ∨ f = 1 ∨ f = 2 ∨ f = 3 := by omega
  rcases this with rfl | rfl | rfl | rfl <;> norm_num [facePoint2] at hl ⊢
  · rw [face21i_x h.hx.incr h.hy.incr h.hx.len h.hy.len d hl, along_eq h.hy, s0] at hd
    exact by_contra fun hc => hd ⟨t, ht, hc⟩
  · rw [face21i_x h.hx.incr h.hy.incr h.hx.len h.hy.len d hl, along_eq h.hy, s1] at hd
    exact by_contra fun hc => hd ⟨t, ht, hc⟩
  · rw [face21i_y h.hx.incr h.hy.incr h.hx.len h.hy.len d hl, along_eq h.hx, r0] at hd
    exact by_contra fun hc => hd ⟨t, ht, hc⟩
  · rw [face21i_y h.hx.incr h.hy.incr h.hx.len h.hy.len d hl, along_eq h.hx, r1] at hd
    exact by_contra fun hc => hd ⟨t, ht, hc⟩

include h in
lemma zero_zero {f : ℕ} (hf : f < 4) {l : List ℕ} (hl : dofs20 e.p e.q f = some l) {d : ℕ} (hd : d ∉ l) {t : ℝ} (ht : t ∈ I) :
    rec20 e.xs e.ys (unit d) (facePoint2 f t).1 (facePoint2 f t).2 = 0 := by
  rw [zero_find hf] at hl
  obtain ⟨s0, s1⟩ := side_eq h.hx
  obtain ⟨r0, r1⟩ := side_eq h.hy
  have : f = 0 ∨ f = 1 ∨ f = 2 ∨ f = 3 := by omega
  rcases this with rfl | rfl | rfl | rfl <;> norm_num [facePoint2] at hl ⊢
  · rw [face20_x h.hx.incr h.hy.incr h.hx.len h.hy.len d hl, along_eq h.hy, s0] at hd
    exact by_contra fun hc => hd ⟨t, ht, hc⟩
  · rw [face20_x h.hx.incr h.hy.incr h.hx.len h.hy.len d hl, along_eq h.hy, s1] at hd
    exact by_contra fun hc => hd ⟨t, ht, hc⟩
  · rw [face20_y h.hx.incr h.hy.incr h.hx.len h.hy.len d hl, along_eq h.hx, r0] at hd
    exact by_contra fun hc => hd ⟨t, ht, hc⟩
  · rw [face20_y h.hx.incr h.hy.incr h.hx.len h.hy.len d hl, along_eq h.hx, r1] at hd
    exact by_contra fun hc => hd ⟨t, ht, hc⟩

/-! ### C122 -/

/-- What the four kinds of forms have in common. -/
lemma isBI_of {els : ℕ → El} {Q : Rule} (hQ : Inside Q) {num : El → ℕ} {dof : El → ℕ → Option (List ℕ)}
    {A : El → ℕ → ℝ → ℝ} {T : El → ℕ → ℝ → ℕ → ℝ} {H : El → (ℕ → ℝ) → ℝ × ℝ → ℝ × ℝ → ℝ} {face : El → ℕ → Option (List ℕ × List ℝ)}
    {sec : List (ℕ × ℕ)} (hs : ∀ ef ∈ sec, ef.2 < 4 ∧ Good (els ef.1))
    {n : ℕ → ℕ → ℝ → ℝ × ℝ} (hN : ∀ ef ∈ sec, Normals (els ef.1).Φ (n ef.1))
    (hface : ∀ e f, face e f = (dof e f).map fun l =>
      (l, faceVec l (A e f) (T e f) (e.len f) (Q (max e.p e.q + 1)).1 (Q (max e.p e.q + 1)).2))
    (hdof : ∀ e, ∀ f < 4, (dof e f).isSome = true)
    (hdisj : ∀ k, ∀ d, (facesOf sec k).Pairwise fun f f' => ¬ (d ∈ (dof (els k) f).getD [] ∧ d ∈ (dof (els k) f').getD []))
    (hz : ∀ e, Good e → ∀ f < 4, ∀ t ∈ I, ∀ d < num e, d ∉ (dof e f).getD [] → T e f t d * e.len f t = 0)
    (hH : ∀ e, Good e → ∀ f < 4, ∀ t ∈ I, ∀ c : ℕ → ℝ,
      A e f t * (∑ d ∈ range (num e), T e f t d * c d) = H e c (facePoint2 f t) (e.n f t)) :
    ∃ data, bi (fun k => face (els k)) (fun k => num (els k)) sec = some data ∧
      IsBI els Q n num H sec data := by
  obtain ⟨data, e1, hd⟩ := bi_eq (face := fun k => face (els k)) (num := fun k => num (els k))
    (l := fun k f => (dof (els k) f).getD [])
    (g := fun k f d => (List.zipWith (fun t w => A (els k) f t * T (els k) f t d * w * (els k).len f t)
      (Q (max (els k).p (els k).q + 1)).1 (Q (max (els k).p (els k).q + 1)).2).sum) sec (fun ef hef => by
      obtain ⟨l, hl⟩ := Option.isSome_iff_exists.1 (hdof (els ef.1) ef.2 (hs ef hef).1)
      simp only [hface, hl, Option.map_some, Option.getD_some]
      rfl)
  refine ⟨data, e1, fun k => ⟨(hd k).1, fun hk => ?_⟩⟩
  obtain ⟨a, ha, la, va⟩ := (hd k).2 hk
  refine ⟨a, ha, la, fun c => ?_⟩
  have hg : ∀ f ∈ facesOf sec k, f < 4 ∧ Good (els k) := fun f hf => hs (k, f) (mem_facesOf.1 hf)
  rw [sum_congr rfl fun d hd' => by rw [va d (mem_range.1 hd')],
    element_sum (fun d _ => hdisj k d) (fun f hf t ht d hd' hn => hz (els k) (hg f hf).2 f (hg f hf).1 t (hQ _ t ht) d hd' hn) c]
  congr 1
  refine List.map_congr_left fun f hf => ?_
  unfold sideRule
  refine zip_congr _ fun t ht w => ?_
  rw [hH (els k) (hg f hf).2 f (hg f hf).1 t (hQ _ t ht) c,
    normals_unique (hg f hf).2 (hN (k, f) (mem_facesOf.1 hf)) (hg f hf).1 (hQ _ t ht), len_eq (hg f hf).2 (hg f hf).1 (hQ _ t ht)]
  ring

/-- There are such outward unit normal vectors, and only one at each point of a side. -/
theorem outward_normals (e : El) (h : Good e) : ∃ n, Normals e.Φ n ∧ ∀ n', Normals e.Φ n' → ∀ f < 4, ∀ t ∈ I, n' f t = n f t :=
  ⟨e.n, normals h, fun _ h' _ hf _ ht => normals_unique h h' hf ht⟩

/-- **C122, outer 1-forms in the plane**: the vectors returned are those of the linear functional `v ↦ ∫ φ (v · n) ds` over the faces of
the section, by quadrature.  -/
theorem bi21o (els : ℕ → El) (Q : Rule) (hQ : Inside Q) (φ : ℝ × ℝ → ℝ) (sec : List (ℕ × ℕ)) (hn : sec.Nodup)
    (hs : ∀ ef ∈ sec, ef.2 < 4 ∧ Good (els ef.1)) (n : ℕ → ℕ → ℝ → ℝ × ℝ) (hN : ∀ ef ∈ sec, Normals (els ef.1).Φ (n ef.1)) :
    ∃ data, bi (fun k => face21o Q φ (els k)) (fun k => (els k).num1) sec = some data ∧
      IsBI els Q n El.num1 (fun e c P m => φ (e.Φ P.1 P.2) * Reduce.dot2 (e.v1o c P) m) sec data := by
  refine isBI_of hQ hs hN (dof := fun e f => Reversal.faceDofs .quad .outer e.p e.q f) (A := fun e f t => φ (e.pt f t))
    (T := fun e f t d => entry (e.rm21o f t) 0 d * (e.n f t).1 + entry (e.rm21o f t) 1 d * (e.n f t).2)
    (fun e f => rfl) ?_ ?_ ?_ ?_
  · intro e f hf
    rw [outer_find hf]
    exact (found (r := 0)).2.2.2.1.2 ⟨by omega, by omega⟩
  · intro k d
    refine List.Pairwise.imp_of_mem ?_ (facesOf_nodup hn k)
    intro f f' hf hf' hne
    obtain ⟨a, b⟩ := hs (k, f) (mem_facesOf.1 hf)
    obtain ⟨a', -⟩ := hs (k, f') (mem_facesOf.1 hf')
    obtain ⟨l, hl⟩ := Option.isSome_iff_exists.1 ((outer_find a (els k).p (els k).q).symm ▸
      (found (r := 0)).2.2.2.1.2 ⟨by omega, by omega⟩)
    obtain ⟨l', hl'⟩ := Option.isSome_iff_exists.1 ((outer_find a' (els k).p (els k).q).symm ▸
      (found (r := 0)).2.2.2.1.2 ⟨by omega, by omega⟩)
    rw [hl, hl']
    exact outer_disjoint (deg_pos b.hx) (deg_pos b.hy) hl hl' hne
  · intro e he f hf t ht d hd hnot
    obtain ⟨l, hl⟩ := Option.isSome_iff_exists.1 ((outer_find hf e.p e.q).symm ▸
      (found (r := 0)).2.2.2.1.2 ⟨by omega, by omega⟩)
    rw [hl] at hnot
    obtain ⟨r0, r1⟩ := rm21o_row he.hx.len he.hy.len (e.iJ (facePoint2 f t).1 (facePoint2 f t).2) (facePoint2 f t).1
      (facePoint2 f t).2 (unit d)
    rw [entry_unit (N := e.num1) hd, entry_unit (N := e.num1) hd (r := 1), El.rm21o]
    rw [facePoint_eq hf, El.num1, r0, r1, flux_side he hf ht, outer_zero he hf hl hnot ht, mul_zero]
  · intro e he f hf t ht c
    obtain ⟨r0, r1⟩ := rm21o_row he.hx.len he.hy.len (e.iJ (facePoint2 f t).1 (facePoint2 f t).2) (facePoint2 f t).1
      (facePoint2 f t).2 c
    rw [show (∑ d ∈ range e.num1, (entry (e.rm21o f t) 0 d * (e.n f t).1 + entry (e.rm21o f t) 1 d * (e.n f t).2) * c d) =
      (∑ d ∈ range e.num1, entry (e.rm21o f t) 0 d * c d) * (e.n f t).1 +
        (∑ d ∈ range e.num1, entry (e.rm21o f t) 1 d * c d) * (e.n f t).2 by
      rw [sum_mul, sum_mul, ← sum_add_distrib]; exact sum_congr rfl fun d _ => by ring]
    rw [El.rm21o]
    rw [facePoint_eq hf, El.num1, r0, r1]
    rfl

/-- **C122, inner 1-forms in the plane**: `v ↦ ∫ φ (v × n) ds`. -/
theorem bi21i (els : ℕ → El) (Q : Rule) (hQ : Inside Q) (φ : ℝ × ℝ → ℝ) (sec : List (ℕ × ℕ)) (hn : sec.Nodup)
    (hs : ∀ ef ∈ sec, ef.2 < 4 ∧ Good (els ef.1)) (n : ℕ → ℕ → ℝ → ℝ × ℝ) (hN : ∀ ef ∈ sec, Normals (els ef.1).Φ (n ef.1)) :
    ∃ data, bi (fun k => face21i Q φ (els k)) (fun k => (els k).num1) sec = some data ∧
      IsBI els Q n El.num1 (fun e c P m => φ (e.Φ P.1 P.2) * cross2 (e.v1i c P) m) sec data := by
  refine isBI_of hQ hs hN (dof := fun e f => Reversal.faceDofs .quad .inner e.p e.q f) (A := fun e f t => φ (e.pt f t))
    (T := fun e f t d => entry (e.rm21i f t) 0 d * (e.n f t).2 - entry (e.rm21i f t) 1 d * (e.n f t).1)
    (fun e f => rfl) ?_ ?_ ?_ ?_
  · intro e f hf
    rw [inner_find hf]
    exact (found (r := 0)).2.2.1.2 ⟨by omega, by omega⟩
  · intro k d
    refine List.Pairwise.imp_of_mem ?_ (facesOf_nodup hn k)
    intro f f' hf hf' hne
    obtain ⟨a, b⟩ := hs (k, f) (mem_facesOf.1 hf)
    obtain ⟨a', -⟩ := hs (k, f') (mem_facesOf.1 hf')
    obtain ⟨l, hl⟩ := Option.isSome_iff_exists.1 ((inner_find a (els k).p (els k).q).symm ▸
      (found (r := 0)).2.2.1.2 ⟨by omega, by omega⟩)
    obtain ⟨l', hl'⟩ := Option.isSome_iff_exists.1 ((inner_find a' (els k).p (els k).q).symm ▸
      (found (r := 0)).2.2.1.2 ⟨by omega, by omega⟩)
    rw [hl, hl']
    exact inner_disjoint (deg_pos b.hx) (deg_pos b.hy) hl hl' hne
  · intro e he f hf t ht d hd hnot
    obtain ⟨l, hl⟩ := Option.isSome_iff_exists.1 ((inner_find hf e.p e.q).symm ▸
      (found (r := 0)).2.2.1.2 ⟨by omega, by omega⟩)
    rw [hl] at hnot
    obtain ⟨r0, r1⟩ := rm21i_row he.hx.len he.hy.len (e.iJ (facePoint2 f t).1 (facePoint2 f t).2) (facePoint2 f t).1
      (facePoint2 f t).2 (unit d)
    rw [entry_unit (N := e.num1) hd, entry_unit (N := e.num1) hd (r := 1), El.rm21i]
    rw [facePoint_eq hf, El.num1, r0, r1, circ_side he hf ht, inner_zero he hf hl hnot ht, mul_zero]
  · intro e he f hf t ht c
    obtain ⟨r0, r1⟩ := rm21i_row he.hx.len he.hy.len (e.iJ (facePoint2 f t).1 (facePoint2 f t).2) (facePoint2 f t).1
      (facePoint2 f t).2 c
    rw [show (∑ d ∈ range e.num1, (entry (e.rm21i f t) 0 d * (e.n f t).2 - entry (e.rm21i f t) 1 d * (e.n f t).1) * c d) =
      (∑ d ∈ range e.num1, entry (e.rm21i f t) 0 d * c d) * (e.n f t).2 -
        (∑ d ∈ range e.num1, entry (e.rm21i f t) 1 d * c d) * (e.n f t).1 by
      rw [sum_mul, sum_mul, ← sum_sub_distrib]; exact sum_congr rfl fun d _ => by ring]
    rw [El.rm21i]
    rw [facePoint_eq hf, El.num1, r0, r1]
    rfl

/-- Two sides of an element have a common corner: they are neither the same nor opposite. -/
def Meet (f f' : ℕ) : Prop := f / 2 ≠ f' / 2

lemma zero_some {p q f : ℕ} (hf : f < 4) : (dofs20 p q f).isSome = true := by
  have : f = 0 ∨ f = 1 ∨ f = 2 ∨ f = 3 := by omega
  rcases this with rfl | rfl | rfl | rfl <;> simp [dofs20, sliceOf, slice, ln20, atSide]

lemma mem_zero {p q f : ℕ} {l : List ℕ} (h : dofs20 p q f = some l) (d : ℕ) :
    d ∈ l ↔ (f < 2 ∧ ∃ j < q + 1, (⟨0, p + 1, q + 1, 1⟩ : Comp).num (if f = 0 then 0 else p) j 0 = d) ∨
      (¬ f < 2 ∧ ∃ i < p + 1, (⟨0, p + 1, q + 1, 1⟩ : Comp).num i (if f = 2 then 0 else q) 0 = d) := by
  unfold dofs20 at h
  split_ifs at h with h0 h1 h2 h3 <;> simp [sliceOf, slice, ln20, atSide] at h <;> subst h <;>
    simp [h0, *, eq_comm]

/-- Opposite sides share no dof of a 0-form. -/
lemma zero_disjoint {e : El} (h : Good e) {f f' d : ℕ} (hf : f < 4) (hf' : f' < 4) (hne : f ≠ f') (hm : ¬ Meet f f') :
    ¬ (d ∈ (dofs20 e.p e.q f).getD [] ∧ d ∈ (dofs20 e.p e.q f').getD []) := by
  have hp := deg_pos h.hx
  have hq := deg_pos h.hy
  unfold Meet at hm
  obtain ⟨l, hl⟩ := Option.isSome_iff_exists.1 (zero_some (p := e.p) (q := e.q) hf)
  obtain ⟨l', hl'⟩ := Option.isSome_iff_exists.1 (zero_some (p := e.p) (q := e.q) hf')
  rw [hl, hl', Option.getD_some, Option.getD_some, mem_zero hl, mem_zero hl']
  rintro ⟨⟨c, j, hj, e1⟩ | ⟨c, i, hi, e1⟩, ⟨c', j', hj', e2⟩ | ⟨c', i', hi', e2⟩⟩
  · have := (num_inj ⟨0, e.p + 1, e.q + 1, 1⟩ ⟨by dsimp only; split_ifs <;> omega, hj, by dsimp only; omega⟩
      ⟨by dsimp only; split_ifs <;> omega, hj', by dsimp only; omega⟩ (e1.trans e2.symm)).1
    split_ifs at this <;> omega
  · omega
  · omega
  · have := (num_inj ⟨0, e.p + 1, e.q + 1, 1⟩ ⟨hi, by dsimp only; split_ifs <;> omega, by dsimp only; omega⟩
      ⟨hi', by dsimp only; split_ifs <;> omega, by dsimp only; omega⟩ (e1.trans e2.symm)).2.1
    split_ifs at this <;> omega

/-- What both kinds of 0-forms have in common. -/
lemma isBI20 (els : ℕ → El) (Q : Rule) (hQ : Inside Q) (sec : List (ℕ × ℕ)) (hn : sec.Nodup)
    (hs : ∀ ef ∈ sec, ef.2 < 4 ∧ Good (els ef.1)) (hm : ∀ k, ∀ f ∈ facesOf sec k, ∀ f' ∈ facesOf sec k, ¬ Meet f f')
    {n : ℕ → ℕ → ℝ → ℝ × ℝ} (hN : ∀ ef ∈ sec, Normals (els ef.1).Φ (n ef.1)) {A : El → ℕ → ℝ → ℝ} {face : El → ℕ → Option (List ℕ × List ℝ)} {H : El → ℝ × ℝ → ℝ × ℝ → ℝ}
    (hface : ∀ e f, face e f = (dofs20 e.p e.q f).map fun l => (l, faceVec l (A e f) (fun t d => entry (e.rm20 f t) 0 d) (e.len f)
      (Q (max e.p e.q + 1)).1 (Q (max e.p e.q + 1)).2))
    (hA : ∀ e, Good e → ∀ f < 4, ∀ t ∈ I, A e f t = H e (facePoint2 f t) (e.n f t)) :
    ∃ data, bi (fun k => face (els k)) (fun k => (els k).num0) sec = some data ∧
      IsBI els Q n El.num0 (fun e c P m => H e P m * e.v0 c P) sec data := by
  refine isBI_of hQ hs hN (dof := fun e f => dofs20 e.p e.q f) (A := A) (T := fun e f t d => entry (e.rm20 f t) 0 d)
    hface (fun e f hf => zero_some hf) ?_ ?_ ?_
  · intro k d
    refine List.Pairwise.imp_of_mem ?_ (facesOf_nodup hn k)
    intro f f' hf hf' hne
    obtain ⟨a, b⟩ := hs (k, f) (mem_facesOf.1 hf)
    obtain ⟨a', -⟩ := hs (k, f') (mem_facesOf.1 hf')
    exact zero_disjoint b a a' hne (hm k f hf f' hf')
  · intro e he f hf t ht d hd hnot
    obtain ⟨l, hl⟩ := Option.isSome_iff_exists.1 (zero_some (p := e.p) (q := e.q) hf)
    rw [hl] at hnot
    rw [entry_unit (N := e.num0) hd, El.rm20]
    rw [facePoint_eq hf, El.num0, rm20_row he.hx.len he.hy.len, zero_zero he hf hl hnot ht, zero_mul]
  · intro e he f hf t ht c
    rw [hA e he f hf t ht, El.rm20]
    rw [facePoint_eq hf, El.num0, rm20_row he.hx.len he.hy.len]
    rfl

/-- **C122, outer 0-forms in the plane**: `w ↦ ∫ (u × n) w ds`; as long as no two faces of an element in the section meet at a corner.
Missing: these sections, for which the statement is false (`bi20_refuted`). -/
theorem bi20o_partial (els : ℕ → El) (Q : Rule) (hQ : Inside Q) (u : ℝ × ℝ → ℝ × ℝ) (sec : List (ℕ × ℕ)) (hn : sec.Nodup)
    (hs : ∀ ef ∈ sec, ef.2 < 4 ∧ Good (els ef.1)) (hm : ∀ k, ∀ f ∈ facesOf sec k, ∀ f' ∈ facesOf sec k, ¬ Meet f f')
    (n : ℕ → ℕ → ℝ → ℝ × ℝ) (hN : ∀ ef ∈ sec, Normals (els ef.1).Φ (n ef.1)) :
    ∃ data, bi (fun k => face20o Q u (els k)) (fun k => (els k).num0) sec = some data ∧
      IsBI els Q n El.num0 (fun e c P m => cross2 (u (e.Φ P.1 P.2)) m * e.v0 c P) sec data :=
  isBI20 els Q hQ sec hn hs hm hN (H := fun e P m => cross2 (u (e.Φ P.1 P.2)) m) (fun _ _ => rfl) fun _ _ _ _ _ _ => rfl

/-- **C122, inner 0-forms in the plane**: `w ↦ ∫ (u · n) w ds`; with the same restriction. -/
theorem bi20i_partial (els : ℕ → El) (Q : Rule) (hQ : Inside Q) (u : ℝ × ℝ → ℝ × ℝ) (sec : List (ℕ × ℕ)) (hn : sec.Nodup)
    (hs : ∀ ef ∈ sec, ef.2 < 4 ∧ Good (els ef.1)) (hm : ∀ k, ∀ f ∈ facesOf sec k, ∀ f' ∈ facesOf sec k, ¬ Meet f f')
    (n : ℕ → ℕ → ℝ → ℝ × ℝ) (hN : ∀ ef ∈ sec, Normals (els ef.1).Φ (n ef.1)) :
    ∃ data, bi (fun k => face20i Q u (els k)) (fun k => (els k).num0) sec = some data ∧
      IsBI els Q n El.num0 (fun e c P m => Reduce.dot2 (u (e.Φ P.1 P.2)) m * e.v0 c P) sec data :=
  isBI20 els Q hQ sec hn hs hm hN (H := fun e P m => Reduce.dot2 (u (e.Φ P.1 P.2)) m) (fun _ _ => rfl) fun _ _ _ _ _ _ => rfl

lemma bi_none {face : ℕ → ℕ → Option (List ℕ × List ℝ)} {num : ℕ → ℕ} {sec : List (ℕ × ℕ)} {ef : ℕ × ℕ} (h : ef ∈ sec)
    (hf : face ef.1 ef.2 = none) : bi face num sec = none := by
  unfold bi
  generalize (fun _ => none : ℕ → Option (List ℝ)) = d
  induction sec generalizing d with
  | nil => simp at h
  | cons a t ih =>
    rw [List.foldlM_cons]
    rcases List.mem_cons.1 h with rfl | h'
    · rw [hf]; rfl
    · cases hb : ((face a.1 a.2).bind fun lv => (start (num a.1) (d a.1)).map fun old =>
        fun e => if e = a.1 then some (assign old lv.1 lv.2) else d e) with
      | none => rfl
      | some d' => exact ih h' d'

/-- **C122**: a face number an element has not is refused. -/
theorem bi_bad_face (els : ℕ → El) (Q : Rule) (φ : ℝ × ℝ → ℝ) (u : ℝ × ℝ → ℝ × ℝ) (sec : List (ℕ × ℕ)) (h : ∃ ef ∈ sec, 4 ≤ ef.2) :
    bi (fun k => face21o Q φ (els k)) (fun k => (els k).num1) sec = none ∧
    bi (fun k => face21i Q φ (els k)) (fun k => (els k).num1) sec = none ∧
    bi (fun k => face20o Q u (els k)) (fun k => (els k).num0) sec = none ∧
    bi (fun k => face20i Q u (els k)) (fun k => (els k).num0) sec = none := by
  obtain ⟨ef, hm, hf⟩ := h
  have a : ∀ o p q, Reversal.faceDofs .quad o p q ef.2 = none := fun o p q => by
    cases hc : Reversal.faceDofs .quad o p q ef.2 with
    | none => rfl
    | some l => exact absurd (faces_lt hc) (by omega)
  have b : ∀ p q, dofs20 p q ef.2 = none := fun p q => by
    unfold dofs20
    rw [if_neg (by omega), if_neg (by omega), if_neg (by omega), if_neg (by omega)]
  refine ⟨bi_none hm ?_, bi_none hm ?_, bi_none hm ?_, bi_none hm ?_⟩
  · simp [face21o, a]
  · simp [face21i, a]
  · simp [face20o, b]
  · simp [face20i, b]

end Phyem.Boundary
