import Verif.MatrixProxy.Lemmas

/-!
C08 (`mp.parse` keeps the equations) and C09 (`mp.ls()` is the system of the formulation).
-/

namespace Phyem.MatrixProxy

open Phyem.WeakForm (mapOpt)

variable {R N : Type}

/-! ### C08 -/

/-- The linear terms of one side of an equation, without the test vector. -/
def linTerms (l : List (Sign × ApTerm R N)) : Cell R :=
  l.filterMap fun p => match p.2 with
    | .lin a => some (p.1, ⟨a.factor, a.comps.tail⟩)
    | .non _ => none

/-- The nonlinear terms of one side of an equation. -/
def nonTerms (l : List (Sign × ApTerm R N)) : List (Sign × N) :=
  l.filterMap fun p => match p.2 with
    | .lin _ => none
    | .non n => some (p.1, n)

theorem sortTerms_eq {v : Comp} {lin lin' : Cell R} {non non' : List (Sign × N)}
    {l : List (Sign × ApTerm R N)} (h : sortTerms v lin non l = some (lin', non')) :
    lin' = lin ++ linTerms l ∧ non' = non ++ nonTerms l ∧
      ∀ p ∈ l, ∀ a, p.2 = .lin a → a.comps.head? = some (v, true) := by
  induction l generalizing lin non with
  | nil => simp only [sortTerms, Option.some.injEq, Prod.mk.injEq] at h; simp [linTerms, nonTerms, h]
  | cons p l ih =>
    obtain ⟨s, t⟩ := p
    cases t with
    | lin a =>
      simp only [sortTerms, Option.bind_eq_some_iff] at h
      obtain ⟨a', ha, l', hl, h⟩ := h
      obtain ⟨h1, h2, h3⟩ := ih h
      unfold removeTest at ha
      cases hc : a.comps with
      | nil => rw [hc] at ha; simp at ha
      | cons q cs =>
        rw [hc] at ha
        simp only at ha
        split_ifs at ha with hq
        simp only [Option.some.injEq] at ha
        subst ha
        rw [addTo_eq hl] at h1
        refine ⟨by rw [h1]; simp [linTerms, hc], by rw [h2]; simp [nonTerms], ?_⟩
        intro p hp b hb
        rcases List.mem_cons.1 hp with rfl | hp
        · simp only [ApTerm.lin.injEq] at hb
          subst hb
          rw [hc, ← hq.1, ← hq.2]
          rfl
        · exact h3 p hp b hb
    | non n =>
      simp only [sortTerms] at h
      obtain ⟨h1, h2, h3⟩ := ih h
      refine ⟨by rw [h1]; simp [linTerms], by rw [h2]; simp [nonTerms], ?_⟩
      intro p hp b hb
      rcases List.mem_cons.1 hp with rfl | hp
      · simp at hb
      · exact h3 p hp b hb

/-- Left and right terms of equation `i`. -/
def leftOf (rows : Rows R N) (i : ℕ) : List (Sign × ApTerm R N) :=
  ((rows[i]?).map fun r => r.2.1).getD []
def rightOf (rows : Rows R N) (i : ℕ) : List (Sign × ApTerm R N) :=
  ((rows[i]?).map fun r => r.2.2).getD []

/-- What holds of a proxy at any time. -/
structure Good [MulOneClass R] (rows : Rows R N) (mp : MP R N) : Prop where
  num : mp.num = rows.length
  llen : mp.lbv.length = rows.length
  rlen : mp.rbv.length = rows.length
  left : ∀ i, (sideTerms mp.lmvs mp.lbv i).Perm (linTerms (leftOf rows i))
  right : ∀ i, (sideTerms mp.rmvs mp.rbv i).Perm (linTerms (rightOf rows i))
  lnon : ∀ i, mp.lnon.getD i [] = nonTerms (leftOf rows i)
  rnon : ∀ i, mp.rnon.getD i [] = nonTerms (rightOf rows i)
  lnlen : mp.lnon.length = rows.length
  rnlen : mp.rnon.length = rows.length
  rect : ∀ mv, mv ∈ mp.lmvs ∨ mv ∈ mp.rmvs → mv.1.rows.length = rows.length ∧
    ∃ ts : List Comp, mv.1.cols = ts.length ∧ ts.length ≤ rows.length ∧
      mv.2 = targetVector rows.length ts ∧ ∀ row ∈ mv.1.rows, row.length = ts.length

theorem init_good [MulOneClass R] {rows : Rows R N} {mp : MP R N} (h : init rows = some mp) :
    Good rows mp := by
  unfold init at h
  simp only [Option.bind_eq_some_iff, Option.map_eq_some_iff] at h
  obtain ⟨ls, hls, rs, hrs, rfl⟩ := h
  obtain ⟨l1, l2⟩ := mapOpt_get hls
  obtain ⟨r1, r2⟩ := mapOpt_get hrs
  have hL : ∀ i, ((ls.map Prod.fst).getD i [] = linTerms (leftOf rows i)) ∧
      ((ls.map Prod.snd).getD i [] = nonTerms (leftOf rows i)) := by
    intro i
    cases hr : rows[i]? with
    | none =>
      have : ls[i]? = none := by rw [List.getElem?_eq_none_iff] at hr ⊢; omega
      simp [List.getD, this, leftOf, hr, linTerms, nonTerms]
    | some r =>
      obtain ⟨p, hp, hpi⟩ := l2 i r hr
      obtain ⟨h1, h2, _⟩ := sortTerms_eq (lin' := p.1) (non' := p.2) hp
      simp [List.getD, hpi, leftOf, hr, h1, h2]
  have hR : ∀ i, ((rs.map Prod.fst).getD i [] = linTerms (rightOf rows i)) ∧
      ((rs.map Prod.snd).getD i [] = nonTerms (rightOf rows i)) := by
    intro i
    cases hr : rows[i]? with
    | none =>
      have : rs[i]? = none := by rw [List.getElem?_eq_none_iff] at hr ⊢; omega
      simp [List.getD, this, rightOf, hr, linTerms, nonTerms]
    | some r =>
      obtain ⟨p, hp, hpi⟩ := r2 i r hr
      obtain ⟨h1, h2, _⟩ := sortTerms_eq (lin' := p.1) (non' := p.2) hp
      simp [List.getD, hpi, rightOf, hr, h1, h2]
  refine ⟨rfl, by simpa using l1, by simpa using r1, ?_, ?_, fun i => (hL i).2, fun i => (hR i).2,
    by simpa using l1, by simpa using r1, by simp⟩
  · intro i; simp only [sideTerms, List.flatMap_nil, List.nil_append]; rw [(hL i).1]
  · intro i; simp only [sideTerms, List.flatMap_nil, List.nil_append]; rw [(hR i).1]

theorem product_empty [Mul R] (m : BM R) (w : BV R) (h : m.isEmpty = true) (i : ℕ) :
    product (m.rows.getD i []) w = [] := by
  unfold product
  rw [List.flatMap_eq_nil_iff]
  intro p hp
  have hm := (List.of_mem_zip hp).1
  have hrow : m.rows.getD i [] ∈ m.rows := by
    unfold List.getD at hm ⊢
    cases hr : m.rows[i]? with
    | none => rw [hr] at hm; simp at hm
    | some r => exact List.mem_of_getElem? (by simpa using hr)
  unfold BM.isEmpty at h
  rw [List.all_eq_true] at h
  have := h _ hrow
  rw [List.all_eq_true] at this
  have := this _ hm
  rw [List.isEmpty_iff] at this
  simp [this]

theorem keep_terms [MulOneClass R] (mvs : List (BM R × BV R)) (m : BM R) (rem bv : BV R)
    (num : ℕ) (targets : List Comp) (h : parseSide targets bv = some (m, rem)) (i : ℕ) :
    (sideTerms (keep mvs m (targetVector num targets)) rem i).Perm (sideTerms mvs bv i) := by
  obtain ⟨h1, h2, h3, h4⟩ := parseSide_rows h
  have hp := (h4 i).1
  have hprod : product (m.rows.getD i []) (targetVector num targets) =
      product (m.rows.getD i []) (tv targets) := by
    unfold targetVector
    by_cases hr : m.rows.getD i [] = []
    · rw [hr]; simp [product]
    · rw [product_append]; · rfl
      have : m.rows.getD i [] ∈ m.rows := by
        unfold List.getD at hr ⊢
        cases hr' : m.rows[i]? with
        | none => rw [hr'] at hr; simp at hr
        | some r => exact List.mem_of_getElem? (by simpa using hr')
      rw [(h4 i).2.2 _ this]; simp
  unfold keep sideTerms
  by_cases he : m.isEmpty = true
  · rw [if_pos he]
    rw [product_empty m _ he i, List.nil_append] at hp
    exact hp.append_left _
  · rw [if_neg he, List.flatMap_append]
    simp only [List.flatMap_cons, List.flatMap_nil, List.append_nil, hprod]
    rw [List.append_assoc]
    exact hp.append_left _

theorem rect_keep [MulOneClass R] {rows : Rows R N} {mvs : List (BM R × BV R)} {m : BM R} {rem bv : BV R}
    {targets : List Comp} (hb : bv.length = rows.length) (hn : targets.length ≤ rows.length)
    (h : parseSide targets bv = some (m, rem)) (mv : BM R × BV R)
    (hm : mv ∈ keep mvs m (targetVector rows.length targets)) :
    mv ∈ mvs ∨ (mv.1.rows.length = rows.length ∧
    ∃ ts : List Comp, mv.1.cols = ts.length ∧ ts.length ≤ rows.length ∧
      mv.2 = targetVector rows.length ts ∧ ∀ row ∈ mv.1.rows, row.length = ts.length) := by
  obtain ⟨h1, h2, h3, h4⟩ := parseSide_rows h
  unfold keep at hm
  split_ifs at hm
  · exact Or.inl hm
  · rcases List.mem_append.1 hm with hm | hm
    · exact Or.inl hm
    · simp only [List.mem_singleton] at hm
      subst hm
      exact Or.inr ⟨h2.trans hb, targets, h1, hn, rfl, (h4 0).2.2⟩

theorem parse_good [MulOneClass R] {rows : Rows R N} {mp : MP R N} (g : Good rows mp)
    (targets : List Comp) : Good rows (parse mp targets).1 := by
  unfold parse
  by_cases hn : mp.num < targets.length
  · rw [if_pos hn]; exact g
  · rw [if_neg hn]
    simp only
    cases hl : parseSide targets mp.lbv with
    | none => exact g
    | some l =>
      obtain ⟨lm, lr⟩ := l
      simp only
      have hn' : targets.length ≤ rows.length := by rw [← g.num]; omega
      have e : targetVector mp.num targets = targetVector (R := R) rows.length targets := by rw [g.num]
      obtain ⟨l1, l2, l3, l4⟩ := parseSide_rows hl
      have g1 : Good rows { mp with lmvs := keep mp.lmvs lm (targetVector mp.num targets), lbv := lr } := by
        refine ⟨g.num, l3.trans g.llen, g.rlen, fun i => (keep_terms _ _ _ _ _ _ hl i).trans (g.left i),
          g.right, g.lnon, g.rnon, g.lnlen, g.rnlen, ?_⟩
        rintro mv (hm | hm)
        · rw [e] at hm
          rcases rect_keep g.llen hn' hl mv hm with h | h
          · exact g.rect mv (Or.inl h)
          · exact h
        · exact g.rect mv (Or.inr hm)
      cases hr : parseSide targets mp.rbv with
      | none => exact g1
      | some r =>
        obtain ⟨rm, rr⟩ := r
        obtain ⟨r1, r2, r3, r4⟩ := parseSide_rows hr
        refine ⟨g1.num, g1.llen, r3.trans g.rlen, g1.left,
          fun i => (keep_terms _ _ _ _ _ _ hr i).trans (g.right i), g1.lnon, g1.rnon, g1.lnlen,
          g1.rnlen, ?_⟩
        rintro mv (hm | hm)
        · exact g1.rect mv (Or.inl hm)
        · simp only at hm
          rw [e] at hm
          rcases rect_keep g.rlen hn' hr mv hm with h | h
          · exact g.rect mv (Or.inr h)
          · exact h

theorem parses_good [MulOneClass R] {rows : Rows R N} {mp : MP R N} (g : Good rows mp)
    (calls : List (List Comp)) : Good rows (parses mp calls) := by
  unfold parses
  induction calls generalizing mp with
  | nil => exact g
  | cons t calls ih => exact ih (parse_good g t)

theorem make_good [MulOneClass R] {rows : Rows R N} {us : List Comp} {mp : MP R N}
    (h : make rows us = some mp) : Good rows mp := by
  unfold make at h
  simp only [Option.bind_eq_some_iff] at h
  obtain ⟨mp0, h0, h⟩ := h
  split_ifs at h
  simp only [Option.some.injEq] at h
  subst h
  exact parse_good (init_good h0) us

/-- C08, terms. Whatever is parsed, in whatever order, and whether or not some calls raise: on each
side of each row the terms collected in matrix-vector products, multiplied out, together with the
remaining terms, are exactly the linear terms of the equation without their test vector, with their
signs and factors, none lost and none duplicated; the nonlinear terms are untouched. -/
theorem parse_keeps_terms [CommRing R] {rows : Rows R N} {us : List Comp} {mp : MP R N}
    (h : make rows us = some mp) (calls : List (List Comp)) (i : ℕ) :
    (sideTerms (parses mp calls).lmvs (parses mp calls).lbv i).Perm (linTerms (leftOf rows i)) ∧
    (sideTerms (parses mp calls).rmvs (parses mp calls).rbv i).Perm (linTerms (rightOf rows i)) ∧
    (parses mp calls).lnon.getD i [] = nonTerms (leftOf rows i) ∧
    (parses mp calls).rnon.getD i [] = nonTerms (rightOf rows i) := by
  have g := parses_good (make_good h) calls
  exact ⟨g.left i, g.right i, g.lnon i, g.rnon i⟩

section
variable {A : Type} [CommRing R] [Ring A] [Algebra R A]

theorem total_append {T : Type} (f : T → A) (l m : List (Sign × T)) :
    total f (l ++ m) = total f l + total f m := by simp [total]

theorem total_perm {T : Type} (f : T → A) {l m : List (Sign × T)} (h : l.Perm m) :
    total f l = total f m := (h.map _).sum_eq

theorem act_mul' (s t : Sign) (x y : A) : (s.mul t).act (x * y) = s.act x * t.act y := by
  cases s <;> cases t <;> simp [Sign.mul, Sign.flip, Sign.act]

theorem val_matmul (v : Val A) (a b : Arr R) : (a.matmul b).val v = a.val v * b.val v := by
  simp only [Arr.val, Arr.matmul, List.map_append, List.prod_append]
  rw [smul_mul_smul_comm]

theorem total_cells (v : Val A) (c d : Cell R) :
    total (Arr.val v) (c.flatMap fun x => d.map fun q => (x.1.mul q.1, x.2.matmul q.2)) =
      total (Arr.val v) c * total (Arr.val v) d := by
  induction c with
  | nil => simp [total]
  | cons x c ih =>
    rw [List.flatMap_cons, total_append, ih]
    have : total (Arr.val v) (d.map fun q => (x.1.mul q.1, x.2.matmul q.2)) =
        x.1.act (Arr.val v x.2) * total (Arr.val v) d := by
      clear ih
      induction d with
      | nil => simp [total]
      | cons q d ihd =>
        simp only [total, List.map_cons, List.sum_cons, List.map_map] at ihd ⊢
        rw [mul_add, ← ihd, val_matmul, act_mul']
    rw [this]
    simp [total, add_mul]

theorem total_product (v : Val A) (row : List (Cell R)) (w : BV R) :
    total (Arr.val v) (product row w) =
      ((row.zip w).map fun p => total (Arr.val v) p.1 * total (Arr.val v) p.2).sum := by
  unfold product
  induction row.zip w with
  | nil => simp [total]
  | cons p l ih => rw [List.flatMap_cons, total_append, ih, total_cells]; simp

theorem total_sideTerms (v : Val A) (mvs : List (BM R × BV R)) (rem : BV R) (i : ℕ) :
    total (Arr.val v) (sideTerms mvs rem i) =
      (mvs.map fun mv => mvValue v mv i).sum + total (Arr.val v) (rem.getD i []) := by
  unfold sideTerms
  rw [total_append]
  congr 1
  induction mvs with
  | nil => simp [total]
  | cons mv mvs ih => rw [List.flatMap_cons, total_append, ih, total_product]; simp [mvValue]

theorem total_split (v : Val A) (ν : N → A) (l : List (Sign × ApTerm R N)) :
    total (Arr.val v) (linTerms l) + total ν (nonTerms l) = total (ApTerm.val v ν) l := by
  induction l with
  | nil => simp [linTerms, nonTerms, total]
  | cons p l ih =>
    obtain ⟨s, t⟩ := p
    cases t with
    | lin a =>
      have h1 : linTerms ((s, ApTerm.lin a) :: l) =
        (s, ⟨a.factor, a.comps.tail⟩) :: linTerms (N := N) l := by simp [linTerms]
      have h2 : nonTerms ((s, ApTerm.lin a) :: l) = nonTerms (N := N) l := by simp [nonTerms]
      rw [h1, h2]
      simp only [total, List.map_cons, List.sum_cons] at ih ⊢
      rw [add_assoc, ih]; rfl
    | non n =>
      have h1 : linTerms ((s, ApTerm.non n) :: l) = linTerms (R := R) l := by simp [linTerms]
      have h2 : nonTerms ((s, (ApTerm.non n : ApTerm R N)) :: l) = (s, n) :: nonTerms l := by
        simp [nonTerms]
      rw [h1, h2]
      simp only [total, List.map_cons, List.sum_cons] at ih ⊢
      rw [add_left_comm, ih]; rfl

/-- C08, values. Whatever is parsed, each side of each row has the value of the terms of that side
of the equation (without their test vector): block matrices times vectors, plus remaining terms, plus
nonlinear terms. -/
theorem parse_keeps_value {rows : Rows R N} {us : List Comp} {mp : MP R N}
    (h : make rows us = some mp) (calls : List (List Comp)) (v : Val A) (ν : N → A) (i : ℕ) :
    sideValue v ν (parses mp calls).lmvs (parses mp calls).lbv (parses mp calls).lnon i =
      total (ApTerm.val v ν) (leftOf rows i) ∧
    sideValue v ν (parses mp calls).rmvs (parses mp calls).rbv (parses mp calls).rnon i =
      total (ApTerm.val v ν) (rightOf rows i) := by
  have g := parses_good (make_good h) calls
  unfold sideValue
  rw [← total_sideTerms, ← total_sideTerms, total_perm _ (g.left i), total_perm _ (g.right i), g.lnon,
    g.rnon, total_split, total_split]
  exact ⟨rfl, rfl⟩

/-! ### C09 -/

theorem mvTerms_eq {row : List (Cell R)} {w : BV R} {c : Cell R} (h : mvTerms row w = some c) :
    c = product row w := by
  unfold mvTerms at h
  simp only [Option.map_eq_some_iff] at h
  obtain ⟨cs, hcs, rfl⟩ := h
  unfold product
  generalize row.zip w = l at *
  induction l generalizing cs with
  | nil => simp only [mapOpt, Option.some.injEq] at hcs; subst hcs; rfl
  | cons p l ih =>
    simp only [mapOpt, Option.bind_eq_some_iff, Option.map_eq_some_iff] at hcs
    obtain ⟨b, hb, bs, hbs, rfl⟩ := hcs
    rw [List.flatten_cons, List.flatMap_cons, ih bs hbs]
    congr 1
    obtain ⟨c, d⟩ := p
    match d, hb with
    | [q], hb =>
      simp only [Option.some.injEq] at hb
      subst hb
      simp only [List.map_cons, List.map_nil]
      rw [List.map_eq_flatMap]
      congr 1
      funext x
      obtain ⟨s, _⟩ := q
      obtain ⟨t, _⟩ := x
      cases s <;> cases t <;> rfl

theorem rhsRow_eq {rmvs : List (BM R × BV R)} {rem c : Cell R} {i : ℕ} (bv : BV R)
    (hb : bv[i]? = some rem) (h : rhsRow rmvs rem i = some c) : c = sideTerms rmvs bv i := by
  unfold rhsRow at h
  simp only [Option.bind_eq_some_iff] at h
  obtain ⟨cs, hcs, h⟩ := h
  rw [addAll_eq h, List.nil_append]
  unfold sideTerms
  congr 1
  · clear h
    induction rmvs generalizing cs with
    | nil => simp only [mapOpt, Option.some.injEq] at hcs; subst hcs; rfl
    | cons mv rmvs ih =>
      simp only [mapOpt, Option.bind_eq_some_iff, Option.map_eq_some_iff] at hcs
      obtain ⟨b, ⟨row, hrow, hb'⟩, bs, hbs, rfl⟩ := hcs
      rw [List.flatten_cons, List.flatMap_cons, ih bs hbs, mvTerms_eq hb']
      simp [List.getD, hrow]
  · simp [List.getD, hb]

/-- What a successful `_parse_ls` says about the proxy. -/
theorem parseLs_eq {mp : MP R N} {M : BM R} {x b : BV R} (h : parseLs mp = some (M, x, b)) :
    mp.lbv.isEmpty = true ∧ mp.lmvs = [(M, x)] ∧ M.cols = M.rows.length ∧ x.length = M.rows.length ∧
    b.length = mp.rbv.length ∧ b.length = M.rows.length ∧ (∀ c ∈ x, isUnknown c = true) ∧
    ∀ i, i < mp.rbv.length → b.getD i [] = sideTerms mp.rmvs mp.rbv i := by
  unfold parseLs at h
  split_ifs at h with he
  split at h
  · rename_i A x' hm
    simp only [Option.bind_eq_some_iff] at h
    obtain ⟨b', hb', h⟩ := h
    unfold linearSystem at h
    split_ifs at h with hc
    simp only [Option.map_eq_some_iff, Prod.mk.injEq] at h
    obtain ⟨_, _, rfl, rfl, rfl⟩ := h
    obtain ⟨hl, hg⟩ := mapOpt_get hb'
    refine ⟨he, hm, hc.2.1.symm, by omega, by simpa using hl, by omega, hc.1, ?_⟩
    intro i hi
    obtain ⟨c, h1, h2⟩ := hg i i (by simp [hi])
    simp only [Option.bind_eq_some_iff] at h1
    obtain ⟨rem, h1, h3⟩ := h1
    rw [← rhsRow_eq mp.rbv h1 h3]
    simp [List.getD, h2]
  · simp at h

theorem linear_empty {mp : MP R N} (h : mp.linear = true) (i : ℕ) :
    mp.lnon.getD i [] = [] ∧ mp.rnon.getD i [] = [] := by
  unfold MP.linear at h
  simp only [Bool.and_eq_true, List.all_eq_true, List.isEmpty_iff] at h
  have : ∀ l : List (List (Sign × N)), (∀ x ∈ l, x = []) → l.getD i [] = [] := by
    intro l hl
    unfold List.getD
    cases hr : l[i]? with
    | none => rfl
    | some y => simpa using hl y (List.mem_of_getElem? hr)
  exact ⟨this _ h.1, this _ h.2⟩

/-- The rows of the system `M x = b`. -/
def Solves (v : Val A) (M : BM R) (x b : BV R) : Prop :=
  ∀ i < M.rows.length, mvValue v (M, x) i = total (Arr.val v) (b.getD i [])

/-- C09. When `mp.ls()` returns `A x = b`, after any calls of `parse`, the system has one row for each
equation, and it holds, for any values of the vectors and matrices, exactly when all equations
hold. -/
theorem ls_exact {rows : Rows R N} {us : List Comp} {mp : MP R N} (h : make rows us = some mp)
    (calls : List (List Comp)) {M : BM R} {x b : BV R} (hs : ls (parses mp calls) = some (M, x, b))
    (v : Val A) (ν : N → A) :
    M.rows.length = rows.length ∧ M.cols = rows.length ∧ x.length = rows.length ∧
    b.length = rows.length ∧
    (Solves v M x b ↔ ∀ i < rows.length,
      total (ApTerm.val v ν) (leftOf rows i) = total (ApTerm.val v ν) (rightOf rows i)) := by
  have g := parses_good (make_good h) calls
  unfold ls at hs
  split_ifs at hs with hlin
  obtain ⟨h1, h2, h3, h4, h5, h6, _, h7⟩ := parseLs_eq hs
  have hnum : M.rows.length = rows.length := (g.rect (M, x) (Or.inl (by simp [h2]))).1
  refine ⟨hnum, by omega, by omega, by omega, ?_⟩
  unfold Solves
  rw [hnum]
  refine forall₂_congr fun i hi => ?_
  obtain ⟨e1, e2⟩ := parse_keeps_value h calls v ν i
  obtain ⟨n1, n2⟩ := linear_empty hlin i
  have hrem : (parses mp calls).lbv.getD i [] = [] := by
    unfold BV.isEmpty at h1
    simp only [List.all_eq_true, List.isEmpty_iff] at h1
    unfold List.getD
    cases hr : (parses mp calls).lbv[i]? with
    | none => rfl
    | some y => simpa using h1 y (List.mem_of_getElem? hr)
  rw [← e1, ← e2]
  unfold sideValue
  rw [h2, hrem, n1, n2, h7 i (by rw [g.rlen]; exact hi), total_sideTerms]
  simp [total]

/-- C09 for `nls()`: the linear system together with the nonlinear terms of the left side. -/
theorem nls_exact {rows : Rows R N} {us : List Comp} {mp : MP R N} (h : make rows us = some mp)
    (calls : List (List Comp)) {M : BM R} {x b : BV R} {nl : List (List (Sign × N))}
    (hs : nls (parses mp calls) = some ((M, x, b), nl)) (v : Val A) (ν : N → A) :
    M.rows.length = rows.length ∧ nl.length = rows.length ∧
    ((∀ i < rows.length, mvValue v (M, x) i + total ν (nl.getD i []) = total (Arr.val v) (b.getD i [])) ↔
      ∀ i < rows.length,
        total (ApTerm.val v ν) (leftOf rows i) = total (ApTerm.val v ν) (rightOf rows i)) := by
  have g := parses_good (make_good h) calls
  unfold nls at hs
  rw [if_neg (by intro hl; rw [if_pos hl] at hs; simp at hs)] at hs
  simp only [Option.bind_eq_some_iff] at hs
  obtain ⟨s, hs, hr⟩ := hs
  split_ifs at hr with hrn
  simp only [Option.some.injEq, Prod.mk.injEq] at hr
  obtain ⟨rfl, rfl⟩ := hr
  obtain ⟨h1, h2, h3, h4, h5, h6, _, h7⟩ := parseLs_eq hs
  have hnum : M.rows.length = rows.length := (g.rect (M, x) (Or.inl (by simp [h2]))).1
  refine ⟨hnum, g.lnlen, ?_⟩
  refine forall₂_congr fun i hi => ?_
  obtain ⟨e1, e2⟩ := parse_keeps_value h calls v ν i
  have hrem : (parses mp calls).lbv.getD i [] = [] := by
    unfold BV.isEmpty at h1
    simp only [List.all_eq_true, List.isEmpty_iff] at h1
    unfold List.getD
    cases hr : (parses mp calls).lbv[i]? with
    | none => rfl
    | some y => simpa using h1 y (List.mem_of_getElem? hr)
  have hrnon : (parses mp calls).rnon.getD i [] = [] := by
    simp only [List.all_eq_true, List.isEmpty_iff] at hrn
    unfold List.getD
    cases hr : (parses mp calls).rnon[i]? with
    | none => rfl
    | some y => simpa using hrn y (List.mem_of_getElem? hr)
  rw [← e1, ← e2]
  unfold sideValue
  rw [h2, hrem, hrnon, h7 i (by rw [g.rlen]; exact hi), total_sideTerms]
  simp [total]

end

/-- The last component of a product of terms with the vector of the targets is a target. -/
theorem product_endsIn [CommRing R] (row : List (Cell R)) (num : ℕ) (ts : List Comp) :
    ∀ y ∈ product row (targetVector num ts), y.2.endsIn ts := by
  intro y hy
  unfold product at hy
  simp only [List.mem_flatMap, List.mem_map] at hy
  obtain ⟨p, hp, z, hz, q, hq, rfl⟩ := hy
  have := (List.of_mem_zip hp).2
  unfold targetVector at this
  rcases List.mem_append.1 this with h | h
  · simp only [List.mem_map] at h
    obtain ⟨t, ht, e⟩ := h
    rw [← e] at hq
    simp only [List.mem_singleton] at hq
    subst hq
    exact ⟨t, ht, by simp [Arr.matmul, single]⟩
  · rw [List.mem_replicate] at h
    rw [h.2] at hq; simp at hq

/-- C09, the vector and the refusals. If `ls()` or `nls()` returns a system, its unknown vector is the
list of the targets of one call of `parse`, as many as there are equations, and every linear term of
every left side ends with one of them. So a proxy with a left term not yet collected is refused. -/
theorem ls_collected [CommRing R] {rows : Rows R N} {us : List Comp} {mp : MP R N}
    (h : make rows us = some mp) (calls : List (List Comp)) {M : BM R} {x b : BV R}
    (hs : parseLs (parses mp calls) = some (M, x, b)) :
    ∃ ts : List Comp, ts.length = rows.length ∧
      x = (ts.map fun t => [(Sign.pos, single t)]) ∧
      ∀ i, ∀ p ∈ leftOf rows i, ∀ a, p.2 = .lin a →
        (⟨a.factor, a.comps.tail⟩ : Arr R).endsIn ts := by
  have g := parses_good (make_good h) calls
  obtain ⟨h1, h2, h3, h4, h5, h6, hu, h7⟩ := parseLs_eq hs
  obtain ⟨hr, ts, hc, hle, hx, hrows⟩ := g.rect (M, x) (Or.inl (by simp [h2]))
  simp only at hr hc hx
  have hts : ts.length = rows.length := by omega
  have hx' : x = (ts.map fun t => [(Sign.pos, single t)]) := by
    rw [hx]; unfold targetVector; simp [hts]
  refine ⟨ts, hts, hx', ?_⟩
  intro i p hp a ha
  have hmem : (p.1, (⟨a.factor, a.comps.tail⟩ : Arr R)) ∈ linTerms (leftOf rows i) := by
    unfold linTerms
    rw [List.mem_filterMap]
    exact ⟨p, hp, by rw [ha]⟩
  rw [← (g.left i).mem_iff] at hmem
  have hrem : (parses mp calls).lbv.getD i [] = [] := by
    unfold BV.isEmpty at h1
    simp only [List.all_eq_true, List.isEmpty_iff] at h1
    unfold List.getD
    cases hr : (parses mp calls).lbv[i]? with
    | none => rfl
    | some y => simpa using h1 y (List.mem_of_getElem? hr)
  unfold sideTerms at hmem
  rw [h2, hrem] at hmem
  simp only [List.flatMap_cons, List.flatMap_nil, List.append_nil] at hmem
  rw [hx] at hmem
  exact product_endsIn _ _ _ _ hmem

/-! ### Example -/

def cv : Comp := ⟨0, 3, 1⟩
def cu : Comp := ⟨1, 3, 1⟩
def cp : Comp := ⟨2, 2, 1⟩
def cq : Comp := ⟨3, 2, 1⟩
def cM : Comp := ⟨4, 3, 3⟩
def cE : Comp := ⟨5, 2, 3⟩
def cu0 : Comp := ⟨6, 3, 1⟩
def cf : Comp := ⟨7, 3, 1⟩

/-- `2 vᵀMu - vᵀEᵀp = vᵀMu₀ - vᵀf` and `-qᵀEu = 0`. -/
def exRows : Rows ℤ ℕ :=
  [(cv, [(.pos, .lin ⟨2, [(cv, true), (cM, false), (cu, false)]⟩),
         (.neg, .lin ⟨1, [(cv, true), (cE, true), (cp, false)]⟩)],
        [(.pos, .lin ⟨1, [(cv, true), (cM, false), (cu0, false)]⟩),
         (.neg, .lin ⟨1, [(cv, true), (cf, false)]⟩)]),
   (cq, [(.neg, .lin ⟨1, [(cq, true), (cE, false), (cu, false)]⟩)], [])]

/-- The proxy of the example is made, `parse([u₀])` succeeds, and a system is returned. -/
example : ((make exRows [cu, cp]).bind fun mp => ls (parses mp [[cu0]])).isSome = true := by
  decide +kernel

/-- Moving `u₀` to the left side makes `ls` refuse. -/
example : (make
    [(cv, [(.pos, (.lin ⟨1, [(cv, true), (cM, false), (cu, false)]⟩ : ApTerm ℤ ℕ)),
           (.neg, .lin ⟨1, [(cv, true), (cM, false), (cu0, false)]⟩)], [])] [cu]).isSome = true ∧
    ((make [(cv, [(.pos, (.lin ⟨1, [(cv, true), (cM, false), (cu, false)]⟩ : ApTerm ℤ ℕ)),
           (.neg, .lin ⟨1, [(cv, true), (cM, false), (cu0, false)]⟩)], [])] [cu]).bind ls).isNone =
      true := by decide +kernel

/-- The unknown vector of a returned system need not be that of the unknowns: here the unknown `u`
occurs on the right side only, and the system that is returned, after `parse([u₀])`, is one for
`u₀`. -/
theorem ls_unknowns_refuted :
    ∃ (rows : Rows ℤ ℕ) (us : List Comp) (mp : MP ℤ ℕ) (calls : List (List Comp)) (M : BM ℤ) (x b : BV ℤ),
      make rows us = some mp ∧ ls (parses mp calls) = some (M, x, b) ∧
      x ≠ us.map fun t => [(Sign.pos, single t)] := by
  refine ⟨[(cv, [(.pos, .lin ⟨1, [(cv, true), (cM, false), (cu0, false)]⟩)],
    [(.pos, .lin ⟨1, [(cv, true), (cM, false), (cu, false)]⟩)])], [cu], _, [[cu0]], _, _, _, rfl, rfl, ?_⟩
  decide +kernel

end Phyem.MatrixProxy
