import Verif.Chaining.Dist

/-!
Properties C25 and C26.
-/

namespace Phyem.Chaining

/-! ### C25 -/

/-- Chaining by offsets (method 1): for gathering matrices over the same elements, each using the numbers
`0 … n - 1` with `n > 0`, the result exists and numbers the dofs of all unknowns; two dofs coincide exactly if they
belong to the same unknown and coincide there, and the numbers are `0 … Σ n - 1`. -/
theorem chain1_spec {g : GM} {gs : List GM} {ns : List ℕ} (hlen : ∀ h ∈ gs, h.length = g.length)
    (hns : ns.length = (g :: gs).length)
    (hc : ∀ (i : ℕ) (h : GM) (n : ℕ), (g :: gs)[i]? = some h → ns[i]? = some n → 0 < n ∧ Contiguous h.flatten n) :
    ∃ out, chain1 (g :: gs) = some out ∧ out.length = g.length ∧
      IsChaining (· < g.length) (fun e => (g :: gs).map fun h => rowOf h e) (rowOf out) ns.sum := by
  have hlen' : ∀ h ∈ g :: gs, h.length = g.length := by
    intro h hh; rcases List.mem_cons.mp hh with rfl | hh; exacts [rfl, hlen h hh]
  have hat : ∀ (i : ℕ) (h : GM), (g :: gs)[i]? = some h → ∃ n, ns[i]? = some n ∧ numDofs h = some n ∧
      Contiguous h.flatten n := by
    intro i h hi
    have hi' : i < ns.length := by rw [hns]; exact (List.getElem?_eq_some_iff.mp hi).1
    have hn := List.getElem?_eq_getElem hi'
    obtain ⟨a, b⟩ := hc i h _ hi hn
    exact ⟨_, hn, numDofs_eq a b, b⟩
  obtain ⟨ms, hms⟩ := allDofs_isSome (gms := g :: gs) (by
    intro h hh
    obtain ⟨i, hi⟩ := List.mem_iff_getElem?.mp hh
    obtain ⟨n, _, hn, _⟩ := hat i h hi
    exact ⟨n, hn⟩)
  have hmn : ms = ns := by
    obtain ⟨l1, l2⟩ := allDofs_spec hms
    apply List.ext_getElem?
    intro i
    by_cases hi : i < (g :: gs).length
    · have hg := List.getElem?_eq_getElem hi
      obtain ⟨n, h1, h2⟩ := l2 i _ hg
      obtain ⟨n', h3, h4, _⟩ := hat i _ hg
      rw [h1, h3, ← h2, ← h4]
    · rw [List.getElem?_eq_none (by omega), List.getElem?_eq_none (by omega)]
  subst hmn
  refine ⟨(List.range g.length).map fun e => hrow e (g :: gs) ms 0, ?_, by simp, ?_⟩
  · unfold chain1
    simp only
    rw [if_pos hlen', hms]; rfl
  · refine isChaining_of_map (fun x => x.2 + (0 + offset ms x.1)) ?_ ?_ ?_
    · intro e he
      rw [← hrow_eq e (g :: gs) ms 0 hns]
      unfold rowOf
      rw [List.getElem?_map, List.getElem?_range he]; rfl
    · intro e e' x y he he' hx hy hxy
      have key : ∀ {e x}, e < g.length → x ∈ dofsOf ((g :: gs).map fun h => rowOf h e) →
          ∃ n, ms[x.1]? = some n ∧ x.2 < n := by
        intro e x he hx
        obtain ⟨r, hr, hx⟩ := mem_dofsOf.mp hx
        rw [List.getElem?_map] at hr
        cases hg : (g :: gs)[x.1]? with
        | none => rw [hg] at hr; simp at hr
        | some h =>
          rw [hg] at hr
          simp only [Option.map_some, Option.some.injEq] at hr
          obtain ⟨n, hn, _, hco⟩ := hat _ _ hg
          refine ⟨n, hn, (hco _).mp (mem_rows.mpr ⟨e, ?_, by rw [hr]; exact hx⟩)⟩
          rw [hlen' h (List.mem_of_getElem? hg)]; exact he
      obtain ⟨n, hn, hx⟩ := key he hx
      obtain ⟨m, hm, hy⟩ := key he' hy
      have := offset_inj hn hm hx hy (by omega)
      exact Prod.ext this.1 this.2
    · intro v
      constructor
      · rintro ⟨e, x, he, hx, rfl⟩
        obtain ⟨r, hr, hx⟩ := mem_dofsOf.mp hx
        rw [List.getElem?_map] at hr
        cases hg : (g :: gs)[x.1]? with
        | none => rw [hg] at hr; simp at hr
        | some h =>
          rw [hg] at hr
          simp only [Option.map_some, Option.some.injEq] at hr
          obtain ⟨n, hn, _, hco⟩ := hat _ _ hg
          have hlt : x.2 < n := (hco _).mp (mem_rows.mpr ⟨e, by
            rw [hlen' h (List.mem_of_getElem? hg)]; exact he, by rw [hr]; exact hx⟩)
          have h1 := offset_succ ms _ _ hn
          have h2 : offset ms (x.1 + 1) ≤ ms.sum := by
            have := offset_mono ms (i := x.1 + 1) (j := ms.length)
              (by have := (List.getElem?_eq_some_iff.mp hn).1; omega)
            simpa [offset] using this
          omega
      · intro hv
        obtain ⟨i, n, a, h1, h2, h3⟩ := offset_find hv
        have hi : i < (g :: gs).length := by rw [← hns]; exact (List.getElem?_eq_some_iff.mp h1).1
        have hg := List.getElem?_eq_getElem hi
        obtain ⟨n', hn', _, hco⟩ := hat i _ hg
        rw [h1] at hn'
        simp only [Option.some.injEq] at hn'
        subst hn'
        obtain ⟨e, he, hae⟩ := mem_rows.mp ((hco a).mpr h2)
        refine ⟨e, (i, a), ?_, mem_dofsOf.mpr ⟨_, ?_, hae⟩, ?_⟩
        · rw [hlen' _ (List.getElem_mem hi)] at he; exact he
        · rw [List.getElem?_map, hg]; rfl
        · simp only; omega

/-- Two unknowns over two elements. -/
example : chain1 [[[0, 1], [1, 2]], [[0], [1]]] = some [[0, 1, 3], [1, 2, 4]] ∧
    Contiguous [[0, 1], [1, 2]].flatten 3 ∧ Contiguous [[0], [1]].flatten 2 := by
  refine ⟨by decide +kernel, ?_, ?_⟩ <;> intro v <;> simp <;> omega

/-- Element-by-element chaining (method 0), for gathering matrices whose numbers appear in order of the elements.
For other gathering matrices see `chain0_refuted`. -/
theorem chain0_partial {g : GM} {gs : List GM} (b : ℕ → ℕ → ℕ) (hlen : ∀ h ∈ gs, h.length = g.length)
    (hb : ∀ (i : ℕ) (h : GM), (g :: gs)[i]? = some h → InOrder h (b i) ∧ 0 < b i g.length) :
    ∃ out, chain0 (g :: gs) = some out ∧ out.length = g.length ∧
      IsChaining (· < g.length) (fun e => (g :: gs).map fun h => rowOf h e) (rowOf out)
        (((List.range (g :: gs).length).map fun i => b i g.length).sum) := by
  have hlen' : ∀ h ∈ g :: gs, h.length = g.length := by
    intro h hh; rcases List.mem_cons.mp hh with rfl | hh; exacts [rfl, hlen h hh]
  have hcont : ∀ (i : ℕ) (h : GM), (g :: gs)[i]? = some h → Contiguous h.flatten (b i g.length) := by
    intro i h hi v
    rw [(hb i h hi).1.mem v, hlen' h (List.mem_of_getElem? hi)]
  obtain ⟨ms, hms⟩ := allDofs_isSome (gms := g :: gs) (by
    intro h hh
    obtain ⟨i, hi⟩ := List.mem_iff_getElem?.mp hh
    exact ⟨_, numDofs_eq (hb i h hi).2 (hcont i h hi)⟩)
  obtain ⟨f, hinv, hf⟩ := loop0_inv (g :: gs) g.length hlen' b (fun j h hj => (hb j h hj).1)
  have hdof : ∀ {e x}, e < g.length → x ∈ dofsOf ((g :: gs).map fun h => rowOf h e) → x.2 < f x.1 := by
    intro e x he hx
    obtain ⟨r, hr, hx⟩ := mem_dofsOf.mp hx
    rw [List.getElem?_map] at hr
    cases hg : (g :: gs)[x.1]? with
    | none => rw [hg] at hr; simp at hr
    | some h =>
      rw [hg] at hr
      simp only [Option.map_some, Option.some.injEq] at hr
      rw [hf, if_pos (List.getElem?_eq_some_iff.mp hg).1]
      exact (hcont _ _ hg _).mp (mem_rows.mpr ⟨e, by rw [hlen' h (List.mem_of_getElem? hg)]; exact he,
        by rw [hr]; exact hx⟩)
  have hrange : ∀ v, (∃ e x, e < g.length ∧ x ∈ dofsOf ((g :: gs).map fun h => rowOf h e) ∧
      (loop0 (g :: gs) g.length).cache x.1 x.2 = v) ↔ v < (loop0 (g :: gs) g.length).cur := by
    intro v
    constructor
    · rintro ⟨e, x, he, hx, rfl⟩
      exact hinv.lt _ _ (hdof he hx)
    · intro hv
      obtain ⟨j, n, hn, rfl⟩ := hinv.onto v hv
      have hj : j < (g :: gs).length := by
        by_contra hc
        rw [hf, if_neg hc] at hn
        omega
      have hg := List.getElem?_eq_getElem hj
      rw [hf, if_pos hj] at hn
      obtain ⟨e, he, hm⟩ := mem_rows.mp ((hcont j _ hg n).mpr hn)
      rw [hlen' _ (List.getElem_mem hj)] at he
      exact ⟨e, (j, n), he, mem_dofsOf.mpr ⟨_, by rw [List.getElem?_map, hg]; rfl, hm⟩, rfl⟩
  have hcur : (loop0 (g :: gs) g.length).cur = ((List.range (g :: gs).length).map fun i => b i g.length).sum := by
    -- both count the dofs
    let L := (List.range (g :: gs).length).flatMap fun i => (List.range (b i g.length)).map fun n => (i, n)
    have hL : L.length = ((List.range (g :: gs).length).map fun i => b i g.length).sum := by
      simp only [L, List.length_flatMap, List.length_map, List.length_range]
    have hLm : ∀ x, x ∈ L ↔ x.1 < (g :: gs).length ∧ x.2 < b x.1 g.length := by
      rintro ⟨i, n⟩
      simp only [L, List.mem_flatMap, List.mem_range, List.mem_map, Prod.mk.injEq]
      constructor
      · rintro ⟨i', h1, n', h2, rfl, rfl⟩; exact ⟨h1, h2⟩
      · rintro ⟨h1, h2⟩; exact ⟨i, h1, n, h2, rfl, rfl⟩
    have hLn : L.Nodup := by
      simp only [L]
      rw [List.nodup_flatMap]
      refine ⟨fun i _ => List.Nodup.map_on (by intro a _ b _ h; simpa using h) List.nodup_range, ?_⟩
      refine List.Pairwise.imp_of_mem ?_ List.nodup_range
      intro i j _ _ hij x hx hy
      simp only [List.mem_map] at hx hy
      obtain ⟨_, _, rfl⟩ := hx
      obtain ⟨_, _, hy⟩ := hy
      simp only [Prod.mk.injEq] at hy
      exact hij hy.1.symm
    have hLf : ∀ x, x ∈ L ↔ x.2 < f x.1 := by
      intro x
      rw [hLm, hf]
      split_ifs with h
      · exact ⟨fun a => a.2, fun a => ⟨h, a⟩⟩
      · exact ⟨fun a => absurd a.1 h, fun a => absurd a (Nat.not_lt_zero _)⟩
    have hp : (L.map fun x => (loop0 (g :: gs) g.length).cache x.1 x.2).Perm
        (List.range (loop0 (g :: gs) g.length).cur) := by
      refine (List.perm_ext_iff_of_nodup ?_ List.nodup_range).mpr ?_
      · refine List.Nodup.map_on ?_ hLn
        intro x hx y hy hxy
        have := hinv.inj _ _ _ _ ((hLf x).mp hx) ((hLf y).mp hy) hxy
        exact Prod.ext this.1 this.2
      · intro v
        rw [List.mem_range, List.mem_map]
        constructor
        · rintro ⟨x, hx, rfl⟩; exact hinv.lt _ _ ((hLf x).mp hx)
        · intro hv
          obtain ⟨j, n, hn, h⟩ := hinv.onto v hv
          exact ⟨(j, n), (hLf _).mpr hn, h⟩
    have := hp.length_eq
    rw [List.length_map, List.length_range, hL] at this
    exact this.symm
  refine ⟨(List.range g.length).map fun e => (g :: gs).zipIdx.flatMap fun q =>
    (rowOf q.1 e).map ((loop0 (g :: gs) g.length).cache q.2), ?_, by simp, ?_⟩
  · unfold chain0
    simp only
    rw [if_pos hlen', hms]; rfl
  · refine isChaining_of_map (fun x => (loop0 (g :: gs) g.length).cache x.1 x.2) ?_ ?_ ?_
    · intro e he
      unfold rowOf
      rw [List.getElem?_map, List.getElem?_range he]
      simp only [Option.map_some, Option.getD_some]
      unfold dofsOf
      rw [List.map_flatMap, List.zipIdx_map, List.flatMap_map]
      congr 1
      funext q
      rw [List.map_map]; rfl
    · intro e e' x y he he' hx hy hxy
      have := hinv.inj _ _ _ _ (hdof he hx) (hdof he' hy) hxy
      exact Prod.ext this.1 this.2
    · intro v
      rw [← hcur, ← hrange v]

/-- Two unknowns over two elements. -/
example : chain0 [[[0, 1], [1, 2]], [[0], [1]]] = some [[0, 1, 2], [1, 3, 4]] ∧
    InOrder [[0, 1], [1, 2]] (fun e => [0, 2, 3].getD e 0) ∧ InOrder [[0], [1]] (fun e => e) := by
  refine ⟨by decide +kernel, ⟨rfl, by decide +kernel⟩, ⟨rfl, by decide +kernel⟩⟩

/-- Method 0 is not correct for every gathering matrix: a valid numbering of three elements whose numbers do not
appear in order gives two different dofs the same number. -/
theorem chain0_refuted : Contiguous [[2], [1], [0]].flatten 3 ∧
    chain0 [[[2], [1], [0]]] = some [[0], [1], [1]] := by
  refine ⟨?_, by decide +kernel⟩
  intro v; simp; omega

/-! ### C26 -/

/-- Chaining across ranks succeeds exactly if there are two or more matrices with the same elements on every rank,
each using contiguous numbers from 0. -/
theorem chain_success {gms : List DGM} (hd : ∀ g ∈ gms, Distinct g) :
    (∃ c, chain gms = some c) ↔ 2 ≤ gms.length ∧ (∀ g ∈ gms, ∀ h ∈ gms, g.length = h.length ∧
      ∀ (r : ℕ) (a b : List ℕ), g.keys[r]? = some a → h.keys[r]? = some b → ∀ e, e ∈ a ↔ e ∈ b) ∧
      ∀ g ∈ gms, ∃ n, Contiguous g.nums n := by
  constructor
  · rintro ⟨c, hc⟩
    obtain ⟨base, rest, rfl, hr, hk, hcur, _⟩ := chain_some hc
    refine ⟨?_, ?_, ?_⟩
    · have := List.length_pos_of_ne_nil hr
      simp only [List.length_cons]; omega
    · intro g hg h hh
      exact keysOK_iff.mp (keysOK_trans (keysOK_symm (hk g hg)) (hk h hh))
    · intro g hg
      exact ⟨_, (cur_eq_iff hd hk).mp hcur g hg⟩
  · rintro ⟨h1, h2, h3⟩
    match gms, h1 with
    | base :: rest, h1 =>
      have hk : ∀ g ∈ base :: rest, keysOK base g = true := fun g hg => keysOK_iff.mpr (h2 base (by simp) g hg)
      rw [chain_def (by rintro rfl; simp at h1) hk, if_pos]
      · exact ⟨_, rfl⟩
      · refine (cur_eq_iff hd hk).mpr ?_
        intro g hg
        obtain ⟨n, hn⟩ := h3 g hg
        rw [num_eq hn]; exact hn

/-- What `chain_success` and `chain_spec` are about: two unknowns, two ranks, one dof shared across the ranks. -/
def gA : DGM := [[(0, [0, 1])], [(1, [1, 2])]]
/-- The second unknown. -/
def gB : DGM := [[(0, [1])], [(1, [0])]]

example : Distinct gA ∧ Distinct gB ∧ chain [gA, gB] = some [[(0, [0, 1, 2])], [(1, [1, 3, 4])]] := by
  unfold Distinct
  decide +kernel

/-- The chained numbering has the elements of the matrices on the same ranks in the same order as the first matrix;
on all ranks together two numbers coincide exactly if they are of the same dof of the same unknown, and the numbers
are `0 … total - 1`, `total` the sum of the numbers of dofs of the unknowns, which is the number of dofs of the
chain. -/
theorem chain_spec {gms : List DGM} {c : DGM} (hd : ∀ g ∈ gms, Distinct g) (hc : chain gms = some c) :
    (∀ g, gms.head? = some g → c.keys = g.keys) ∧
      IsChaining (Elem c) (fun e => gms.map fun g => g.at e) c.at (gms.map DGM.num).sum ∧
      c.num = (gms.map DGM.num).sum ∧ ∀ g ∈ gms, Contiguous g.nums g.num := by
  obtain ⟨base, rest, rfl, hr, hk, hcur, hcdef⟩ := chain_some hc
  have hch := numberAll_chained (base :: rest) base (hd base (by simp))
  rw [← hcdef, hcur] at hch
  generalize ren (numberAll (cells (base :: rest)) ⟨[], 0⟩ base.keys).2 = rn at hch
  have hel : ∀ e, Elem c e ↔ Elem base e := fun e => keysOK_elem (keysOK_of_keys hch.keys) e
  have hisc : IsChaining (Elem c) (fun e => (base :: rest).map fun g => g.at e) c.at ((base :: rest).map DGM.num).sum := by
    refine isChaining_of_map rn ?_ ?_ ?_
    · intro e he
      rw [← cells_eq]; exact hch.row e ((hel e).mp he)
    · intro e e' x y he he' hx hy
      rw [← cells_eq] at hx hy
      exact hch.inj e e' x y ((hel e).mp he) ((hel e').mp he') hx hy
    · intro v
      rw [← hch.onto v]
      constructor
      · rintro ⟨e, x, he, hx, h⟩; exact ⟨e, x, (hel e).mp he, by rw [cells_eq]; exact hx, h⟩
      · rintro ⟨e, x, he, hx, h⟩; exact ⟨e, x, (hel e).mpr he, by rw [← cells_eq]; exact hx, h⟩
  refine ⟨?_, hisc, ?_, (cur_eq_iff hd hk).mp hcur⟩
  · intro g hg
    simp only [List.head?_cons, Option.some.injEq] at hg
    rw [← hg]; exact hch.keys
  · have hcd : Distinct c := by unfold Distinct; rw [hch.keys]; exact hd base (by simp)
    apply num_eq
    intro v
    rw [mem_nums hcd]
    exact hisc.range v

/-- Chaining already chained matrices gives the same numbering as chaining them flat. -/
theorem nested_flat {pre gs post : List DGM} {c : DGM} (hd : ∀ g ∈ gs, Distinct g) (hc : chain gs = some c)
    (hne : pre ++ post ≠ []) : chain (pre ++ c :: post) = chain (pre ++ gs ++ post) :=
  nested_aux hd hc hne

example : ∃ c, chain [gA, gB] = some c ∧ chain [gB, c] = chain [gB, gA, gB] ∧ (chain [gB, c]).isSome :=
  ⟨[[(0, [0, 1, 2])], [(1, [1, 3, 4])]], by decide +kernel⟩

end Phyem.Chaining
