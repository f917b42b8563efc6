import Verif.Customize.BlockLemmas

/-!
Assembling block systems: property C67.
-/

namespace Phyem.Customize

open Chaining Assembly Finset

/-- The rows of one rank of a matrix whose columns are numbered by `gc`. -/
def rankRows2 (gc : DGM) (d : Dict ℕ (List ℕ)) : Rows := d.map fun p => (p.1, p.2, gc.at p.1)

/-- `ess` are the elements of all ranks with stored matrices that have the entries of `M rank element`. -/
def StoresR (gr gc : DGM) (M : ℕ → ℕ → Mat) (dep wid : ℕ) (ess : List (List El)) : Prop :=
  ess.length = gr.length ∧ ∀ (p : ℕ) (d : Dict ℕ (List ℕ)) (es : List El), gr[p]? = some d → ess[p]? = some es →
    Stores (rankRows2 gc d) ⟨M p, []⟩ dep wid es

/-! ### Lemmas -/

theorem tot_rank {gr gc : DGM} (h : Distinct gr) {d : Dict ℕ (List ℕ)} (hd : d ∈ gr) (M : ℕ → Mat) (i j : ℕ) :
    tot (rankRows2 gc d) M i j = ((Dict.keys d).map fun e => share (gr.at e) (gc.at e) (M e) i j).sum := by
  unfold tot rankRows2 Dict.keys
  rw [List.map_map, List.map_map]
  congr 1
  apply List.map_congr_left
  intro p hp
  simp only [Function.comp]
  rw [at_eq h hd hp]

theorem vtot_rank {g : DGM} (h : Distinct g) {d : Dict ℕ (List ℕ)} (hd : d ∈ g) (b : ℕ → ℕ → ℚ) (i : ℕ) :
    vtot (rankRows d) b i = ((Dict.keys d).map fun e => vshare (g.at e) (b e) i).sum := by
  unfold vtot rankRows Dict.keys
  rw [List.map_map, List.map_map]
  congr 1
  apply List.map_congr_left
  intro p hp
  simp only [Function.comp]
  rw [at_eq h hd hp]

/-- The elements on the ranks of a chain are those of its parts. -/
theorem chain_keys {gms : List DGM} {c : DGM} (hd : ∀ g ∈ gms, Distinct g) (hc : chain gms = some c) {g : DGM}
    (hg : g ∈ gms) : c.length = g.length ∧ ∀ (p : ℕ) (d d' : Dict ℕ (List ℕ)), c[p]? = some d → g[p]? = some d' →
      (Dict.keys d).Perm (Dict.keys d') := by
  obtain ⟨base, rest, rfl, _, hk, _, _⟩ := chain_some hc
  have hck := (chain_spec hd hc).1 base rfl
  obtain ⟨_, _, _, hcd, _⟩ := chain_ren hd hc
  have h1 := hk g hg
  rw [keysOK_iff] at h1
  have hlen : c.length = base.length := by rw [← keys_length c, ← keys_length base, hck]
  refine ⟨by rw [hlen]; exact h1.1, ?_⟩
  intro p d d' hp hp'
  have hmd := List.mem_of_getElem? hp
  have hmd' := List.mem_of_getElem? hp'
  rw [List.perm_ext_iff_of_nodup (keys_rank hcd d hmd) (keys_rank (hd g hg) d' hmd')]
  intro e
  have hb : base.keys[p]? = some (Dict.keys d) := by
    rw [← hck]; unfold DGM.keys; rw [List.getElem?_map, hp]; rfl
  have hg' : g.keys[p]? = some (Dict.keys d') := by
    unfold DGM.keys; rw [List.getElem?_map, hp']; rfl
  exact h1.2 p _ _ hb hg' e

theorem storesR_assemble {gr gc : DGM} {M : ℕ → ℕ → Mat} {dep wid : ℕ} {ess : List (List El)}
    (h : StoresR gr gc M dep wid ess) : ∃ Ts, allSome (ess.map (Assembly.assemble none dep wid)) = some Ts ∧
      ∀ i j, entryH Ts i j = (gr.zipIdx.map fun q => tot (rankRows2 gc q.1) (M q.2) i j).sum := by
  obtain ⟨h1, h2⟩ := h
  have key : ∀ (off : ℕ) (gr : List (Dict ℕ (List ℕ))) (ess : List (List El)), ess.length = gr.length →
      (∀ (p : ℕ) d es, gr[p]? = some d → ess[p]? = some es → Stores (rankRows2 gc d) ⟨M (off + p), []⟩ dep wid es) →
      ∃ Ts, allSome (ess.map (Assembly.assemble none dep wid)) = some Ts ∧
        ∀ i j, entryH Ts i j = ((gr.zipIdx off).map fun q => tot (rankRows2 gc q.1) (M q.2) i j).sum := by
    intro off gr
    induction gr generalizing off with
    | nil =>
      intro ess hl _
      obtain rfl : ess = [] := by simpa using hl
      exact ⟨[], rfl, fun i j => rfl⟩
    | cons d gr ih =>
      intro ess hl hs
      cases ess with
      | nil => simp at hl
      | cons es ess =>
        obtain ⟨T, e1, e2⟩ := stores_assemble (hs 0 d es rfl rfl)
        obtain ⟨Ts, f1, f2⟩ := ih (off + 1) ess (by simpa using hl) (by
          intro p d' es' a b
          have := hs (p + 1) d' es' (by simpa using a) (by simpa using b)
          rwa [show off + (p + 1) = off + 1 + p by omega] at this)
        refine ⟨T :: Ts, by simp [allSome, e1, f1], ?_⟩
        intro i j
        have := f2 i j
        unfold entryH at this ⊢
        rw [List.map_cons, List.sum_cons, this, e2, List.zipIdx_cons, List.map_cons, List.sum_cons]
        rfl
  exact key 0 gr ess h1 (by simpa using h2)

/-! ### C67 -/

/-- **C67**, matrix: the assembled block matrix consists of the assembled blocks: its entry at (the numbers of) dof
`d` of row unknown `k` and dof `d'` of column unknown `j` is entry `(d, d')` of the assembled block `(k, j)`; for any
distribution, any number of unknowns and any blocks.  `rn`, `rn'` give the numbers of dofs in the chained gathering
matrices. -/
theorem block_matrix {gr gc : List DGM} {cr cc : DGM} (hdr : ∀ g ∈ gr, Distinct g) (hdc : ∀ g ∈ gc, Distinct g)
    (hcr : chain gr = some cr) (hcc : chain gc = some cc) (hel : ∀ e, Elem cr e → Elem cc e) {rn rn' : ℕ × ℕ → ℕ}
    (hn : Names gr cr rn) (hn' : Names gc cc rn') {k d j d' : ℕ} {g g' : DGM} (hg : gr[k]? = some g)
    (hg' : gc[j]? = some g') (hd : d < g.num) (hd' : d' < g'.num) (A : ℕ → ℕ → ℕ → ℕ → Mat) {dep wid dep' wid' : ℕ}
    {ess ess' : List (List El)}
    (hs : StoresR cr cc (fun p e => blockMat (lens gr e) (lens gc e) fun i j => A i j p e) dep wid ess)
    (hs' : StoresR g g' (A k j) dep' wid' ess') :
    ∃ Ts Ts', allSome (ess.map (Assembly.assemble none dep wid)) = some Ts ∧
      allSome (ess'.map (Assembly.assemble none dep' wid')) = some Ts' ∧
      entryH Ts (rn (k, d)) (rn' (j, d')) = entryH Ts' d d' := by
  obtain ⟨Ts, e1, e2⟩ := storesR_assemble hs
  obtain ⟨Ts', e3, e4⟩ := storesR_assemble hs'
  refine ⟨Ts, Ts', e1, e3, ?_⟩
  rw [e2, e4]
  have hgm := List.mem_of_getElem? hg
  have hgm' := List.mem_of_getElem? hg'
  obtain ⟨_, _, _, hcd, _, hcon, _⟩ := chain_ren hdr hcr
  obtain ⟨_, _, _, _, _, hcon', _⟩ := chain_ren hdc hcc
  obtain ⟨hlen, hkeys⟩ := chain_keys hdr hcr hgm
  congr 1
  apply List.ext_getElem?
  intro p
  rw [List.getElem?_map, List.getElem?_map, List.getElem?_zipIdx, List.getElem?_zipIdx]
  by_cases hp : p < cr.length
  · have h1 : cr[p]? = some cr[p] := List.getElem?_eq_getElem hp
    have h2 : g[p]? = some (g[p]'(by omega)) := List.getElem?_eq_getElem _
    rw [h1, h2]
    simp only [Option.map_some, Nat.zero_add, Option.some.injEq]
    rw [tot_rank hcd (List.getElem_mem hp), tot_rank (hdr g hgm) (List.getElem_mem _)]
    rw [← sum_perm_map (hkeys p _ _ h1 h2)]
    congr 1
    apply List.map_congr_left
    intro e he
    have hce : Elem cr e := by
      obtain ⟨q, hq, rfl⟩ := List.mem_map.mp he
      exact elem_iff.mpr ⟨_, List.getElem_mem hp, q, hq, rfl⟩
    exact share_block hdr hdc hcr hcc hn hn' hg hg' ((hcon g hgm d).mpr hd) ((hcon' g' hgm' d').mpr hd') hce
      (hel e hce) _
  · rw [List.getElem?_eq_none (by omega), List.getElem?_eq_none (by omega)]
    rfl

theorem vassembleH {num : ℕ} {g : DGM} {b : ℕ → ℕ → ℕ → ℚ} (hr : ∀ n ∈ g.nums, n < num)
    (hn : ∀ d ∈ g, ∀ p ∈ d, p.2.Nodup) :
    ∃ vs, allSome (g.zipIdx.map fun q => vassemble num (vecs (rankRows q.1) ⟨b q.2, []⟩)) = some vs ∧
      ∀ i < num, ventryH vs i = (g.zipIdx.map fun q => vtot (rankRows q.1) (b q.2) i).sum := by
  have key : ∀ (off : ℕ) (g : List (Dict ℕ (List ℕ))), (∀ d ∈ g, ∀ p ∈ d, ∀ n ∈ p.2, n < num) →
      (∀ d ∈ g, ∀ p ∈ d, p.2.Nodup) →
      ∃ vs, allSome ((g.zipIdx off).map fun q => vassemble num (vecs (rankRows q.1) ⟨b q.2, []⟩)) = some vs ∧
        ∀ i < num, ventryH vs i = ((g.zipIdx off).map fun q => vtot (rankRows q.1) (b q.2) i).sum := by
    intro off g
    induction g generalizing off with
    | nil => intro _ _; exact ⟨[], rfl, fun i _ => rfl⟩
    | cons d g ih =>
      intro hr hn
      have hmem : ∀ x ∈ rankRows d, (x.1, x.2.1) ∈ d := by
        unfold rankRows
        simp only [List.mem_map]
        rintro x ⟨p, hp, rfl⟩; exact hp
      obtain ⟨v, e1, e2, e3⟩ := vecs_assemble (rows := rankRows d) (b := ⟨b off, []⟩) (num := num)
        (fun x hx n hx' => hr d (by simp) _ (hmem x hx) n hx') (fun x hx => hn d (by simp) _ (hmem x hx))
      obtain ⟨vs, f1, f2⟩ := ih (off + 1) (fun d' h => hr d' (by simp [h])) (fun d' h => hn d' (by simp [h]))
      refine ⟨v :: vs, by rw [List.zipIdx_cons, List.map_cons]; simp [allSome, e1, f1], ?_⟩
      intro i hi
      have := f2 i hi
      unfold ventryH at this ⊢
      rw [List.map_cons, List.sum_cons, this, List.zipIdx_cons, List.map_cons, List.sum_cons,
        List.getD_eq_getElem?_getD, e3 i hi]
      rfl
  apply key 0 g _ hn
  intro d hd p hp n hn'
  apply hr
  unfold DGM.nums
  simp only [List.mem_flatMap]
  exact ⟨d, hd, p, hp, hn'⟩

/-- The rows of a chain have no repeated numbers if those of its parts have none. -/
theorem chain_nodup {gms : List DGM} {c : DGM} (hd : ∀ g ∈ gms, Distinct g) (hc : chain gms = some c)
    (hn : ∀ g ∈ gms, ∀ d ∈ g, ∀ p ∈ d, p.2.Nodup) : ∀ d ∈ c, ∀ p ∈ d, p.2.Nodup := by
  intro d hdc p hp
  obtain ⟨rn, h1, h2, hcd, _, _, hel⟩ := chain_ren hd hc
  have he : Elem c p.1 := elem_iff.mpr ⟨d, hdc, p, hp, rfl⟩
  rw [← at_eq hcd hdc hp, h1 _ he]
  apply List.Nodup.map_on (fun x hx y hy hxy => h2 _ _ x y he he hx hy hxy)
  rw [List.nodup_iff_getElem?_ne_getElem?]
  intro i j hij hj heq
  have hlt : i < (cells gms p.1).length := by omega
  rcases hx : (cells gms p.1)[i]'hlt with ⟨k, n⟩
  have hi : (cells gms p.1)[i]? = some (k, n) := by rw [List.getElem?_eq_getElem hlt, hx]
  obtain ⟨g, r, q1, q2, q3⟩ := cells_get.mp hi
  obtain ⟨g', r', q1', q2', q3'⟩ := cells_get.mp (heq ▸ hi)
  rw [q1] at q1'; cases q1'
  have hgm := List.mem_of_getElem? q1
  obtain ⟨d', hd', p', hp', hpe⟩ := elem_iff.mp ((hel g hgm p.1).mp he)
  have hnd : (g.at p.1).Nodup := by rw [← hpe, at_eq (hd g hgm) hd' hp']; exact hn g hgm d' hd' p' hp'
  have hrr : r = r' := by
    have a := List.getElem?_eq_some_iff.mp q2
    have b := List.getElem?_eq_some_iff.mp q2'
    exact (List.Nodup.getElem_inj_iff hnd).mp (a.2.trans b.2.symm)
  subst hrr
  obtain ⟨_, _, _, w1⟩ := decode_some q3
  obtain ⟨_, _, _, w2⟩ := decode_some q3'
  omega

/-- **C67**, vector, for gathering matrices whose rows have no repeated numbers: the assembled concatenated vector
consists of the assembled vectors. -/
theorem block_vector_partial {gms : List DGM} {c : DGM} (hd : ∀ g ∈ gms, Distinct g) (hc : chain gms = some c)
    (hnd : ∀ g ∈ gms, ∀ d ∈ g, ∀ p ∈ d, p.2.Nodup) {rn : ℕ × ℕ → ℕ} (hn : Names gms c rn) {k d : ℕ} {g : DGM}
    (hg : gms[k]? = some g) (hdn : d < g.num) (b : ℕ → ℕ → ℕ → ℕ → ℚ) :
    ∃ vs vs', allSome (c.zipIdx.map fun q =>
        vassemble c.num (vecs (rankRows q.1) ⟨fun e => blockVec (lens gms e) fun i => b i q.2 e, []⟩)) = some vs ∧
      allSome (g.zipIdx.map fun q => vassemble g.num (vecs (rankRows q.1) ⟨b k q.2, []⟩)) = some vs' ∧
      ventryH vs (rn (k, d)) = ventryH vs' d := by
  have hgm := List.mem_of_getElem? hg
  obtain ⟨_, _, _, hcd, hcc, hcon, hel⟩ := chain_ren hd hc
  obtain ⟨hlen, hkeys⟩ := chain_keys hd hc hgm
  obtain ⟨vs, e1, e2⟩ := vassembleH (g := c) (b := fun p e => blockVec (lens gms e) fun i => b i p e)
    (fun n h => num_le h) (chain_nodup hd hc hnd)
  obtain ⟨vs', e3, e4⟩ := vassembleH (g := g) (b := b k) (fun n h => num_le h) (hnd g hgm)
  refine ⟨vs, vs', e1, e3, ?_⟩
  have hlt : rn (k, d) < c.num := by
    obtain ⟨e₀, he₀, hv⟩ := (mem_nums (hd g hgm)).mp ((hcon g hgm d).mpr hdn)
    obtain ⟨r₀, hr₀⟩ := List.mem_iff_getElem?.mp hv
    have he : Elem c e₀ := (hel g hgm e₀).mpr he₀
    have := (chain_at hd hc hn hg ((hcon g hgm d).mpr hdn) he).mpr
      ⟨r₀, hr₀, decode_place (lens_get hg e₀) (List.getElem?_eq_some_iff.mp hr₀).1⟩
    exact num_le ((mem_nums hcd).mpr ⟨e₀, he, List.mem_of_getElem? this⟩)
  rw [e2 _ hlt, e4 _ hdn]
  congr 1
  apply List.ext_getElem?
  intro p
  rw [List.getElem?_map, List.getElem?_map, List.getElem?_zipIdx, List.getElem?_zipIdx]
  by_cases hp : p < c.length
  · have h1 : c[p]? = some c[p] := List.getElem?_eq_getElem hp
    have h2 : g[p]? = some (g[p]'(by omega)) := List.getElem?_eq_getElem _
    rw [h1, h2]
    simp only [Option.map_some, Nat.zero_add, Option.some.injEq]
    rw [vtot_rank hcd (List.getElem_mem hp), vtot_rank (hd g hgm) (List.getElem_mem _)]
    rw [← sum_perm_map (hkeys p _ _ h1 h2)]
    congr 1
    apply List.map_congr_left
    intro e he
    have hce : Elem c e := by
      obtain ⟨q, hq, rfl⟩ := List.mem_map.mp he
      exact elem_iff.mpr ⟨_, List.getElem_mem hp, q, hq, rfl⟩
    exact vshare_block hd hc hn hg ((hcon g hgm d).mpr hdn) hce fun i => b i p e
  · rw [List.getElem?_eq_none (by omega), List.getElem?_eq_none (by omega)]
    rfl

/-- Two unknowns on two ranks. -/
def gU : DGM := [[(0, [0, 1])], [(1, [1, 2])]]

/-- The second unknown. -/
def gV : DGM := [[(0, [0])], [(1, [1])]]

/-- Their chain. -/
def gUV : DGM := [[(0, [0, 1, 2])], [(1, [1, 3, 4])]]

/-- The numbers in the chain. -/
def rnUV (x : ℕ × ℕ) : ℕ := if x.1 = 0 then (if x.2 = 2 then 3 else x.2) else (if x.2 = 0 then 2 else 4)

theorem exUV : (∀ g ∈ [gU, gV], Distinct g) ∧ chain [gU, gV] = some gUV ∧ Names [gU, gV] gUV rnUV ∧
    (∀ g ∈ [gU, gV], ∀ d ∈ g, ∀ p ∈ d, p.2.Nodup) := by
  refine ⟨by unfold Distinct; decide, by decide +kernel, ?_, by decide⟩
  intro e he
  have : e ∈ [0, 1] := he
  simp only [List.mem_cons, List.not_mem_nil, or_false] at this
  rcases this with rfl | rfl <;> decide +kernel

example : ∃ ess ess', StoresR gUV gUV (fun p e => blockMat (lens [gU, gV] e) (lens [gU, gV] e) fun i j => fun r c =>
      ((i + 2 * j + p + e + r + c : ℕ) : ℚ)) 5 5 ess ∧
    StoresR gV gU (fun p e r c => ((1 + 2 * 0 + p + e + r + c : ℕ) : ℚ)) 2 3 ess' := by
  obtain ⟨x1, h1⟩ := stores_exists (rows := rankRows2 gUV [(0, [0, 1, 2])]) (dep := 5) (wid := 5)
    (M := ⟨fun e => blockMat (lens [gU, gV] e) (lens [gU, gV] e) fun i j => fun r c =>
      ((i + 2 * j + 0 + e + r + c : ℕ) : ℚ), []⟩) (by decide +kernel)
  obtain ⟨x2, h2⟩ := stores_exists (rows := rankRows2 gUV [(1, [1, 3, 4])]) (dep := 5) (wid := 5)
    (M := ⟨fun e => blockMat (lens [gU, gV] e) (lens [gU, gV] e) fun i j => fun r c =>
      ((i + 2 * j + 1 + e + r + c : ℕ) : ℚ), []⟩) (by decide +kernel)
  obtain ⟨y1, k1⟩ := stores_exists (rows := rankRows2 gU [(0, [0])]) (dep := 2) (wid := 3)
    (M := ⟨fun e r c => ((1 + 2 * 0 + 0 + e + r + c : ℕ) : ℚ), []⟩) (by decide +kernel)
  obtain ⟨y2, k2⟩ := stores_exists (rows := rankRows2 gU [(1, [1])]) (dep := 2) (wid := 3)
    (M := ⟨fun e r c => ((1 + 2 * 0 + 1 + e + r + c : ℕ) : ℚ), []⟩) (by decide +kernel)
  refine ⟨[x1, x2], [y1, y2], ⟨rfl, ?_⟩, ⟨rfl, ?_⟩⟩
  · intro p d es hd he
    match p with
    | 0 => cases hd; cases he; exact h1
    | 1 => cases hd; cases he; exact h2
    | p + 2 => simp [gUV] at hd
  · intro p d es hd he
    match p with
    | 0 => cases hd; cases he; exact k1
    | 1 => cases hd; cases he; exact k2
    | p + 2 => simp [gV] at hd

end Phyem.Customize
