import Verif.Chaining.Props
import Verif.Chaining.Vec
import Mathlib.Tactic.Ring

/-!
Properties C27, C28, C51, C64, C65.
-/

namespace Phyem.Chaining

/-- A successful chaining as a renaming. -/
theorem chain_ren {gms : List DGM} {c : DGM} (hd : ∀ g ∈ gms, Distinct g) (hc : chain gms = some c) :
    ∃ rn, (∀ e, Elem c e → c.at e = (cells gms e).map rn) ∧
      (∀ e e' x y, Elem c e → Elem c e' → x ∈ cells gms e → y ∈ cells gms e' → rn x = rn y → x = y) ∧
      Distinct c ∧ Contiguous c.nums c.num ∧ (∀ g ∈ gms, Contiguous g.nums g.num) ∧
      ∀ g ∈ gms, ∀ e, Elem c e ↔ Elem g e := by
  obtain ⟨s1, s2, s3, s4⟩ := chain_spec hd hc
  obtain ⟨base, rest, rfl, hr, hk, hcur, hcdef⟩ := chain_some hc
  have hch := numberAll_chained (base :: rest) base (hd base (by simp))
  rw [← hcdef, hcur] at hch
  generalize ren (numberAll (cells (base :: rest)) ⟨[], 0⟩ base.keys).2 = rn at hch
  have hel : ∀ e, Elem c e ↔ Elem base e := fun e => keysOK_elem (keysOK_of_keys hch.keys) e
  have hcd : Distinct c := by unfold Distinct; rw [hch.keys]; exact hd base (by simp)
  refine ⟨rn, fun e he => hch.row e ((hel e).mp he),
    fun e e' x y he he' => hch.inj e e' x y ((hel e).mp he) ((hel e').mp he'), hcd, ?_, s4, ?_⟩
  · intro v
    rw [mem_nums hcd, s3]
    exact s2.range v
  · intro g hg e
    rw [hel, keysOK_elem (hk g hg)]

/-- Place of a dof in an element of the chain. -/
theorem cells_place {gms : List DGM} {i e l n : ℕ} {g : DGM} (hg : gms[i]? = some g) (hl : (g.at e)[l]? = some n) :
    (cells gms e)[((gms.take i).map fun h => (h.at e).length).sum + l]? = some (i, n) := by
  have hsplit : gms = gms.take i ++ (g :: gms.drop (i + 1)) := by
    obtain ⟨hlt, hgi⟩ := List.getElem?_eq_some_iff.mp hg
    rw [← hgi, ← List.drop_eq_getElem_cons hlt, List.take_append_drop]
  have hlen : (gms.take i).length = i := by
    have := (List.getElem?_eq_some_iff.mp hg).1
    simp only [List.length_take]; omega
  have e1 : cells gms e = cellsFrom 0 (gms.take i) e ++ (((g.at e).map fun n => (i, n)) ++
      cellsFrom (i + 1) (gms.drop (i + 1)) e) := by
    change cellsFrom 0 gms e = _
    conv_lhs => rw [hsplit]
    rw [cellsFrom_append, hlen, Nat.zero_add]
    congr 1
  have e2 : (cellsFrom 0 (gms.take i) e).length = ((gms.take i).map fun h => (h.at e).length).sum := by
    unfold cellsFrom
    rw [List.length_flatMap]
    simp only [List.length_map]
    have : (List.zipIdx (gms.take i)).map (fun q => (q.1.at e).length) =
        ((List.zipIdx (gms.take i)).map Prod.fst).map fun h => (h.at e).length := by
      rw [List.map_map]; rfl
    rw [this, List.zipIdx_map_fst]
  rw [e1, ← e2, List.getElem?_append_right (by omega), Nat.add_sub_cancel_left,
    List.getElem?_append_left (by
      rw [List.length_map]; exact (List.getElem?_eq_some_iff.mp hl).1), List.getElem?_map, hl]
  rfl

/-! ### C27 -/

/-- Splitting a global vector of a chained system succeeds for every unknown; the component of unknown `i` has one
entry per dof of the unknown, and its entry at a dof is the entry of the global vector at the number of that dof in
the chained system: the dof at place `l` of element `e` in unknown `i` is at place `(local dofs before) + l` in the
chain. -/
theorem split_spec {gms : List DGM} {c : DGM} (hd : ∀ g ∈ gms, Distinct g) (hc : chain gms = some c) (V : List ℚ) :
    (splitVec gms c V).length = gms.length ∧
    ∀ (i : ℕ) (g : DGM), gms[i]? = some g → ∃ v, (splitVec gms c V)[i]? = some (some v) ∧ v.length = g.num ∧
      ∀ (e l n m : ℕ), Elem g e → (g.at e)[l]? = some n →
        (c.at e)[((gms.take i).map fun h => (h.at e).length).sum + l]? = some m → v[n]? = some (V.getD m 0) := by
  obtain ⟨rn, hrow, hinj, hcd, hcc, hgc, hel⟩ := chain_ren hd hc
  refine ⟨by simp [splitVec], ?_⟩
  intro i g hg
  have hgm := List.mem_of_getElem? hg
  have hasm := assemble_of (hd g hgm) (hgc g hgm) (fun n => V.getD (rn (i, n)) 0)
    (data := fun e => (cut (gms.map fun g => (g.at e).length) (pick V (c.at e))).getD i []) (by
      intro e he
      have he' := (hel g hgm e).mpr he
      rw [hrow e he', pick_map]
      have := cut_spec e (fun x => V.getD (rn x) 0) gms 0 i g hg
      rw [Nat.zero_add] at this
      exact this)
  refine ⟨(List.range g.num).map fun n => V.getD (rn (i, n)) 0, ?_, by simp, ?_⟩
  · unfold splitVec
    rw [List.getElem?_map, List.getElem?_zipIdx, hg]
    simp only [Option.map_some, Nat.zero_add, hasm]
  · intro e l n m he hl hm
    have hn : n < g.num := (hgc g hgm n).mp ((mem_nums (hd g hgm)).mpr ⟨e, he, List.mem_of_getElem? hl⟩)
    rw [List.getElem?_map, List.getElem?_range hn]
    simp only [Option.map_some, Option.some.injEq]
    congr 1
    -- the place in the chain
    rw [hrow e ((hel g hgm e).mpr he), List.getElem?_map] at hm
    have hplace := cells_place hg (e := e) hl
    rw [hplace] at hm
    simpa using hm

/-- Splitting the vector of the example. -/
example : (chain [gA, gB]).map (fun c => splitVec [gA, gB] c [10, 11, 12, 13, 14]) =
    some [some [10, 11, 13], some [14, 12]] := by decide +kernel

/-- Merging components: the merged vector exists, has one entry per dof of the chain, and splitting it gives the
components back. -/
theorem split_merge {gms : List DGM} {c : DGM} (hd : ∀ g ∈ gms, Distinct g) (hc : chain gms = some c)
    (vs : List (List ℚ)) (hl : vs.length = gms.length)
    (hv : ∀ (i : ℕ) (g : DGM) (v : List ℚ), gms[i]? = some g → vs[i]? = some v → v.length = g.num) :
    ∃ V, mergeVec gms c vs = some V ∧ V.length = c.num ∧ splitVec gms c V = vs.map some := by
  obtain ⟨rn, hrow, hinj, hcd, hcc, hgc, hel⟩ := chain_ren hd hc
  have hF : ∀ m, ∃ y : ℚ, ∀ e x, Elem c e → x ∈ cells gms e → rn x = m → ((vs.getD x.1 []).getD x.2 0) = y := by
    intro m
    by_cases h : ∃ e x, Elem c e ∧ x ∈ cells gms e ∧ rn x = m
    · obtain ⟨e, x, h1, h2, h3⟩ := h
      refine ⟨(vs.getD x.1 []).getD x.2 0, ?_⟩
      intro e' x' h1' h2' h3'
      rw [hinj e' e x' x h1' h1 h2' h2 (h3'.trans h3.symm)]
    · exact ⟨0, fun e x h1 h2 h3 => absurd ⟨e, x, h1, h2, h3⟩ h⟩
  choose F hF using hF
  have hdata : ∀ e, ((gms.zip vs).flatMap fun q => pick q.2 (q.1.at e)) =
      (cells gms e).map fun x => (vs.getD x.1 []).getD x.2 0 := by
    intro e
    have gen : ∀ (gs : List DGM) (ws : List (List ℚ)) (off : ℕ), ws.length = gs.length →
        (∀ j, ws.getD j [] = vs.getD (off + j) []) →
        ((gs.zip ws).flatMap fun q => pick q.2 (q.1.at e)) =
          (cellsFrom off gs e).map fun x => (vs.getD x.1 []).getD x.2 0 := by
      intro gs
      induction gs with
      | nil => intro ws off h _; simp [cellsFrom]
      | cons g gs ih =>
        intro ws off h hw
        cases ws with
        | nil => simp at h
        | cons w ws =>
          have e1 : cellsFrom off (g :: gs) e = ((g.at e).map fun n => (off, n)) ++ cellsFrom (off + 1) gs e := by
            unfold cellsFrom; rw [List.zipIdx_cons, List.flatMap_cons]
          rw [e1, List.zip_cons_cons, List.flatMap_cons, List.map_append, List.map_map]
          congr 1
          · have := hw 0
            simp only [List.getD_cons_zero, Nat.add_zero] at this
            unfold pick
            apply List.map_congr_left
            intro n _
            simp only [Function.comp]
            rw [← this]
          · refine ih ws (off + 1) (by simpa using h) ?_
            intro j
            have := hw (j + 1)
            rw [List.getD_cons_succ] at this
            rw [this, show off + 1 + j = off + (j + 1) by omega]
    exact gen gms vs 0 hl (by intro j; rw [Nat.zero_add])
  have hasm : mergeVec gms c vs = some ((List.range c.num).map F) := by
    unfold mergeVec
    refine assemble_of hcd hcc F ?_
    intro e he
    rw [hdata e, hrow e he, List.map_map]
    apply List.map_congr_left
    intro x hx
    exact hF (rn x) e x he hx rfl
  refine ⟨_, hasm, by simp, ?_⟩
  apply List.ext_getElem?
  intro i
  by_cases hi : i < gms.length
  · have hg := List.getElem?_eq_getElem hi
    have hgm := List.getElem_mem hi
    have hvi := List.getElem?_eq_getElem (show i < vs.length by omega)
    have hlen := hv i _ _ hg hvi
    generalize gms[i] = g at *
    generalize hvv : vs[i]'(by omega) = v at *
    have hcn : ∀ e x, Elem c e → x ∈ cells gms e → ((List.range c.num).map F).getD (rn x) 0 =
        (vs.getD x.1 []).getD x.2 0 := by
      intro e x he hx
      have hlt : rn x < c.num := (hcc _).mp ((mem_nums hcd).mpr ⟨e, he, by
        rw [hrow e he]; exact List.mem_map.mpr ⟨x, hx, rfl⟩⟩)
      rw [hF (rn x) e x he hx rfl, List.getD_eq_getElem?_getD, List.getElem?_map, List.getElem?_range hlt]
      rfl
    have h1 := assemble_of (hd g hgm) (hgc g hgm) (fun n => v.getD n 0)
      (data := fun e => (cut (gms.map fun g => (g.at e).length)
        (pick ((List.range c.num).map F) (c.at e))).getD i []) (by
        intro e he
        have he' := (hel g hgm e).mpr he
        rw [hrow e he', pick_map, List.map_congr_left (g := fun x => (vs.getD x.1 []).getD x.2 0)
          (fun x hx => hcn e x he' hx)]
        have := cut_spec e (fun x => (vs.getD x.1 []).getD x.2 0) gms 0 i g hg
        rw [Nat.zero_add] at this
        refine this.trans ?_
        apply List.map_congr_left
        intro n _
        simp only
        rw [show vs.getD i [] = v by rw [List.getD_eq_getElem?_getD, hvi]; rfl])
    unfold splitVec
    rw [List.getElem?_map, List.getElem?_zipIdx, hg, List.getElem?_map, hvi]
    simp only [Option.map_some, Nat.zero_add, h1, Option.some.injEq]
    rw [← hlen]
    apply List.ext_getElem (by simp)
    intro k hk hk'
    simp [List.getElem?_eq_getElem hk']
  · rw [List.getElem?_eq_none (by simp [splitVec]; omega), List.getElem?_eq_none (by simp; omega)]

/-- Splitting and merging gives the vector back. -/
theorem merge_split {gms : List DGM} {c : DGM} (hd : ∀ g ∈ gms, Distinct g) (hc : chain gms = some c)
    (V : List ℚ) (hV : V.length = c.num) :
    ∃ vs, splitVec gms c V = vs.map some ∧ mergeVec gms c vs = some V := by
  obtain ⟨hlen, hsp⟩ := split_spec hd hc V
  have hall : ∀ i : ℕ, i < gms.length → ∃ v, (splitVec gms c V)[i]? = some (some v) := by
    intro i hi
    obtain ⟨v, h, _⟩ := hsp i _ (List.getElem?_eq_getElem hi)
    exact ⟨v, h⟩
  have hvs : splitVec gms c V = ((splitVec gms c V).map fun o => o.getD []).map some := by
    apply List.ext_getElem?
    intro i
    rw [List.map_map, List.getElem?_map]
    by_cases hi : i < gms.length
    · obtain ⟨v, hv⟩ := hall i hi
      rw [hv]; rfl
    · rw [List.getElem?_eq_none (by omega)]; rfl
  refine ⟨_, hvs, ?_⟩
  have hnum : ∀ (i : ℕ) (g : DGM) (v : List ℚ), gms[i]? = some g →
      ((splitVec gms c V).map fun o => o.getD [])[i]? = some v → v.length = g.num := by
    intro i g v hg hv
    obtain ⟨w, h1, h2, _⟩ := hsp i g hg
    rw [List.getElem?_map, h1] at hv
    simp at hv
    rw [← hv]; exact h2
  obtain ⟨W, hW, hWl, hWs⟩ := split_merge hd hc ((splitVec gms c V).map fun o => o.getD []) (by simp [hlen]) hnum
  rw [hW]
  congr 1
  -- W and V have the same splits
  rw [← hvs] at hWs
  obtain ⟨_, hsW⟩ := split_spec hd hc W
  obtain ⟨rn, hrow, hinj, hcd, hcc, hgc, hel⟩ := chain_ren hd hc
  apply List.ext_getElem (by omega)
  intro m hm hm'
  have hmc : m < c.num := by omega
  obtain ⟨e, he, hme⟩ := (mem_nums hcd).mp ((hcc m).mpr hmc)
  rw [hrow e he] at hme
  obtain ⟨⟨i, n⟩, hx, hrn⟩ := List.mem_map.mp hme
  obtain ⟨g, hg, hn⟩ := mem_cells.mp hx
  simp only at hg hn
  have hgm := List.mem_of_getElem? hg
  -- both splits have the entries of the vectors at n
  have key : ∀ U : List ℚ, splitVec gms c U = splitVec gms c V → ∃ v, (splitVec gms c V)[i]? = some (some v) ∧
      v[n]? = some (U.getD m 0) := by
    intro U hU
    have hasm := assemble_of (hd g hgm) (hgc g hgm) (fun n => U.getD (rn (i, n)) 0)
      (data := fun e => (cut (gms.map fun g => (g.at e).length) (pick U (c.at e))).getD i []) (by
        intro e he
        have he' := (hel g hgm e).mpr he
        rw [hrow e he', pick_map]
        have := cut_spec e (fun x => U.getD (rn x) 0) gms 0 i g hg
        rw [Nat.zero_add] at this
        exact this)
    refine ⟨(List.range g.num).map fun n => U.getD (rn (i, n)) 0, ?_, ?_⟩
    · rw [← hU]
      unfold splitVec
      rw [List.getElem?_map, List.getElem?_zipIdx, hg]
      simp only [Option.map_some, Nat.zero_add, hasm]
    · have hn' : n < g.num := (hgc g hgm n).mp ((mem_nums (hd g hgm)).mpr ⟨e, (hel g hgm e).mp he, hn⟩)
      rw [List.getElem?_map, List.getElem?_range hn']
      simp only [Option.map_some]
      rw [hrn]
  obtain ⟨v, h1, h2⟩ := key V rfl
  obtain ⟨w, h3, h4⟩ := key W hWs
  rw [h1] at h3
  simp only [Option.some.injEq] at h3
  rw [← h3, h2] at h4
  simp only [Option.some.injEq, List.getD_eq_getElem?_getD, List.getElem?_eq_getElem hm,
    List.getElem?_eq_getElem hm', Option.getD_some] at h4
  exact h4.symm

example : (chain [gA, gB]).bind (fun c => mergeVec [gA, gB] c [[10, 11, 13], [14, 12]]) =
    some [10, 11, 12, 13, 14] := by decide +kernel

/-! ### C28 -/

/-- The look-ups made so far on a gathering matrix of msepy. -/
def runFind (g : GM) (hist : List (List ℕ)) : ArrayCache.S (Dict ℕ (List (ℕ × ℕ))) :=
  hist.foldl (fun s ds => (findDofs g s ds).2) ArrayCache.S.empty

/-- A computed answer: it fails exactly if a number is out of range; otherwise it has the given dofs as keys and for
each of them exactly the places (element, local index) holding it. -/
theorem locate_spec {g : GM} {n : ℕ} (hn : numDofs g = some n) (ds : List ℕ) :
    (locate g ds = none ↔ ∃ d ∈ ds, n ≤ d) ∧
    ∀ m, locate g ds = some m → (∀ d, (∃ v, Dict.get m d = some v) ↔ d ∈ ds) ∧
      ∀ d v, Dict.get m d = some v → ∀ e l, (e, l) ∈ v ↔ e < g.length ∧ (rowOf g e)[l]? = some d := by
  unfold locate
  rw [hn]
  simp only [Option.bind_some]
  constructor
  · split_ifs with h
    · simp; exact h
    · push Not at h; simpa using h
  · intro m hm
    split_ifs at hm with h
    simp only [Option.some.injEq] at hm
    subst hm
    constructor
    · intro d
      rw [foldl_put_get]
      split_ifs with hd <;> simp [hd, Dict.get]
    · intro d v hv e l
      rw [foldl_put_get] at hv
      split_ifs at hv with hd
      · simp only [Option.some.injEq] at hv
        rw [← hv]
        exact mem_whereGM
      · simp [Dict.get] at hv

/-- For fewer than 100000 dofs a look-up gives the computed answer whatever was looked up before.  For more see
`find_history_refuted`. -/
theorem find_history_partial {g : GM} {n : ℕ} (hn : numDofs g = some n) (hlt : n < 100000)
    (hist : List (List ℕ)) (ds : List ℕ) : (findDofs g (runFind g hist) ds).1 = locate g ds := by
  have hinv : GoodFind g (runFind g hist) := by
    unfold runFind
    have : ∀ (h : List (List ℕ)) (s : ArrayCache.S (Dict ℕ (List (ℕ × ℕ)))), GoodFind g s →
        GoodFind g (h.foldl (fun s ds => (findDofs g s ds).2) s) := by
      intro h
      induction h with
      | nil => intro s hs; exact hs
      | cons a h ih => intro s hs; exact ih _ (findDofs_good hn hlt hs a).2
    exact this hist _ (by intro q hq; simp [ArrayCache.S.empty] at hq)
  exact (findDofs_good hn hlt hinv ds).1

/-- A gathering matrix of two elements after two look-ups. -/
example : numDofs [[0, 1, 2], [1, 3, 2]] = some 4 ∧
    (findDofs [[0, 1, 2], [1, 3, 2]] (runFind [[0, 1, 2], [1, 3, 2]] [[1], [2, 3]]) [2, 3]).1 =
      some [(2, [(0, 2), (1, 2)]), (3, [(1, 1)])] := by decide +kernel

/-- With more dofs a look-up may return the answer to an earlier one: after looking up dof 99999, looking up dof
100000 gives the places of dof 99999 (and no entry for dof 100000), because the key of the cache is compared with a
relative tolerance of `1e-5`. -/
theorem find_history_refuted {g : GM} {n : ℕ} (hn : numDofs g = some n) (h : 100000 < n) :
    (findDofs g (runFind g [[99999]]) [100000]).1 = locate g [99999] ∧
      locate g [99999] = some [(99999, whereGM g 99999)] ∧
      locate g [100000] = some [(100000, whereGM g 100000)] := by
  have l1 : locate g [99999] = some [(99999, whereGM g 99999)] := by
    unfold locate
    rw [hn]
    simp only [Option.bind_some]
    rw [if_pos (by intro d hd; simp at hd; omega)]
    rfl
  have l2 : locate g [100000] = some [(100000, whereGM g 100000)] := by
    unfold locate
    rw [hn]
    simp only [Option.bind_some]
    rw [if_pos (by intro d hd; simp at hd; omega)]
    rfl
  refine ⟨?_, l1, l2⟩
  have hm : ArrayCache.matches_ [keyArr [99999]] [some (keyArr [100000])] = true := by decide +kernel
  have hs : runFind g [[99999]] = ⟨[(0, ⟨[keyArr [99999]], "", [(99999, whereGM g 99999)]⟩)], some ⟨1, 0, true⟩⟩ := by
    simp [runFind, findDofs, l1, ArrayCache.query, ArrayCache.S.empty, ArrayCache.find, ArrayCache.addTo,
      ArrayCache.evict, ArrayCache.nextKey, Dict.put]
  rw [hs, l1]
  simp [findDofs, ArrayCache.query, ArrayCache.find, hm]

/-- The hypothesis of `find_history_refuted` is met by one element with 100001 dofs. -/
example : numDofs [List.range 100001] = some 100001 := by
  apply numDofs_eq (by omega)
  intro v
  simp

/-- Look-ups on a rank of a distributed gathering matrix: a sequence of dofs, or one dof (a negative one counts
from the end). -/
inductive Look where
  | many (ns : List ℕ)
  | one (n : ℤ)

/-- The sequence actually looked up. -/
def Look.seq (num : ℕ) : Look → List ℕ
  | .many ns => ns
  | .one n => [(if n < 0 then n + num else n).toNat]

/-- A look-up is legal if a single dof is not below `-num`. -/
def Look.Legal (num : ℕ) : Look → Prop
  | .many _ => True
  | .one n => 0 ≤ n + num

/-- Perform a look-up. -/
def look (hash : List ℕ → ℤ) (d : Dict ℕ (List ℕ)) (num : ℕ) (s : FC) : Look → Option (Dict ℕ (List (ℕ × ℕ))) × FC
  | .many ns => (some (findMany hash d s ns).1, (findMany hash d s ns).2)
  | .one n => findOne hash d num s n

/-- The caches after a sequence of look-ups (`_total_find_key_ = -1` initially). -/
def runLook (hash : List ℕ → ℤ) (d : Dict ℕ (List ℕ)) (num : ℕ) (hist : List Look) : FC :=
  hist.foldl (fun s q => (look hash d num s q).2) ⟨[], -1, []⟩

theorem look_spec {hash : List ℕ → ℤ} {d : Dict ℕ (List ℕ)} {num : ℕ} {hist : List (List ℕ)} {s : FC}
    (h : FInv hash d hist s) (q : Look) (h1 : ∀ ns, hash ns ≠ -1)
    (h2 : ∀ ms ∈ hist, hash ms = hash (q.seq num) → ms = q.seq num) :
    (q.Legal num → ∃ m, (look hash d num s q).1 = some m ∧
      ∀ n, Dict.get m n = if n ∈ q.seq num then some (rankPlaces d n) else none) ∧
      FInv hash d (q.seq num :: hist) (look hash d num s q).2 := by
  have weak : FInv hash d (q.seq num :: hist) s := ⟨h.cache, by
    rcases h.total with ht | ⟨ms, hms, hh⟩
    · exact Or.inl ht
    · exact Or.inr ⟨ms, by simp [hms], hh⟩⟩
  cases q with
  | many ns =>
    obtain ⟨a, b⟩ := findMany_inv h ns (h1 ns) h2
    exact ⟨fun _ => ⟨_, rfl, a⟩, b⟩
  | one n =>
    simp only [look, findOne]
    by_cases hn : (if n < 0 then n + num else n) < 0
    · rw [if_pos hn]
      refine ⟨?_, weak⟩
      intro hl
      exfalso
      simp only [Look.Legal] at hl
      split_ifs at hn <;> omega
    · rw [if_neg hn]
      cases hg : Dict.get s.cache (if n < 0 then n + num else n).toNat with
      | some v =>
        simp only
        refine ⟨fun _ => ⟨_, rfl, ?_⟩, weak⟩
        intro k
        have hv := h.cache _ _ hg
        simp only [Look.seq, List.mem_singleton, Dict.get]
        by_cases hk : (if n < 0 then n + num else n).toNat = k
        · rw [if_pos hk, if_pos hk.symm, hv, hk]
        · rw [if_neg hk, if_neg (fun e => hk e.symm)]
      | none =>
        simp only
        obtain ⟨a, b⟩ := findMany_inv h [(if n < 0 then n + num else n).toNat] (h1 _) h2
        exact ⟨fun _ => ⟨_, rfl, a⟩, b⟩

/-- Whatever was looked up before on a rank, a look-up gives, for exactly the given dofs, exactly their places
(element, local index) on the rank.  `hash` is Python's hash, which is never `-1`; the theorem assumes that no two
different sequences in the history have the same hash. -/
theorem find_rank_partial {hash : List ℕ → ℤ} {d : Dict ℕ (List ℕ)} {num : ℕ} (hist : List Look) (q : Look)
    (h1 : ∀ ns, hash ns ≠ -1)
    (h2 : ∀ a ∈ q :: hist, ∀ b ∈ q :: hist, hash (a.seq num) = hash (b.seq num) → a.seq num = b.seq num)
    (hq : q.Legal num) :
    ∃ m, (look hash d num (runLook hash d num hist) q).1 = some m ∧
      (∀ n, (∃ v, Dict.get m n = some v) ↔ n ∈ q.seq num) ∧
      ∀ n v, Dict.get m n = some v → ∀ e l, (e, l) ∈ v ↔ ∃ row, (e, row) ∈ d ∧ row[l]? = some n := by
  have hinv : ∀ (h : List Look) (s : FC) (past : List (List ℕ)),
      (∀ x ∈ h, x ∈ hist) → (∀ ms ∈ past, ∃ a ∈ hist, ms = a.seq num) → FInv hash d past s →
      ∃ past', FInv hash d past' (h.foldl (fun s q => (look hash d num s q).2) s) ∧
        ∀ ms ∈ past', ∃ a ∈ hist, ms = a.seq num := by
    intro h
    induction h with
    | nil => intro s past _ hp hs; exact ⟨past, hs, hp⟩
    | cons a h ih =>
      intro s past hsub hp hs
      have ha := hsub a (by simp)
      have hst := (look_spec (num := num) hs a h1 (by
        intro ms hms he
        obtain ⟨b, hb, rfl⟩ := hp ms hms
        exact h2 b (by simp [hb]) a (by simp [ha]) he)).2
      refine ih _ _ (fun x hx => hsub x (by simp [hx])) ?_ hst
      intro ms hms
      rcases List.mem_cons.mp hms with rfl | hms
      · exact ⟨a, ha, rfl⟩
      · exact hp ms hms
  obtain ⟨past, hs, hp⟩ := hinv hist ⟨[], -1, []⟩ [] (fun x hx => hx) (by simp)
    ⟨by intro n v hv; simp [Dict.get] at hv, Or.inl rfl⟩
  obtain ⟨m, hm, hget⟩ := (look_spec (num := num) hs q h1 (by
    intro ms hms he
    obtain ⟨b, hb, rfl⟩ := hp ms hms
    exact h2 b (by simp [hb]) q (by simp) he)).1 hq
  refine ⟨m, hm, ?_, ?_⟩
  · intro n
    rw [hget n]
    split_ifs with hn <;> simp [hn]
  · intro n v hv e l
    rw [hget n] at hv
    split_ifs at hv with hn
    simp only [Option.some.injEq] at hv
    rw [← hv]
    exact mem_rankPlaces

/-- A hash function and a history meeting the hypotheses, and the answer. -/
example : (look (fun ns => ns.foldl (fun a n => a * 10 + n + 1) 0) [(4, [0, 1]), (7, [1, 2])] 3
    (runLook (fun ns => ns.foldl (fun a n => a * 10 + n + 1) 0) [(4, [0, 1]), (7, [1, 2])] 3
      [.many [1, 2], .one (-1)]) (.many [1])).1 = some [(1, [(4, 1), (7, 0)])] := by decide +kernel

/-- The position of a local dof of an unknown in the chained system is its chained number: in every element that
holds the same dof of the same unknown, the chain has this number there. -/
theorem number_of_local {gms : List DGM} {c : DGM} (hd : ∀ g ∈ gms, Distinct g) (hc : chain gms = some c)
    {i e l n : ℕ} {g : DGM} (hg : gms[i]? = some g) (he : Elem g e) (hl : (g.at e)[l]? = some n) :
    ∃ v, numberOfLocal gms c i e l = some v ∧ ∀ (e' k : ℕ), Elem g e' →
      (dofsOf (gms.map fun g => g.at e'))[k]? = some (i, n) → (c.at e')[k]? = some v := by
  obtain ⟨rn, hrow, hinj, hcd, hcc, hgc, hel⟩ := chain_ren hd hc
  have hgm := List.mem_of_getElem? hg
  have hece := (hel g hgm e).mpr he
  have hplace := cells_place hg (e := e) hl
  refine ⟨rn (i, n), ?_, ?_⟩
  · unfold numberOfLocal
    cases hf : c.findIdx? fun d => decide (e ∈ Dict.keys d) with
    | none =>
      exfalso
      rw [List.findIdx?_eq_none_iff] at hf
      obtain ⟨d, hdm, p, hp, rfl⟩ := elem_iff.mp hece
      have := hf d hdm
      simp only [decide_eq_false_iff_not] at this
      exact this (List.mem_map.mpr ⟨p, hp, rfl⟩)
    | some _ =>
      simp only
      rw [hrow e hece, List.getElem?_map, hplace]; rfl
  · intro e' k he' hk
    rw [hrow e' ((hel g hgm e').mpr he'), List.getElem?_map, cells_eq, hk]; rfl

example : (chain [gA, gB]).bind (fun c => numberOfLocal [gA, gB] c 1 1 0) = some 4 := by decide +kernel

/-- Asking for the chained number of a dof of an unknown by its global number is wrong: dof 1 of the first unknown
is local dof 1 of element 0 and has the chained number 1, but 0, the number of another dof, is returned, because the
rank and the element of the dof are taken for its element and its local index. -/
theorem number_of_global_refuted :
    ∃ c, chain [gA, gB] = some c ∧ (gA.at 0)[1]? = some 1 ∧ (c.at 0)[1]? = some 1 ∧
      numberOfLocal [gA, gB] c 0 0 1 = some 1 ∧ numberOfGlobal [gA, gB] c 0 1 = some 0 :=
  ⟨[[(0, [0, 1, 2])], [(1, [1, 3, 4])]], by decide +kernel⟩

/-! ### C51 -/

theorem entryAt_append (a b : List (ℕ × ℕ × ℚ)) (r c : ℕ) : entryAt (a ++ b) r c = entryAt a r c + entryAt b r c := by
  unfold entryAt
  rw [List.filter_append, List.map_append, List.sum_append]

theorem augment_entry (parts : List (List (ℕ × ℕ × ℚ))) (dep wid place master : ℕ) (hm : master < parts.length)
    (r c : ℕ) : globalEntry (augment parts dep wid place master) r c =
      globalEntry parts r c + entryAt [(dep, place, 1), (place, wid, 1)] r c := by
  unfold globalEntry augment
  have gen : ∀ (ps : List (List (ℕ × ℕ × ℚ))) (off : ℕ),
      (((ps.zipIdx off).map fun q => if q.2 = master then q.1 ++ [(dep, place, 1), (place, wid, 1)] else q.1).map
        fun t => entryAt t r c).sum = (ps.map fun t => entryAt t r c).sum +
        if off ≤ master ∧ master < off + ps.length then entryAt [(dep, place, 1), (place, wid, 1)] r c else 0 := by
    intro ps
    induction ps with
    | nil => intro off; simp
    | cons p ps ih =>
      intro off
      rw [List.zipIdx_cons]
      simp only [List.map_cons, List.sum_cons]
      rw [ih (off + 1)]
      simp only [List.length_cons]
      by_cases h1 : off = master
      · rw [if_pos h1, entryAt_append, if_neg (by omega), if_pos (by omega)]; ring
      · rw [if_neg h1]
        by_cases h2 : off + 1 ≤ master ∧ master < off + 1 + ps.length
        · rw [if_pos h2, if_pos (by omega)]; ring
        · rw [if_neg h2, if_neg (by omega)]; ring
  rw [gen parts 0, if_pos (by omega)]

theorem entry_outside {parts : List (List (ℕ × ℕ × ℚ))} {dep wid : ℕ}
    (hin : ∀ t ∈ parts, ∀ x ∈ t, x.1 < dep ∧ x.2.1 < wid) {r c : ℕ} (h : dep ≤ r ∨ wid ≤ c) :
    globalEntry parts r c = 0 := by
  unfold globalEntry
  have hz : ∀ t ∈ parts, entryAt t r c = 0 := by
    intro t ht
    unfold entryAt
    rw [List.filter_eq_nil_iff.mpr]
    · rfl
    · intro x hx
      have := hin t ht x hx
      simp only [decide_eq_true_eq]
      omega
  clear hin
  induction parts with
  | nil => rfl
  | cons t ts ih =>
    rw [List.map_cons, List.sum_cons, hz t (by simp), ih (fun t ht => hz t (by simp [ht])), add_zero]

/-- Appending a constraint for a local dof of an unknown: the new last row has a one at the chained number of the
dof and zeros elsewhere, the new last column likewise, and the other entries are those of the assembled matrix.
For the variant naming the dof by its global number see `number_of_global_refuted`. -/
theorem augmented_partial {gms : List DGM} {c : DGM} (hd : ∀ g ∈ gms, Distinct g) (hc : chain gms = some c)
    {i e l n : ℕ} {g : DGM} (hg : gms[i]? = some g) (he : Elem g e) (hl : (g.at e)[l]? = some n)
    (parts : List (List (ℕ × ℕ × ℚ))) (hin : ∀ t ∈ parts, ∀ x ∈ t, x.1 < c.num ∧ x.2.1 < c.num)
    (master : ℕ) (hm : master < parts.length) :
    ∃ place, numberOfLocal gms c i e l = some place ∧ place < c.num ∧
      (∀ (e' k : ℕ), Elem g e' → (dofsOf (gms.map fun g => g.at e'))[k]? = some (i, n) →
        (c.at e')[k]? = some place) ∧
      ∀ r k, globalEntry (augment parts c.num c.num place master) r k =
        if r = c.num then (if k = place then 1 else 0)
        else if k = c.num then (if r = place then 1 else 0)
        else globalEntry parts r k := by
  obtain ⟨v, hv, hall⟩ := number_of_local hd hc hg he hl
  obtain ⟨_, _, hcd, hcc, _, hel⟩ : ∃ rn : ℕ × ℕ → ℕ, (∀ e, Elem c e → c.at e = (cells gms e).map rn) ∧
      Distinct c ∧ Contiguous c.nums c.num ∧ True ∧ ∀ g ∈ gms, ∀ e, Elem c e ↔ Elem g e := by
    obtain ⟨rn, h1, _, h3, h4, _, h6⟩ := chain_ren hd hc
    exact ⟨rn, h1, h3, h4, trivial, h6⟩
  have hece := (hel g (List.mem_of_getElem? hg) e).mpr he
  have hvlt : v < c.num := by
    have hin' : (i, n) ∈ dofsOf (gms.map fun g => g.at e) := by
      rw [← cells_eq]
      exact mem_cells.mpr ⟨g, hg, List.mem_of_getElem? hl⟩
    obtain ⟨k, hk⟩ := List.mem_iff_getElem?.mp hin'
    exact (hcc v).mp ((mem_nums hcd).mpr ⟨e, hece, List.mem_of_getElem? (hall e k he hk)⟩)
  refine ⟨v, hv, hvlt, hall, ?_⟩
  intro r k
  rw [augment_entry _ _ _ _ _ hm]
  simp only [entryAt, List.filter_cons, List.filter_nil]
  by_cases h1 : r = c.num
  · rw [entry_outside hin (Or.inl (le_of_eq h1.symm)), if_pos h1]
    subst h1
    by_cases h2 : k = v
    · subst h2
      rw [if_pos rfl]
      rw [if_pos (by simp), if_neg (by simp; omega)]
      simp
    · rw [if_neg h2, if_neg (by simp; exact fun hh => h2 hh.symm), if_neg (by simp; omega)]
      simp
  · rw [if_neg h1]
    by_cases h2 : k = c.num
    · rw [entry_outside hin (Or.inr (le_of_eq h2.symm)), if_pos h2]
      by_cases h3 : r = v
      · rw [if_pos h3, if_neg (by simp; omega), if_pos (by simp; omega)]
        simp
      · rw [if_neg h3, if_neg (by simp; omega), if_neg (by simp; omega)]
        simp
    · rw [if_neg h2, if_neg (by simp; omega), if_neg (by simp; omega)]
      simp

example : globalEntry (augment [[(0, 0, 5)], [(0, 0, 2), (1, 3, 7)]] 5 5 4 0) 5 4 = 1 ∧
    globalEntry (augment [[(0, 0, 5)], [(0, 0, 2), (1, 3, 7)]] 5 5 4 0) 0 0 = 7 := by decide +kernel

/-! ### C64 -/

/-- Matrices made from roots, none of whose addresses has been reused. -/
inductive Made (heap : ℕ → DGM) : Obj → Prop where
  | root (a : ℕ) : Made heap (Obj.root heap a)
  | chain (o : Obj) (h : chain (o.sig.map heap) = some o.gm) : Made heap o

/-- The cache holds chains of roots. -/
def GoodChains (heap : ℕ → DGM) (cache : Dict (List ℕ) DGM) : Prop :=
  ∀ sig c, Dict.get cache sig = some c → chain (sig.map heap) = some c

theorem Made.sig_ne {heap : ℕ → DGM} {o : Obj} (h : Made heap o) : o.sig ≠ [] := by
  cases h with
  | root a => simp [Obj.root]
  | chain o h => intro he; rw [he] at h; simp [Chaining.chain] at h

/-- Chaining made matrices is chaining their roots. -/
theorem made_flat {heap : ℕ → DGM} (hd : ∀ a, Distinct (heap a)) : ∀ (objs : List Obj) (pre : List DGM),
    (∀ o ∈ objs, Made heap o) → (pre ≠ [] ∨ 2 ≤ objs.length) →
    chain (pre ++ objs.map Obj.gm) = chain (pre ++ (objs.flatMap Obj.sig).map heap) := by
  intro objs
  induction objs with
  | nil => intro pre _ _; simp
  | cons o objs ih =>
    intro pre hm hlen
    have ho := hm o (by simp)
    have hne : pre ++ objs.map Obj.gm ≠ [] := by
      rcases hlen with h | h
      · simp [h]
      · intro hh
        simp only [List.append_eq_nil_iff, List.map_eq_nil_iff] at hh
        rw [hh.2] at h
        simp at h
    have step : chain (pre ++ o.gm :: objs.map Obj.gm) = chain (pre ++ o.sig.map heap ++ objs.map Obj.gm) := by
      cases ho with
      | root a => simp [Obj.root]
      | chain o h =>
        exact nested_flat (by
          intro g hg
          obtain ⟨a, _, rfl⟩ := List.mem_map.mp hg
          exact hd a) h hne
    rw [List.map_cons, step, ih (pre ++ o.sig.map heap) (fun x hx => hm x (by simp [hx]))
      (Or.inl (by simp [ho.sig_ne])), List.flatMap_cons, List.map_append, List.append_assoc]

/-- As long as no address of a root matrix is reused, making a matrix from made matrices gives their chain whatever
was chained before, even though the cache does not know how the parts are nested; the result is again a made matrix
and the cache stays good.  With reused addresses see `chain_cache_refuted`. -/
theorem chain_cache_partial {heap : ℕ → DGM} (hd : ∀ a, Distinct (heap a)) {cache : Dict (List ℕ) DGM}
    (hg : GoodChains heap cache) (objs : List Obj) (hm : ∀ o ∈ objs, Made heap o) :
    (makeChain cache objs).1.map Obj.gm =
      (match objs with
        | [] => none
        | [o] => some o.gm
        | _ => chain (objs.map Obj.gm)) ∧
    (∀ o, (makeChain cache objs).1 = some o → Made heap o) ∧ GoodChains heap (makeChain cache objs).2 := by
  match objs, hm with
  | [], _ => exact ⟨rfl, by simp [makeChain], hg⟩
  | [o], hm => exact ⟨rfl, by intro o' h; simp [makeChain] at h; rw [← h]; exact hm o (by simp), hg⟩
  | o :: o' :: os, hm =>
    have hfl := made_flat hd (o :: o' :: os) [] hm (Or.inr (by simp))
    simp only [List.nil_append] at hfl
    unfold makeChain
    simp only
    cases hc : Dict.get cache ((o :: o' :: os).flatMap Obj.sig) with
    | some c =>
      simp only
      have := hg _ _ hc
      refine ⟨?_, ?_, hg⟩
      · rw [hfl, this]; rfl
      · intro x hx
        simp only [Option.some.injEq] at hx
        rw [← hx]
        exact Made.chain _ this
    | none =>
      simp only
      cases hch : chain ((o :: o' :: os).map Obj.gm) with
      | none => exact ⟨rfl, by simp, hg⟩
      | some c =>
        simp only
        rw [hch] at hfl
        refine ⟨rfl, ?_, ?_⟩
        · intro x hx
          simp only [Option.some.injEq] at hx
          rw [← hx]
          exact Made.chain _ hfl.symm
        · intro sig c' hs
          rw [Dict.get_put] at hs
          split_ifs at hs with he
          · simp only [Option.some.injEq] at hs
            rw [he, ← hs]; exact hfl.symm
          · exact hg sig c' hs

/-- A part of a request: a root or an earlier result. -/
def part (heap : ℕ → DGM) (done : List Obj) : ℕ ⊕ ℕ → Option Obj
  | .inl a => some (Obj.root heap a)
  | .inr k => done[k]?

/-- Making chains one after another, each from roots (given by address) and earlier results (given by number). -/
def makeAll (heap : ℕ → DGM) : List (List (ℕ ⊕ ℕ)) → List Obj → Dict (List ℕ) DGM → List Obj × Dict (List ℕ) DGM
  | [], done, cache => (done, cache)
  | req :: reqs, done, cache =>
    let r := makeChain cache (req.filterMap (part heap done))
    makeAll heap reqs (done ++ r.1.toList) r.2

/-- Every matrix made in a history of chainings is the flat chain of its roots. -/
theorem chain_history_partial {heap : ℕ → DGM} (hd : ∀ a, Distinct (heap a)) (reqs : List (List (ℕ ⊕ ℕ))) :
    ∀ o ∈ (makeAll heap reqs [] []).1, (∃ a, o = Obj.root heap a) ∨ chain (o.sig.map heap) = some o.gm := by
  have gen : ∀ (reqs : List (List (ℕ ⊕ ℕ))) (done : List Obj) (cache : Dict (List ℕ) DGM),
      (∀ o ∈ done, Made heap o) → GoodChains heap cache →
      ∀ o ∈ (makeAll heap reqs done cache).1, Made heap o := by
    intro reqs
    induction reqs with
    | nil => intro done cache h _; exact h
    | cons req reqs ih =>
      intro done cache h hg
      rw [makeAll]
      have hm : ∀ o ∈ req.filterMap (part heap done), Made heap o := by
        intro o ho
        obtain ⟨x, _, hx⟩ := List.mem_filterMap.mp ho
        cases x with
        | inl a => simp only [part, Option.some.injEq] at hx; rw [← hx]; exact Made.root a
        | inr k => exact h o (List.mem_of_getElem? hx)
      obtain ⟨_, c2, c3⟩ := chain_cache_partial hd hg _ hm
      refine ih _ _ ?_ c3
      intro o' ho'
      rcases List.mem_append.mp ho' with ho' | ho'
      · exact h o' ho'
      · exact c2 o' (by simpa using ho')
  intro o ho
  cases gen reqs [] [] (by simp) (by intro s c h; simp [Dict.get] at h) o ho with
  | root a => exact Or.inl ⟨a, rfl⟩
  | chain o h => exact Or.inr h

/-- Roots at addresses 0 and 1; the third request finds the chain of the second in the cache. -/
example : (makeAll (fun a => if a = 0 then gA else gB) [[.inl 0, .inl 1], [.inr 0, .inl 1], [.inl 0, .inl 1, .inl 1]]
    [] []).1.map Obj.gm = [[[(0, [0, 1, 2])], [(1, [1, 3, 4])]], [[(0, [0, 1, 2, 3])], [(1, [1, 4, 5, 6])]],
      [[(0, [0, 1, 2, 3])], [(1, [1, 4, 5, 6])]]] := by decide +kernel

/-- If the matrix at an address is dropped and another one is made there, the chain of the old one is returned: the
cache keeps only the addresses. -/
theorem chain_cache_refuted :
    let before := makeChain [] [Obj.root (fun _ => gA) 0, Obj.root (fun _ => gA) 1]
    (makeChain before.2 [Obj.root (fun _ => gB) 0, Obj.root (fun _ => gB) 1]).1.map Obj.gm =
      some [[(0, [0, 1, 2, 3])], [(1, [1, 4, 3, 5])]] ∧
    chain [gB, gB] = some [[(0, [0, 1])], [(1, [2, 3])]] := by decide +kernel

/-! ### C65 -/

/-- On a rank, two matrices with the same numbers of local dofs compare equal exactly if they have the same elements
with the same numbering. -/
theorem eq_partial {s o : Dict ℕ (List ℕ)} (hs : (Dict.keys s).Nodup) (ho : (Dict.keys o).Nodup)
    (hlen : ∀ e a b, Dict.get s e = some a → Dict.get o e = some b → a.length = b.length) :
    ∃ r, eqRank s o = some r ∧ (r = true ↔ ∀ e, Dict.get s e = Dict.get o e) := by
  have loop : ∀ (d : Dict ℕ (List ℕ)), (∀ p ∈ d, p ∈ s) →
      ∃ r, eqLoop o d = some r ∧ (r = true ↔ ∀ p ∈ d, Dict.get o p.1 = some p.2) := by
    intro d
    induction d with
    | nil => intro _; exact ⟨true, rfl, by simp⟩
    | cons p d ih =>
      intro hd
      obtain ⟨e, a⟩ := p
      obtain ⟨r, h1, h2⟩ := ih (fun q hq => hd q (by simp [hq]))
      have hsa : Dict.get s e = some a := Dict.get_of_mem s hs e a (hd _ (by simp))
      rw [eqLoop]
      cases hoe : Dict.get o e with
      | none => exact ⟨false, rfl, by simp [hoe]⟩
      | some b =>
        simp only
        unfold npAllEq
        rw [if_pos (hlen e a b hsa hoe)]
        by_cases hab : a = b
        · subst hab
          refine ⟨r, by simp [h1], ?_⟩
          rw [h2]; simp [hoe]
        · refine ⟨false, by simp [hab], ?_⟩
          simp only [Bool.false_eq_true, false_iff]
          intro hh
          have := hh (e, a) (by simp)
          simp only [hoe, Option.some.injEq] at this
          exact hab this.symm
  unfold eqRank
  split_ifs with hl
  · obtain ⟨r, h1, h2⟩ := loop s (fun p hp => hp)
    refine ⟨r, h1, ?_⟩
    rw [h2]
    constructor
    · intro h e
      cases he : Dict.get s e with
      | some a => exact (h (e, a) (Dict.get_mem s e a he)).symm
      | none =>
        by_contra hne
        have hoe : e ∈ Dict.keys o := by
          rw [← Dict.get_isSome]
          cases hx : Dict.get o e with
          | none => exact absurd hx.symm hne
          | some _ => rfl
        have hsub : Dict.keys s ⊆ Dict.keys o := by
          intro k hk
          obtain ⟨p, hp, rfl⟩ := List.mem_map.mp hk
          rw [← Dict.get_isSome, h p hp]; rfl
        have hperm := (List.subperm_of_subset hs hsub).perm_of_length_le
          (by rw [Dict.keys_length, Dict.keys_length]; omega)
        have := hperm.mem_iff.mpr hoe
        rw [← Dict.get_isSome, he] at this
        simp at this
    · intro h p hp
      rw [← h p.1]
      exact Dict.get_of_mem s hs p.1 p.2 hp
  · refine ⟨false, rfl, ?_⟩
    simp only [Bool.false_eq_true, false_iff]
    intro h
    apply hl
    have : (Dict.keys s).Perm (Dict.keys o) := by
      refine (List.perm_ext_iff_of_nodup hs ho).mpr ?_
      intro k
      rw [← Dict.get_isSome, ← Dict.get_isSome, h k]
    have := this.length_eq
    rwa [Dict.keys_length, Dict.keys_length] at this

example : eqRank [(0, [0, 1]), (1, [1, 2])] [(1, [1, 2]), (0, [0, 1])] = some true ∧
    eqRank [(0, [0, 1]), (1, [1, 2])] [(1, [1, 3]), (0, [0, 1])] = some false := by decide +kernel

/-- With different numbers of local dofs, matrices with different numberings compare equal: numpy broadcasts a row
of one number. -/
theorem eq_refuted : eqRank [(0, [5])] [(0, [5, 5])] = some true ∧ eqRank [(0, [])] [(0, [5])] = some true := by
  decide +kernel

end Phyem.Chaining
