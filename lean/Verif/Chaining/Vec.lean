import Verif.Chaining.Dist
import Verif.ArrayCache.Props

/-!
Lemmas on vectors over distributed matrices and on look-ups.
-/

namespace Phyem.Chaining

theorem writeVec_map (F : ℕ → ℚ) : ∀ (ns : List ℕ) (vec : ℕ → ℚ) (m : ℕ),
    writeVec vec ns (ns.map F) m = if m ∈ ns then F m else vec m := by
  intro ns
  induction ns with
  | nil => intro vec m; simp [writeVec]
  | cons n ns ih =>
    intro vec m
    rw [List.map_cons, writeVec, ih]
    by_cases h1 : m ∈ ns
    · rw [if_pos h1, if_pos (List.mem_cons_of_mem _ h1)]
    · by_cases h2 : m = n
      · subst h2; simp [h1]
      · simp [h1, h2]

theorem fold_rank (F : ℕ → ℚ) (data : ℕ → List ℚ) : ∀ (d : Dict ℕ (List ℕ)),
    (∀ p ∈ d, data p.1 = p.2.map F) → ∀ (vec : ℕ → ℚ) (m : ℕ),
    d.foldl (fun vec p => writeVec vec p.2 (data p.1)) vec m =
      if m ∈ (d.flatMap fun p => p.2) then F m else vec m := by
  intro d
  induction d with
  | nil => intro _ vec m; simp
  | cons p d ih =>
    intro h vec m
    rw [List.foldl_cons, ih (fun q hq => h q (by simp [hq])), h p (by simp), writeVec_map, List.flatMap_cons]
    by_cases h1 : m ∈ d.flatMap fun p => p.2
    · rw [if_pos h1, if_pos (List.mem_append.mpr (Or.inr h1))]
    · rw [if_neg h1]
      by_cases h2 : m ∈ p.2
      · rw [if_pos h2, if_pos (List.mem_append.mpr (Or.inl h2))]
      · rw [if_neg h2, if_neg (by rw [List.mem_append]; tauto)]

theorem fold_all (F : ℕ → ℚ) (data : ℕ → List ℚ) : ∀ (g : DGM),
    (∀ d ∈ g, ∀ p ∈ d, data p.1 = p.2.map F) → ∀ (vec : ℕ → ℚ) (m : ℕ),
    g.foldl (fun vec d => d.foldl (fun vec p => writeVec vec p.2 (data p.1)) vec) vec m =
      if m ∈ g.nums then F m else vec m := by
  intro g
  induction g with
  | nil => intro _ vec m; simp [DGM.nums]
  | cons d g ih =>
    intro h vec m
    rw [List.foldl_cons, ih (fun q hq => h q (by simp [hq])), fold_rank F data d (h d (by simp))]
    have e : DGM.nums (d :: g) = (d.flatMap fun p => p.2) ++ DGM.nums g := by
      unfold DGM.nums; rw [List.flatMap_cons]
    rw [e]
    by_cases h1 : m ∈ DGM.nums g
    · rw [if_pos h1, if_pos (List.mem_append.mpr (Or.inr h1))]
    · rw [if_neg h1]
      by_cases h2 : m ∈ d.flatMap fun p => p.2
      · rw [if_pos h2, if_pos (List.mem_append.mpr (Or.inl h2))]
      · rw [if_neg h2, if_neg (by rw [List.mem_append]; tauto)]

/-- Assembling data that agree on shared dofs. -/
theorem assemble_of {g : DGM} (hd : Distinct g) (hc : Contiguous g.nums g.num) (F : ℕ → ℚ)
    {data : ℕ → List ℚ} (h : ∀ e, Elem g e → data e = (g.at e).map F) :
    assemble g data = some ((List.range g.num).map F) := by
  have h' : ∀ d ∈ g, ∀ p ∈ d, data p.1 = p.2.map F := by
    intro d hdm p hp
    rw [h p.1 (elem_iff.mpr ⟨d, hdm, p, hp, rfl⟩), at_eq hd hdm hp]
  unfold assemble
  rw [if_pos (by intro d hdm p hp; rw [h' d hdm p hp, List.length_map])]
  congr 1
  apply List.map_congr_left
  intro m hm
  rw [fold_all F data g h', if_pos ((hc m).mpr (List.mem_range.mp hm))]

theorem pick_map {κ : Type} (V : List ℚ) (ks : List κ) (rn : κ → ℕ) :
    pick V (ks.map rn) = ks.map fun x => V.getD (rn x) 0 := by
  unfold pick; rw [List.map_map]; rfl

/-- Cutting the values of an element at the numbers of local dofs. -/
theorem cut_spec (e : ℕ) (F : ℕ × ℕ → ℚ) : ∀ (gms : List DGM) (off i : ℕ) (g : DGM), gms[i]? = some g →
    (cut (gms.map fun g => (g.at e).length) ((cellsFrom off gms e).map F)).getD i [] =
      (g.at e).map fun n => F (off + i, n) := by
  intro gms
  induction gms with
  | nil => intro off i g h; simp at h
  | cons g0 gms ih =>
    intro off i g h
    have e1 : cellsFrom off (g0 :: gms) e = ((g0.at e).map fun n => (off, n)) ++ cellsFrom (off + 1) gms e := by
      unfold cellsFrom; rw [List.zipIdx_cons, List.flatMap_cons]
    rw [e1, List.map_append, List.map_map, List.map_cons, cut]
    cases i with
    | zero =>
      simp only [List.getElem?_cons_zero, Option.some.injEq] at h
      subst h
      rw [List.getD_cons_zero, List.take_left' (by simp)]
      rfl
    | succ i =>
      rw [List.getD_cons_succ, List.drop_left' (by simp), ih (off + 1) i g (by simpa using h)]
      congr 1
      funext n
      rw [show off + 1 + i = off + (i + 1) by omega]

/-! ### Look-ups -/

theorem mem_whereRow {e n : ℕ} : ∀ {row : List ℕ} {k : ℕ} {x : ℕ × ℕ},
    x ∈ whereRow e n row k ↔ x.1 = e ∧ ∃ l, x.2 = k + l ∧ row[l]? = some n := by
  intro row
  induction row with
  | nil => intro k x; simp [whereRow]
  | cons y row ih =>
    intro k x
    rw [whereRow, List.mem_append, ih]
    constructor
    · rintro (h | ⟨h1, l, h2, h3⟩)
      · split_ifs at h with hy
        · simp only [List.mem_singleton] at h
          subst h
          exact ⟨rfl, 0, rfl, by simp [hy]⟩
        · simp at h
      · exact ⟨h1, l + 1, by omega, by simpa using h3⟩
    · rintro ⟨h1, l, h2, h3⟩
      cases l with
      | zero =>
        left
        simp only [List.getElem?_cons_zero, Option.some.injEq] at h3
        rw [if_pos h3, List.mem_singleton]
        exact Prod.ext h1 h2
      | succ l =>
        right
        exact ⟨h1, l, by omega, by simpa using h3⟩

theorem sorted_whereRow {e n : ℕ} : ∀ {row : List ℕ} {k : ℕ},
    (whereRow e n row k).Pairwise fun x y => x.2 < y.2 := by
  intro row
  induction row with
  | nil => intro k; simp [whereRow]
  | cons y row ih =>
    intro k
    rw [whereRow, List.pairwise_append]
    refine ⟨by split_ifs <;> simp, ih, ?_⟩
    intro a ha b hb
    obtain ⟨_, l, h2, _⟩ := mem_whereRow.mp hb
    split_ifs at ha with hy
    · simp only [List.mem_singleton] at ha
      subst ha
      simp only
      omega
    · simp at ha

theorem mem_whereGM {g : GM} {n : ℕ} {x : ℕ × ℕ} : x ∈ whereGM g n ↔ x.1 < g.length ∧ (rowOf g x.1)[x.2]? = some n := by
  unfold whereGM
  simp only [List.mem_flatMap, List.mem_zipIdx_iff_getElem?, mem_whereRow]
  constructor
  · rintro ⟨q, hq, h1, l, h2, h3⟩
    have hlt := (List.getElem?_eq_some_iff.mp hq).1
    unfold rowOf
    rw [h1, hq]
    refine ⟨hlt, ?_⟩
    rw [h2]; simpa using h3
  · rintro ⟨h1, h2⟩
    refine ⟨(rowOf g x.1, x.1), ?_, rfl, x.2, by omega, h2⟩
    unfold rowOf
    simp only
    rw [List.getElem?_eq_getElem h1]; rfl

theorem foldl_put_get {V : Type} (F : ℕ → V) : ∀ (ns : List ℕ) (d : Dict ℕ V) (n : ℕ),
    Dict.get (ns.foldl (fun m d => Dict.put m d (F d)) d) n = if n ∈ ns then some (F n) else Dict.get d n := by
  intro ns
  induction ns with
  | nil => intro d n; simp
  | cons a ns ih =>
    intro d n
    rw [List.foldl_cons, ih]
    by_cases h1 : n ∈ ns
    · rw [if_pos h1, if_pos (List.mem_cons_of_mem _ h1)]
    · rw [if_neg h1, Dict.get_put]
      by_cases h2 : n = a
      · subst h2; simp
      · simp [h1, h2]

/-- Small naturals that are close are equal. -/
theorem close_nat {a b : ℕ} (ha : a < 99999) (h : |(a : ℚ) - b| ≤ 1 / 10 ^ 8 + 1 / 10 ^ 5 * |(b : ℚ)|) : a = b := by
  have hb0 : (0 : ℚ) ≤ b := by exact_mod_cast Nat.zero_le b
  have ha' : (a : ℚ) ≤ 99998 := by exact_mod_cast (by omega : a ≤ 99998)
  rw [abs_of_nonneg hb0] at h
  obtain ⟨h1, h2⟩ := abs_le.mp h
  have hb : (b : ℚ) < 100000 := by linarith
  have hb' : b < 100000 := by exact_mod_cast hb
  have h3 : (a : ℚ) - b < 1 := by linarith
  have hb2 : (b : ℚ) ≤ 99999 := by exact_mod_cast (by omega : b ≤ 99999)
  have h3 : (a : ℚ) - b < 1 := by linarith
  have h4 : (b : ℚ) - a < 1 := by linarith
  have h5 : (a : ℚ) < b + 1 := by linarith
  have h6 : (b : ℚ) < a + 1 := by linarith
  have h5' : a < b + 1 := by exact_mod_cast h5
  have h6' : b < a + 1 := by exact_mod_cast h6
  omega

theorem close_keyArr {as bs : List ℕ} (ha : ∀ a ∈ as, a < 99999)
    (h : ArrayCache.matches_ [keyArr as] [some (keyArr bs)] = true) : as = bs := by
  simp only [ArrayCache.matches_, Bool.and_true, Bool.and_eq_true, decide_eq_true_eq] at h
  obtain ⟨h1, h2⟩ := h
  rw [ArrayCache.allclose_iff] at h2
  have hl : as.length = bs.length := by simpa [keyArr] using h1
  apply List.ext_getElem hl
  intro i hi hi'
  refine close_nat (ha _ (List.getElem_mem hi)) (h2 i _ _ ?_ ?_)
  · simp [keyArr, hi]
  · simp [keyArr, hi']

/-- Every entry of the cache of a gathering matrix is a correct answer to a legal look-up. -/
def GoodFind (g : GM) (s : ArrayCache.S (Dict ℕ (List (ℕ × ℕ)))) : Prop :=
  ∀ q ∈ s.cache, ∃ ds n, numDofs g = some n ∧ (∀ d ∈ ds, d < n) ∧ q.2.arrays = [keyArr ds] ∧
    locate g ds = some q.2.value

theorem mem_put {K V : Type} [DecidableEq K] {d : Dict K V} {k : K} {v : V} {p : K × V}
    (h : p ∈ Dict.put d k v) : p ∈ d ∨ p = (k, v) := by
  induction d with
  | nil => simp [Dict.put] at h; exact Or.inr h
  | cons q d ih =>
    obtain ⟨a, w⟩ := q
    simp only [Dict.put] at h
    split_ifs at h with he
    · rcases List.mem_cons.mp h with h | h
      · exact Or.inr (by rw [h, he])
      · exact Or.inl (List.mem_cons_of_mem _ h)
    · rcases List.mem_cons.mp h with h | h
      · exact Or.inl (by rw [h]; exact List.mem_cons_self)
      · rcases ih h with h | h
        · exact Or.inl (List.mem_cons_of_mem _ h)
        · exact Or.inr h

theorem mem_evict {V : Type} {d : Dict ℕ (ArrayCache.Entry V)} {m : ℕ} {p : ℕ × ArrayCache.Entry V}
    (h : p ∈ ArrayCache.evict d m) : p ∈ d := by
  unfold ArrayCache.evict at h
  split_ifs at h with hc
  · clear hc
    generalize ((d.keys.insertionSort (· ≤ ·)).take m) = ks at h
    induction ks generalizing d with
    | nil => exact h
    | cons k ks ih =>
      rw [List.foldl_cons] at h
      have := ih h
      unfold Dict.del at this
      exact List.mem_of_mem_filter this
  · exact h

theorem findDofs_good {g : GM} {s : ArrayCache.S (Dict ℕ (List (ℕ × ℕ)))} {n : ℕ} (hn : numDofs g = some n)
    (hlt : n < 100000) (h : GoodFind g s) (ds : List ℕ) :
    (findDofs g s ds).1 = locate g ds ∧ GoodFind g (findDofs g s ds).2 := by
  have hq : (ArrayCache.query s [some (keyArr ds)] "").2.cache = s.cache ∨
      (ArrayCache.query s [some (keyArr ds)] "").2.cache = [] := by
    unfold ArrayCache.query
    simp only
    split_ifs <;> first | exact Or.inl rfl | exact Or.inr rfl
  have hgood : GoodFind g (ArrayCache.query s [some (keyArr ds)] "").2 := by
    intro q hm
    rcases hq with hq | hq
    · rw [hq] at hm; exact h q hm
    · rw [hq] at hm; simp at hm
  have hfind : ∀ v, ArrayCache.find [some (keyArr ds)] "" s.cache = some v → locate g ds = some v := by
    intro v hv
    have key : ∀ d : Dict ℕ (ArrayCache.Entry (Dict ℕ (List (ℕ × ℕ)))),
        ArrayCache.find [some (keyArr ds)] "" d = some v → ∃ q ∈ d,
          ArrayCache.matches_ q.2.arrays [some (keyArr ds)] = true ∧ q.2.value = v := by
      intro d
      induction d with
      | nil => intro h; simp [ArrayCache.find] at h
      | cons q d ih =>
        obtain ⟨k, e⟩ := q
        intro h
        simp only [ArrayCache.find] at h
        split_ifs at h with hc
        · simp only [Option.some.injEq] at h
          exact ⟨(k, e), by simp, hc.2, h⟩
        · obtain ⟨q, h1, h2⟩ := ih h
          exact ⟨q, by simp [h1], h2⟩
    obtain ⟨q, hqm, hma, rfl⟩ := key _ hv
    obtain ⟨as, n', hn', hlt', harr, hloc⟩ := h q hqm
    rw [hn] at hn'
    simp only [Option.some.injEq] at hn'
    rw [harr] at hma
    have : as = ds := close_keyArr (fun a ha => by have := hlt' a ha; omega) hma
    rw [← this]; exact hloc
  have hres : ∀ v, (ArrayCache.query s [some (keyArr ds)] "").1 = some v → locate g ds = some v := by
    intro v hv
    apply hfind
    unfold ArrayCache.query at hv
    simp only at hv
    split_ifs at hv <;> exact hv
  unfold findDofs
  simp only
  cases hr : (ArrayCache.query s [some (keyArr ds)] "").1 with
  | some v => exact ⟨(hres v hr).symm, hgood⟩
  | none =>
    simp only
    cases hl : locate g ds with
    | none => exact ⟨rfl, hgood⟩
    | some v =>
      refine ⟨rfl, ?_⟩
      simp only
      unfold ArrayCache.addTo
      cases hi : (ArrayCache.query s [some (keyArr ds)] "").2.info with
      | none => exact hgood
      | some info =>
        simp only
        split_ifs with h1 h2
        · intro q hqm
          simp only at hqm
          rcases mem_put hqm with hqm | rfl
          · exact hgood q (mem_evict hqm)
          · have hran : ∀ d ∈ ds, d < n := by
              unfold locate at hl
              rw [hn] at hl
              simp only [Option.bind_some] at hl
              split_ifs at hl with hh
              exact hh
            exact ⟨ds, n, hn, hran, rfl, hl⟩
        · exact hgood
        · exact hgood

/-! ### Look-ups (msehtt) -/

theorem mem_rankPlaces {d : Dict ℕ (List ℕ)} {n : ℕ} {x : ℕ × ℕ} :
    x ∈ rankPlaces d n ↔ ∃ row, (x.1, row) ∈ d ∧ row[x.2]? = some n := by
  unfold rankPlaces
  simp only [List.mem_flatMap, mem_whereRow]
  constructor
  · rintro ⟨p, hp, h1, l, h2, h3⟩
    refine ⟨p.2, by rw [h1]; exact hp, ?_⟩
    rw [h2]; simpa using h3
  · rintro ⟨row, h1, h2⟩
    exact ⟨(x.1, row), h1, rfl, x.2, by omega, h2⟩

/-- A correct table of places. -/
def GoodCache (d : Dict ℕ (List ℕ)) (c : Dict ℕ (List (ℕ × ℕ))) : Prop :=
  ∀ n v, Dict.get c n = some v → v = rankPlaces d n

theorem findLoop_spec (d : Dict ℕ (List ℕ)) : ∀ (ns : List ℕ) (cache out : Dict ℕ (List (ℕ × ℕ))),
    GoodCache d cache → GoodCache d (findLoop d ns cache out).1 ∧
      ∀ n, Dict.get (findLoop d ns cache out).2 n = if n ∈ ns then some (rankPlaces d n) else Dict.get out n := by
  intro ns
  induction ns with
  | nil => intro cache out h; exact ⟨h, by simp [findLoop]⟩
  | cons a ns ih =>
    intro cache out h
    have fin : ∀ (out' : Dict ℕ (List (ℕ × ℕ))) (cache' : Dict ℕ (List (ℕ × ℕ))), GoodCache d cache' →
        out' = Dict.put out a (rankPlaces d a) → GoodCache d (findLoop d ns cache' out').1 ∧
        ∀ n, Dict.get (findLoop d ns cache' out').2 n =
          if n ∈ a :: ns then some (rankPlaces d n) else Dict.get out n := by
      intro out' cache' hc ho
      obtain ⟨h1, h2⟩ := ih cache' out' hc
      refine ⟨h1, ?_⟩
      intro n
      rw [h2, ho, Dict.get_put]
      by_cases h3 : n ∈ ns
      · rw [if_pos h3, if_pos (List.mem_cons_of_mem _ h3)]
      · by_cases h4 : n = a
        · subst h4; simp
        · simp [h3, h4]
    rw [findLoop]
    cases hg : Dict.get cache a with
    | some v =>
      simp only
      refine fin _ _ h ?_
      rw [h a v hg]
    | none =>
      simp only
      refine fin _ _ ?_ rfl
      intro n v hv
      rw [Dict.get_put] at hv
      split_ifs at hv with hn
      · simp only [Option.some.injEq] at hv; rw [← hv, hn]
      · exact h n v hv

/-- Invariant of the caches of a rank: `hist` are the sequences looked up so far. -/
structure FInv (hash : List ℕ → ℤ) (d : Dict ℕ (List ℕ)) (hist : List (List ℕ)) (s : FC) : Prop where
  cache : GoodCache d s.cache
  total : s.key = -1 ∨ ∃ ns ∈ hist, s.key = hash ns ∧
    ∀ n, Dict.get s.total n = if n ∈ ns then some (rankPlaces d n) else none

theorem findMany_inv {hash : List ℕ → ℤ} {d : Dict ℕ (List ℕ)} {hist : List (List ℕ)} {s : FC}
    (h : FInv hash d hist s) (ns : List ℕ) (h1 : hash ns ≠ -1) (h2 : ∀ ms ∈ hist, hash ms = hash ns → ms = ns) :
    (∀ n, Dict.get (findMany hash d s ns).1 n = if n ∈ ns then some (rankPlaces d n) else none) ∧
      FInv hash d (ns :: hist) (findMany hash d s ns).2 := by
  unfold findMany
  split_ifs with hk
  · rcases h.total with ht | ⟨ms, hms, hkey, htot⟩
    · exact absurd (hk.trans ht) h1
    · have := h2 ms hms (hkey.symm.trans hk.symm)
      subst this
      exact ⟨htot, ⟨h.cache, Or.inr ⟨ms, by simp, hkey, htot⟩⟩⟩
  · obtain ⟨f1, f2⟩ := findLoop_spec d ns s.cache [] h.cache
    have f3 : ∀ n, Dict.get (findLoop d ns s.cache []).2 n = if n ∈ ns then some (rankPlaces d n) else none := by
      intro n; rw [f2 n]; rfl
    exact ⟨f3, ⟨f1, Or.inr ⟨ns, by simp, rfl, f3⟩⟩⟩

end Phyem.Chaining
