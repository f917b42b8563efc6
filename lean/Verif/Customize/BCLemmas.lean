import Verif.Customize.BlockProps

/-!
Lemmas on `apply_essential_bc`.
-/

namespace Phyem.Customize

open Chaining Assembly Finset

/-! ### Places on ranks -/

/-- Row `r` of element `e` on rank `p` belongs to dof `d`. -/
def Place (g : DGM) (p e r d : ℕ) : Prop := ∃ D, g[p]? = some D ∧ (e, r) ∈ rankPlaces D d

theorem place_at {g : DGM} (h : Distinct g) {p e r d : ℕ} (hp : Place g p e r d) : (g.at e)[r]? = some d := by
  obtain ⟨D, h1, h2⟩ := hp
  obtain ⟨row, h3, h4⟩ := mem_rankPlaces.mp h2
  rw [at_eq h (List.mem_of_getElem? h1) h3]
  exact h4

theorem place_unique {g : DGM} (h : Distinct g) {p e r d d' : ℕ} (hp : Place g p e r d) (hp' : Place g p e r d') :
    d = d' := by
  have := place_at h hp
  rw [place_at h hp'] at this
  exact (Option.some.inj this).symm

theorem place_of_key {g : DGM} (h : Distinct g) {p e r d : ℕ} {D : Dict ℕ (List ℕ)} (hD : g[p]? = some D)
    (he : e ∈ Dict.keys D) (hr : (g.at e)[r]? = some d) : Place g p e r d := by
  obtain ⟨q, hq, rfl⟩ := List.mem_map.mp he
  refine ⟨D, hD, mem_rankPlaces.mpr ⟨q.2, hq, ?_⟩⟩
  rwa [at_eq h (List.mem_of_getElem? hD) hq] at hr

theorem place_key {g : DGM} {p e r d : ℕ} (h : Place g p e r d) : ∃ D, g[p]? = some D ∧ e ∈ Dict.keys D := by
  obtain ⟨D, h1, h2⟩ := h
  obtain ⟨row, h3, _⟩ := mem_rankPlaces.mp h2
  exact ⟨D, h1, List.mem_map.mpr ⟨_, h3, rfl⟩⟩

/-- A place of the chain is a place of one of the unknowns. -/
theorem chain_place {gms : List DGM} {c : DGM} (hd : ∀ g ∈ gms, Distinct g) (hc : chain gms = some c)
    {rn : ℕ × ℕ → ℕ} (hn : Names gms c rn) {p e R i : ℕ} (h : Place c p e R i) :
    ∃ k g r d, gms[k]? = some g ∧ decode (lens gms e) R = some (k, r) ∧ Place g p e r d ∧ rn (k, d) = i := by
  obtain ⟨_, _, _, hcd, _, _, _⟩ := chain_ren hd hc
  have h1 := place_at hcd h
  obtain ⟨D, hD, he⟩ := place_key h
  have hel : Elem c e := by
    obtain ⟨q, hq, rfl⟩ := List.mem_map.mp he
    exact elem_iff.mpr ⟨D, List.mem_of_getElem? hD, q, hq, rfl⟩
  rw [hn e hel, ← cells_eq, List.getElem?_map] at h1
  cases hx : (cells gms e)[R]? with
  | none => rw [hx] at h1; simp at h1
  | some x =>
    rw [hx, Option.map_some, Option.some.injEq] at h1
    obtain ⟨g, r, q1, q2, q3⟩ := cells_get.mp (show (cells gms e)[R]? = some (x.1, x.2) from hx)
    have hgm := List.mem_of_getElem? q1
    obtain ⟨hlen, hk⟩ := chain_keys hd hc hgm
    have hp := (List.getElem?_eq_some_iff.mp hD).1
    have hD' : g[p]? = some (g[p]'(by omega)) := List.getElem?_eq_getElem _
    refine ⟨x.1, g, r, x.2, q1, q3, ?_, h1⟩
    exact place_of_key (hd g hgm) hD' ((hk p D _ hD hD').mem_iff.mp he) q2

/-- The places of a dof of an unknown in the chain. -/
theorem chain_place_iff {gms : List DGM} {c : DGM} (hd : ∀ g ∈ gms, Distinct g) (hc : chain gms = some c)
    {rn : ℕ × ℕ → ℕ} (hn : Names gms c rn) {k d : ℕ} {g : DGM} (hg : gms[k]? = some g) (hdn : d ∈ g.nums)
    {p e R : ℕ} : Place c p e R (rn (k, d)) ↔ ∃ r, decode (lens gms e) R = some (k, r) ∧ Place g p e r d := by
  have hgm := List.mem_of_getElem? hg
  obtain ⟨_, _, _, hcd, _, _, hel⟩ := chain_ren hd hc
  obtain ⟨hlen, hk⟩ := chain_keys hd hc hgm
  constructor
  · intro h
    obtain ⟨D, hD, he⟩ := place_key h
    have hce : Elem c e := by
      obtain ⟨q, hq, rfl⟩ := List.mem_map.mp he
      exact elem_iff.mpr ⟨D, List.mem_of_getElem? hD, q, hq, rfl⟩
    obtain ⟨r, h1, h2⟩ := (chain_at hd hc hn hg hdn hce).mp (place_at hcd h)
    have hp := (List.getElem?_eq_some_iff.mp hD).1
    have hD' : g[p]? = some (g[p]'(by omega)) := List.getElem?_eq_getElem _
    exact ⟨r, h2, place_of_key (hd g hgm) hD' ((hk p D _ hD hD').mem_iff.mp he) h1⟩
  · rintro ⟨r, h1, h2⟩
    obtain ⟨D', hD', he⟩ := place_key h2
    have hp := (List.getElem?_eq_some_iff.mp hD').1
    have hD : c[p]? = some (c[p]'(by omega)) := List.getElem?_eq_getElem _
    have he' := (hk p _ D' hD hD').mem_iff.mpr he
    have hce : Elem c e := by
      obtain ⟨q, hq, rfl⟩ := List.mem_map.mp he'
      exact elem_iff.mpr ⟨_, List.mem_of_getElem? hD, q, hq, rfl⟩
    exact place_of_key hcd hD he' ((chain_at hd hc hn hg hdn hce).mpr ⟨r, place_at (hd g hgm) h2, h1⟩)

/-! ### From places to the assembled system -/

theorem totH_unit {g : DGM} (hk : ∀ d ∈ g, (Dict.keys d).Nodup) {A : List (Loc Mat)} (hl : A.length = g.length)
    {n p₀ e₀ r₀ : ℕ} (h₀ : Place g p₀ e₀ r₀ n) (h1 : ∀ c, onRank A p₀ e₀ r₀ c = if c = r₀ then 1 else 0)
    (h2 : ∀ p e r c, Place g p e r n → (p, e, r) ≠ (p₀, e₀, r₀) → onRank A p e r c = 0) (j : ℕ) :
    totH g A n j = if j = n then 1 else 0 := by
  obtain ⟨d₀, hd₀, hq₀⟩ := h₀
  have hp := (List.getElem?_eq_some_iff.mp hd₀).1
  have hA : A[p₀]? = some (A[p₀]'(by omega)) := List.getElem?_eq_getElem _
  unfold totH
  apply sum_at (k := p₀)
  · rw [List.getElem?_zipWith, hd₀, hA]
    simp only [Option.some.injEq]
    refine tot_unit (keys_rankRows (hk d₀ (List.mem_of_getElem? hd₀))) (square_rankRows d₀) (e₀ := e₀)
      (l₀ := r₀) (at_rankRows.mpr hq₀) ?_ ?_ j
    · intro c
      have := h1 c
      unfold onRank at this
      rw [hA] at this
      exact this
    · intro e l c hat hne
      have := h2 p₀ e l c ⟨d₀, hd₀, at_rankRows.mp hat⟩ fun q => hne (by
        rw [Prod.mk.injEq] at q; exact q.2)
      unfold onRank at this
      rw [hA] at this
      exact this
  · intro p y hy hne
    obtain ⟨d, M, hd, hM, rfl⟩ := getElem?_zipWith_some hy
    apply tot_zero
    intro e l c hat
    have := h2 p e l c ⟨d, hd, at_rankRows.mp hat⟩ fun q => hne (Prod.mk.inj q).1
    unfold onRank at this
    rw [hM] at this
    exact this

theorem totH_same {g : DGM} {A A' : List (Loc Mat)} (hl : A.length = g.length) (hl' : A'.length = g.length)
    {n : ℕ} (h : ∀ p e r c, Place g p e r n → onRank A' p e r c = onRank A p e r c) (j : ℕ) :
    totH g A' n j = totH g A n j := by
  unfold totH
  congr 1
  apply zipWith_congr (by omega)
  intro p d M' M hd hM' hM
  apply tot_same
  intro e l c hat
  have := h p e l c ⟨d, hd, at_rankRows.mp hat⟩
  unfold onRank at this
  rw [hM, hM'] at this
  exact this

theorem vtotH_single {g : DGM} (hk : ∀ d ∈ g, (Dict.keys d).Nodup) {b : List (Loc (ℕ → ℚ))}
    (hl : b.length = g.length) {n p₀ e₀ r₀ : ℕ} (h₀ : Place g p₀ e₀ r₀ n)
    (h2 : ∀ p e r, Place g p e r n → (p, e, r) ≠ (p₀, e₀, r₀) → vonRank b p e r = 0) :
    vtotH g b n = vonRank b p₀ e₀ r₀ := by
  obtain ⟨d₀, hd₀, hq₀⟩ := h₀
  have hp := (List.getElem?_eq_some_iff.mp hd₀).1
  have hA : b[p₀]? = some (b[p₀]'(by omega)) := List.getElem?_eq_getElem _
  unfold vtotH
  apply sum_at (k := p₀)
  · rw [List.getElem?_zipWith, hd₀, hA]
    simp only [Option.some.injEq]
    rw [vtot_single (keys_rankRows (hk d₀ (List.mem_of_getElem? hd₀))) (e₀ := e₀) (l₀ := r₀) (at_rankRows.mpr hq₀)]
    · unfold vonRank; rw [hA]
    · intro e l hat hne
      have := h2 p₀ e l ⟨d₀, hd₀, at_rankRows.mp hat⟩ fun q => hne (by
        rw [Prod.mk.injEq] at q; exact q.2)
      unfold vonRank at this
      rw [hA] at this
      exact this
  · intro p y hy hne
    obtain ⟨d, M, hd, hM, rfl⟩ := getElem?_zipWith_some hy
    apply vtot_zero
    intro e l hat
    have := h2 p e l ⟨d, hd, at_rankRows.mp hat⟩ fun q => hne (Prod.mk.inj q).1
    unfold vonRank at this
    rw [hM] at this
    exact this

theorem vtotH_same {g : DGM} {b b' : List (Loc (ℕ → ℚ))} (hl : b.length = g.length) (hl' : b'.length = g.length)
    {n : ℕ} (h : ∀ p e r, Place g p e r n → vonRank b' p e r = vonRank b p e r) : vtotH g b' n = vtotH g b n := by
  unfold vtotH
  congr 1
  apply zipWith_congr (by omega)
  intro p d M' M hd hM' hM
  apply vtot_same
  intro e l hat
  have := h p e l ⟨d, hd, at_rankRows.mp hat⟩
  unfold vonRank at this
  rw [hM, hM'] at this
  exact this

/-! ### The loops -/

/-- `identify_row` in terms of places. -/
theorem identify_places {g : DGM} (h : Distinct g) {n : ℕ} (hn : n ∈ g.nums) {A : List (Loc Mat)}
    (hl : A.length = g.length) {i : ℤ} (hi : normDofH g i = some n) :
    ∃ A', identifyRowH g A i = some A' ∧ A'.length = g.length ∧
      (∃ p₀ e₀ r₀, Place g p₀ e₀ r₀ n ∧ (∀ c, onRank A' p₀ e₀ r₀ c = if c = r₀ then 1 else 0) ∧
        ∀ p e r c, Place g p e r n → (p, e, r) ≠ (p₀, e₀, r₀) → onRank A' p e r c = 0) ∧
      ∀ p e r c, ¬ Place g p e r n → onRank A' p e r c = onRank A p e r c := by
  unfold identifyRowH
  rw [hi, Option.bind_some, unitRow_ed, zeroRow_ed]
  obtain ⟨A', e1, e2, k₀, d₀, q₀, hd₀, hq₀, h3⟩ := ranksEdit_places (keys_rank h) hn
    (fun (l c : ℕ) => if c = l then (1 : ℚ) else 0) (fun _ _ => 0) A hl
  have get : ∀ p, p < g.length → ∃ d M M', g[p]? = some d ∧ A[p]? = some M ∧ A'[p]? = some M' ∧
      RankEdited (fun (l c : ℕ) => if c = l then (1 : ℚ) else 0) (fun _ _ => 0) n k₀ q₀ p d M M' := by
    intro p hp
    exact ⟨_, _, _, List.getElem?_eq_getElem hp, List.getElem?_eq_getElem (by omega),
      List.getElem?_eq_getElem (by omega), h3 p _ _ _ (List.getElem?_eq_getElem hp)
        (List.getElem?_eq_getElem (by omega)) (List.getElem?_eq_getElem (by omega))⟩
  refine ⟨A', e1, e2, ⟨k₀, q₀.1, q₀.2, ⟨d₀, hd₀, hq₀⟩, ?_, ?_⟩, ?_⟩
  · intro c
    obtain ⟨d, M, M', a1, a2, a3, a4⟩ := get k₀ (List.getElem?_eq_some_iff.mp hd₀).1
    unfold onRank
    rw [a3]
    unfold RankEdited at a4
    rw [if_pos rfl] at a4
    simp only
    rw [a4, if_pos rfl]
  · rintro p e r c ⟨d, hd, hp⟩ hne
    obtain ⟨d', M, M', a1, a2, a3, a4⟩ := get p (List.getElem?_eq_some_iff.mp hd).1
    rw [hd] at a1; cases a1
    unfold onRank
    rw [a3]
    unfold RankEdited at a4
    simp only
    by_cases hpk : p = k₀
    · rw [if_pos hpk] at a4
      rw [a4, if_neg (fun q => hne (by rw [hpk]; exact congrArg (Prod.mk k₀) q)), if_pos hp]
    · rw [if_neg hpk] at a4
      rw [a4, if_pos hp]
  · intro p e r c hnp
    by_cases hp : p < g.length
    · obtain ⟨d, M, M', a1, a2, a3, a4⟩ := get p hp
      have hnot : (e, r) ∉ rankPlaces d n := fun q => hnp ⟨d, a1, q⟩
      unfold onRank
      rw [a2, a3]
      unfold RankEdited at a4
      simp only
      by_cases hpk : p = k₀
      · subst hpk
        rw [a1] at hd₀; cases hd₀
        rw [if_pos rfl] at a4
        rw [a4, if_neg (fun q : (e, r) = q₀ => hnot (q ▸ hq₀)), if_neg hnot]
      · rw [if_neg hpk] at a4
        rw [a4, if_neg hnot]
    · unfold onRank
      rw [List.getElem?_eq_none (by omega), List.getElem?_eq_none (by omega)]

theorem zero_places {g : DGM} {n : ℕ} {A : List (Loc Mat)} (hl : A.length = g.length) {i : ℤ}
    (hi : normDofH g i = some n) :
    ∃ A', zeroRowH g A i = some A' ∧ A'.length = g.length ∧
      (∀ p e r c, Place g p e r n → onRank A' p e r c = 0) ∧
      ∀ p e r c, ¬ Place g p e r n → onRank A' p e r c = onRank A p e r c := by
  unfold zeroRowH
  rw [hi, Option.map_some]
  refine ⟨_, rfl, by simp [hl], ?_, ?_⟩
  · rintro p e r c ⟨d, hd, hp⟩
    have hpl := (List.getElem?_eq_some_iff.mp hd).1
    unfold onRank
    rw [List.getElem?_zipWith, hd, List.getElem?_eq_getElem (by omega : p < A.length)]
    simp only
    rw [zeroRow_ed, edit_get, if_pos hp]
  · intro p e r c hnp
    unfold onRank
    rw [List.getElem?_zipWith]
    by_cases hp : p < g.length
    · rw [List.getElem?_eq_getElem hp, List.getElem?_eq_getElem (by omega : p < A.length)]
      simp only
      rw [zeroRow_ed, edit_get, if_neg fun q => hnp ⟨_, List.getElem?_eq_getElem hp, q⟩]
    · rw [List.getElem?_eq_none (by omega), List.getElem?_eq_none (by omega)]

theorem value_places {g : DGM} (h : Distinct g) {n : ℕ} (hn : n ∈ g.nums) {b : List (Loc (ℕ → ℚ))}
    (hl : b.length = g.length) {i : ℤ} (hi : normDofH g i = some n) (v : ℚ) :
    ∃ b', setValueH g b i v = some b' ∧ b'.length = g.length ∧
      (∃ p₀ e₀ r₀, Place g p₀ e₀ r₀ n ∧ vonRank b' p₀ e₀ r₀ = v ∧
        ∀ p e r, Place g p e r n → (p, e, r) ≠ (p₀, e₀, r₀) → vonRank b' p e r = 0) ∧
      ∀ p e r, ¬ Place g p e r n → vonRank b' p e r = vonRank b p e r := by
  unfold setValueH
  rw [hi, Option.bind_some, setEntry_ed, setEntry_ed]
  obtain ⟨A', e1, e2, k₀, d₀, q₀, hd₀, hq₀, h3⟩ := ranksEdit_places (keys_rank h) hn
    (fun _ => v) (fun _ => (0 : ℚ)) b hl
  have get : ∀ p, p < g.length → ∃ d M M', g[p]? = some d ∧ b[p]? = some M ∧ A'[p]? = some M' ∧
      RankEdited (fun _ => v) (fun _ => (0 : ℚ)) n k₀ q₀ p d M M' := by
    intro p hp
    exact ⟨_, _, _, List.getElem?_eq_getElem hp, List.getElem?_eq_getElem (by omega),
      List.getElem?_eq_getElem (by omega), h3 p _ _ _ (List.getElem?_eq_getElem hp)
        (List.getElem?_eq_getElem (by omega)) (List.getElem?_eq_getElem (by omega))⟩
  refine ⟨A', e1, e2, ⟨k₀, q₀.1, q₀.2, ⟨d₀, hd₀, hq₀⟩, ?_, ?_⟩, ?_⟩
  · obtain ⟨d, M, M', a1, a2, a3, a4⟩ := get k₀ (List.getElem?_eq_some_iff.mp hd₀).1
    unfold vonRank
    rw [a3]
    unfold RankEdited at a4
    rw [if_pos rfl] at a4
    simp only
    rw [a4, if_pos rfl]
  · rintro p e r ⟨d, hd, hp⟩ hne
    obtain ⟨d', M, M', a1, a2, a3, a4⟩ := get p (List.getElem?_eq_some_iff.mp hd).1
    rw [hd] at a1; cases a1
    unfold vonRank
    rw [a3]
    unfold RankEdited at a4
    simp only
    by_cases hpk : p = k₀
    · rw [if_pos hpk] at a4
      rw [a4, if_neg (fun q => hne (by rw [hpk]; exact congrArg (Prod.mk k₀) q)), if_pos hp]
    · rw [if_neg hpk] at a4
      rw [a4, if_pos hp]
  · intro p e r hnp
    by_cases hp : p < g.length
    · obtain ⟨d, M, M', a1, a2, a3, a4⟩ := get p hp
      have hnot : (e, r) ∉ rankPlaces d n := fun q => hnp ⟨d, a1, q⟩
      unfold vonRank
      rw [a2, a3]
      unfold RankEdited at a4
      simp only
      by_cases hpk : p = k₀
      · subst hpk
        rw [a1] at hd₀; cases hd₀
        rw [if_pos rfl] at a4
        rw [a4, if_neg (fun q : (e, r) = q₀ => hnot (q ▸ hq₀)), if_neg hnot]
      · rw [if_neg hpk] at a4
        rw [a4, if_neg hnot]
    · unfold vonRank
      rw [List.getElem?_eq_none (by omega), List.getElem?_eq_none (by omega)]

theorem norm_some {g : DGM} {i : ℤ} (hi : -(g.num : ℤ) ≤ i ∧ i < g.num) : normDofH g i = some (dofOf g.num i) := by
  obtain ⟨h1, h2, h3, _⟩ := dof_norm hi
  unfold normDofH
  rw [if_pos ⟨h1, h2⟩, h3]

theorem identifyRows_places {g : DGM} (h : Distinct g) (hc : Contiguous g.nums g.num) :
    ∀ (is : List ℤ) {A : List (Loc Mat)}, A.length = g.length → (∀ i ∈ is, -(g.num : ℤ) ≤ i ∧ i < g.num) →
    ∃ A', identifyRowsH g A is = some A' ∧ A'.length = g.length ∧
      (∀ i ∈ is, ∃ p₀ e₀ r₀, Place g p₀ e₀ r₀ (dofOf g.num i) ∧
        (∀ c, onRank A' p₀ e₀ r₀ c = if c = r₀ then 1 else 0) ∧
        ∀ p e r c, Place g p e r (dofOf g.num i) → (p, e, r) ≠ (p₀, e₀, r₀) → onRank A' p e r c = 0) ∧
      ∀ p e r c, (∀ i ∈ is, ¬ Place g p e r (dofOf g.num i)) → onRank A' p e r c = onRank A p e r c := by
  intro is
  induction is with
  | nil => intro A hl _; exact ⟨A, rfl, hl, by simp, fun _ _ _ _ _ => rfl⟩
  | cons i is ih =>
    intro A hl hr
    obtain ⟨A₁, e1, e2, ⟨p₀, e₀, r₀, e3, e4, e5⟩, e6⟩ := identify_places h
      ((hc _).mpr (dof_norm (hr i (by simp))).2.2.2) hl (norm_some (hr i (by simp)))
    obtain ⟨A', f1, f2, f3, f4⟩ := ih e2 fun x hx => hr x (by simp [hx])
    refine ⟨A', by simp only [identifyRowsH, e1, Option.bind_some, f1], f2, ?_, ?_⟩
    · intro i' hi'
      by_cases hex : ∃ i'' ∈ is, dofOf g.num i'' = dofOf g.num i'
      · obtain ⟨i'', h1, h2⟩ := hex
        rw [← h2]
        exact f3 i'' h1
      · push Not at hex
        have hii : i' = i := by
          rcases List.mem_cons.mp hi' with q | q
          · exact q
          · exact absurd rfl (hex i' q)
        subst hii
        have hsame : ∀ p e r c, Place g p e r (dofOf g.num i') → onRank A' p e r c = onRank A₁ p e r c := by
          intro p e r c hp
          apply f4
          intro x hx hp'
          exact hex x hx (place_unique h hp' hp)
        refine ⟨p₀, e₀, r₀, e3, ?_, ?_⟩
        · intro c; rw [hsame _ _ _ _ e3, e4]
        · intro p e r c hp hne; rw [hsame _ _ _ _ hp, e5 p e r c hp hne]
    · intro p e r c hp
      rw [f4 p e r c fun x hx => hp x (by simp [hx]), e6 p e r c (hp i (by simp))]

theorem zeroRows_places {g : DGM} :
    ∀ (is : List ℤ) {A : List (Loc Mat)}, A.length = g.length → (∀ i ∈ is, -(g.num : ℤ) ≤ i ∧ i < g.num) →
    ∃ A', zeroRowsH g A is = some A' ∧ A'.length = g.length ∧
      (∀ i ∈ is, ∀ p e r c, Place g p e r (dofOf g.num i) → onRank A' p e r c = 0) ∧
      ∀ p e r c, (∀ i ∈ is, ¬ Place g p e r (dofOf g.num i)) → onRank A' p e r c = onRank A p e r c := by
  intro is
  induction is with
  | nil => intro A hl _; exact ⟨A, rfl, hl, by simp, fun _ _ _ _ _ => rfl⟩
  | cons i is ih =>
    intro A hl hr
    obtain ⟨A₁, e1, e2, e3, e4⟩ := zero_places hl (norm_some (hr i (by simp)))
    obtain ⟨A', f1, f2, f3, f4⟩ := ih e2 fun x hx => hr x (by simp [hx])
    refine ⟨A', by simp only [zeroRowsH, e1, Option.bind_some, f1], f2, ?_, ?_⟩
    · intro i' hi' p e r c hp
      by_cases hex : ∃ i'' ∈ is, Place g p e r (dofOf g.num i'')
      · obtain ⟨i'', h1, h2⟩ := hex
        exact f3 i'' h1 p e r c h2
      · push Not at hex
        rw [f4 p e r c hex]
        rcases List.mem_cons.mp hi' with q | q
        · exact e3 p e r c (q ▸ hp)
        · exact absurd hp (hex i' q)
    · intro p e r c hp
      rw [f4 p e r c fun x hx => hp x (by simp [hx]), e4 p e r c (hp i (by simp))]

theorem setValues_places {g : DGM} (h : Distinct g) (hc : Contiguous g.nums g.num) :
    ∀ (cs : List (ℤ × ℚ)) {b : List (Loc (ℕ → ℚ))}, b.length = g.length →
      (∀ c ∈ cs, -(g.num : ℤ) ≤ c.1 ∧ c.1 < g.num) →
    ∃ b', setValuesH g b cs = some b' ∧ b'.length = g.length ∧
      (∀ d v, lastSet g.num cs d = some v → ∃ p₀ e₀ r₀, Place g p₀ e₀ r₀ d ∧ vonRank b' p₀ e₀ r₀ = v ∧
        ∀ p e r, Place g p e r d → (p, e, r) ≠ (p₀, e₀, r₀) → vonRank b' p e r = 0) ∧
      ∀ p e r d, Place g p e r d → lastSet g.num cs d = none → vonRank b' p e r = vonRank b p e r := by
  intro cs
  induction cs with
  | nil => intro b hl _; exact ⟨b, rfl, hl, by simp [lastSet], fun _ _ _ _ _ _ => rfl⟩
  | cons c cs ih =>
    intro b hl hr
    obtain ⟨b₁, e1, e2, ⟨p₀, e₀, r₀, e3, e4, e5⟩, e6⟩ := value_places h
      ((hc _).mpr (dof_norm (hr c (by simp))).2.2.2) hl (norm_some (hr c (by simp))) c.2
    obtain ⟨b', f1, f2, f3, f4⟩ := ih e2 fun x hx => hr x (by simp [hx])
    refine ⟨b', by simp only [setValuesH, e1, Option.bind_some, f1], f2, ?_, ?_⟩
    · intro d v hv
      rw [lastSet_cons] at hv
      cases hl' : lastSet g.num cs d with
      | some x =>
        rw [hl'] at hv
        simp only [Option.some_or, Option.some.injEq] at hv
        subst hv
        exact f3 d _ hl'
      | none =>
        rw [hl'] at hv
        by_cases hd : dofOf g.num c.1 = d
        · rw [if_pos hd] at hv
          simp only [Option.none_or, Option.some.injEq] at hv
          subst hd hv
          refine ⟨p₀, e₀, r₀, e3, ?_, ?_⟩
          · rw [f4 _ _ _ _ e3 hl', e4]
          · intro p e r hp hne; rw [f4 _ _ _ _ hp hl', e5 p e r hp hne]
        · rw [if_neg hd] at hv; simp at hv
    · intro p e r d hp hv
      rw [lastSet_cons, Option.or_eq_none_iff] at hv
      rw [f4 p e r d hp hv.1]
      apply e6
      intro hp'
      have := place_unique h hp' hp
      rw [if_pos this] at hv
      simp at hv

end Phyem.Customize
