import Verif.Customize.Block

/-!
Lemmas on block systems.
-/

namespace Phyem.Customize

open Chaining Assembly Finset

/-! ### Places in a chain -/

theorem decode_place {ls : List ℕ} {k r a : ℕ} (h : ls[k]? = some a) (hr : r < a) :
    decode ls ((ls.take k).sum + r) = some (k, r) := by
  induction ls generalizing k with
  | nil => simp at h
  | cons b ls ih =>
    cases k with
    | zero =>
      simp only [List.getElem?_cons_zero, Option.some.injEq] at h
      subst h
      simp [decode, hr]
    | succ k =>
      simp only [List.getElem?_cons_succ] at h
      have := ih h
      rw [List.take_succ_cons, List.sum_cons]
      unfold decode
      rw [if_neg (by omega), show b + (ls.take k).sum + r - b = (ls.take k).sum + r by omega, this]
      rfl

theorem decode_some {ls : List ℕ} {R k r : ℕ} (h : decode ls R = some (k, r)) :
    ∃ a, ls[k]? = some a ∧ r < a ∧ R = (ls.take k).sum + r := by
  induction ls generalizing k R with
  | nil => simp [decode] at h
  | cons b ls ih =>
    unfold decode at h
    by_cases hb : R < b
    · rw [if_pos hb, Option.some.injEq, Prod.mk.injEq] at h
      obtain ⟨rfl, rfl⟩ := h
      exact ⟨b, rfl, hb, by simp⟩
    · rw [if_neg hb] at h
      cases hd : decode ls (R - b) with
      | none => rw [hd] at h; simp at h
      | some q =>
        rw [hd] at h
        simp only [Option.map_some, Option.some.injEq, Prod.mk.injEq] at h
        obtain ⟨rfl, rfl⟩ := h
        obtain ⟨a, h1, h2, h3⟩ := ih hd
        exact ⟨a, by simpa using h1, h2, by rw [List.take_succ_cons, List.sum_cons]; omega⟩

theorem decode_of_lt {ls : List ℕ} {R : ℕ} (h : R < ls.sum) : ∃ p, decode ls R = some p := by
  induction ls generalizing R with
  | nil => simp at h
  | cons b ls ih =>
    unfold decode
    by_cases hb : R < b
    · exact ⟨_, by rw [if_pos hb]⟩
    · rw [List.sum_cons] at h
      obtain ⟨p, hp⟩ := ih (R := R - b) (by omega)
      exact ⟨_, by rw [if_neg hb, hp]; rfl⟩

theorem lens_take (gms : List DGM) (e k : ℕ) :
    ((lens gms e).take k).sum = ((gms.take k).map fun h => (h.at e).length).sum := by
  unfold lens; rw [List.map_take]

theorem lens_get {gms : List DGM} {k : ℕ} {g : DGM} (h : gms[k]? = some g) (e : ℕ) :
    (lens gms e)[k]? = some (g.at e).length := by
  unfold lens; rw [List.getElem?_map, h]; rfl

theorem cells_length (gms : List DGM) (e : ℕ) : (cells gms e).length = (lens gms e).sum := by
  unfold cells lens
  rw [List.length_flatMap]
  simp only [List.length_map]
  have : (List.zipIdx gms).map (fun q => (q.1.at e).length) =
      ((List.zipIdx gms).map Prod.fst).map fun h => (h.at e).length := by
    rw [List.map_map]; rfl
  rw [this, List.zipIdx_map_fst]

/-- The dof at a place of an element. -/
theorem cells_get {gms : List DGM} {e R i n : ℕ} : (cells gms e)[R]? = some (i, n) ↔
    ∃ g r, gms[i]? = some g ∧ (g.at e)[r]? = some n ∧ decode (lens gms e) R = some (i, r) := by
  constructor
  · intro h
    have hR := (List.getElem?_eq_some_iff.mp h).1
    rw [cells_length] at hR
    obtain ⟨⟨k, r⟩, hp⟩ := decode_of_lt hR
    obtain ⟨a, h1, h2, h3⟩ := decode_some hp
    unfold lens at h1
    rw [List.getElem?_map] at h1
    cases hg : gms[k]? with
    | none => rw [hg] at h1; simp at h1
    | some g =>
      rw [hg, Option.map_some, Option.some.injEq] at h1
      have hl : (g.at e)[r]? = some ((g.at e)[r]'(by omega)) := List.getElem?_eq_getElem _
      have := cells_place hg hl
      rw [← lens_take, ← h3, h, Option.some.injEq, Prod.mk.injEq] at this
      obtain ⟨rfl, rfl⟩ := this
      exact ⟨g, r, hg, hl, hp⟩
  · rintro ⟨g, r, hg, hl, hp⟩
    obtain ⟨a, h1, h2, h3⟩ := decode_some hp
    rw [h3, lens_take]
    exact cells_place hg hl

/-- `rn` names the dofs of the chain `c`. -/
def Names (gms : List DGM) (c : DGM) (rn : ℕ × ℕ → ℕ) : Prop :=
  ∀ e, Elem c e → c.at e = (dofsOf (gms.map fun g => g.at e)).map rn

theorem names_inj {gms : List DGM} {c : DGM} (hd : ∀ g ∈ gms, Distinct g) (hc : chain gms = some c)
    {rn : ℕ × ℕ → ℕ} (h : Names gms c rn) {e e' : ℕ} {x y : ℕ × ℕ} (he : Elem c e) (he' : Elem c e')
    (hx : x ∈ cells gms e) (hy : y ∈ cells gms e') (hxy : rn x = rn y) : x = y := by
  obtain ⟨rn₀, h1, h2, _⟩ := chain_ren hd hc
  have key : ∀ {e x}, Elem c e → x ∈ cells gms e → rn x = rn₀ x := by
    intro e x he hx
    have a := h1 e he
    have b := h e he
    rw [← cells_eq] at b
    rw [b] at a
    obtain ⟨k, hk⟩ := List.mem_iff_getElem?.mp hx
    have := congrArg (fun l => l[k]?) a
    simp only [List.getElem?_map, hk, Option.map_some, Option.some.injEq] at this
    exact this
  rw [key he hx, key he' hy] at hxy
  exact h2 e e' x y he he' hx hy hxy

/-- Place `R` of element `e` has the number of dof `d` of unknown `k`. -/
theorem chain_at {gms : List DGM} {c : DGM} (hd : ∀ g ∈ gms, Distinct g) (hc : chain gms = some c)
    {rn : ℕ × ℕ → ℕ} (h : Names gms c rn) {k d : ℕ} {g : DGM} (hg : gms[k]? = some g) (hdn : d ∈ g.nums)
    {e : ℕ} (he : Elem c e) {R : ℕ} : (c.at e)[R]? = some (rn (k, d)) ↔
      ∃ r, (g.at e)[r]? = some d ∧ decode (lens gms e) R = some (k, r) := by
  have hgm := List.mem_of_getElem? hg
  obtain ⟨_, _, _, _, _, _, hel⟩ := chain_ren hd hc
  obtain ⟨e₀, he₀, hv⟩ := (mem_nums (hd g hgm)).mp hdn
  obtain ⟨r₀, hr₀⟩ := List.mem_iff_getElem?.mp hv
  have hc₀ : (k, d) ∈ cells gms e₀ := List.mem_of_getElem? (cells_place hg hr₀)
  rw [h e he, ← cells_eq, List.getElem?_map]
  constructor
  · intro hR
    cases hx : (cells gms e)[R]? with
    | none => rw [hx] at hR; simp at hR
    | some x =>
      rw [hx, Option.map_some, Option.some.injEq] at hR
      have := names_inj hd hc h he ((hel g hgm e₀).mpr he₀) (List.mem_of_getElem? hx) hc₀ hR
      subst this
      obtain ⟨g', r, q1, q2, q3⟩ := cells_get.mp hx
      rw [hg] at q1; cases q1
      exact ⟨r, q2, q3⟩
  · rintro ⟨r, h1, h2⟩
    rw [cells_get.mpr ⟨g, r, hg, h1, h2⟩]
    rfl

/-! ### One element -/

theorem sum_block {gms : List DGM} {c : DGM} (hd : ∀ g ∈ gms, Distinct g) (hc : chain gms = some c)
    {rn : ℕ × ℕ → ℕ} (h : Names gms c rn) {k d : ℕ} {g : DGM} (hg : gms[k]? = some g) (hdn : d ∈ g.nums)
    {e : ℕ} (he : Elem c e) (F : ℕ → ℚ) :
    (∑ R ∈ range (c.at e).length, if (c.at e)[R]? = some (rn (k, d)) then F R else 0) =
      ∑ r ∈ range (g.at e).length, if (g.at e)[r]? = some d then F (((lens gms e).take k).sum + r) else 0 := by
  symm
  have hdec : ∀ r, r < (g.at e).length → decode (lens gms e) (((lens gms e).take k).sum + r) = some (k, r) :=
    fun r hr => decode_place (lens_get hg e) hr
  apply Finset.sum_of_injOn (fun r => ((lens gms e).take k).sum + r)
  · intro a _ b _ hab; simpa using hab
  · intro r hr
    rw [Finset.coe_range, Set.mem_Iio] at *
    have := h e he
    rw [← cells_eq] at this
    rw [this, List.length_map]
    have hl : (g.at e)[r]? = some ((g.at e)[r]) := List.getElem?_eq_getElem _
    have := cells_place hg hl
    rw [← lens_take] at this
    exact (List.getElem?_eq_some_iff.mp this).1
  · intro R _ hR
    rw [if_neg]
    intro hat
    obtain ⟨r, h1, h2⟩ := (chain_at hd hc h hg hdn he).mp hat
    obtain ⟨a, q1, q2, q3⟩ := decode_some h2
    apply hR
    rw [Finset.coe_range]
    exact ⟨r, (List.getElem?_eq_some_iff.mp h1).1, q3.symm⟩
  · intro r hr
    rw [Finset.mem_range] at hr
    by_cases h1 : (g.at e)[r]? = some d
    · rw [if_pos h1, if_pos ((chain_at hd hc h hg hdn he).mpr ⟨r, h1, hdec r hr⟩)]
    · rw [if_neg h1, if_neg]
      intro hat
      obtain ⟨r', q1, q2⟩ := (chain_at hd hc h hg hdn he).mp hat
      rw [hdec r hr, Option.some.injEq, Prod.mk.injEq] at q2
      exact h1 (q2.2 ▸ q1)

theorem share_block {gr gc : List DGM} {cr cc : DGM} (hdr : ∀ g ∈ gr, Distinct g) (hdc : ∀ g ∈ gc, Distinct g)
    (hcr : chain gr = some cr) (hcc : chain gc = some cc) {rn rn' : ℕ × ℕ → ℕ} (hn : Names gr cr rn)
    (hn' : Names gc cc rn') {k d j d' : ℕ} {g g' : DGM} (hg : gr[k]? = some g) (hg' : gc[j]? = some g')
    (hd : d ∈ g.nums) (hd' : d' ∈ g'.nums) {e : ℕ} (he : Elem cr e) (he' : Elem cc e) (A : ℕ → ℕ → Mat) :
    share (cr.at e) (cc.at e) (blockMat (lens gr e) (lens gc e) A) (rn (k, d)) (rn' (j, d')) =
      share (g.at e) (g'.at e) (A k j) d d' := by
  have split : ∀ (gr gc : List ℕ) (M : Mat) (i j : ℕ), share gr gc M i j =
      ∑ r ∈ range gr.length, if gr[r]? = some i then
        ∑ c ∈ range gc.length, (if gc[c]? = some j then M r c else 0) else 0 := by
    intro gr gc M i j
    unfold share
    apply Finset.sum_congr rfl
    intro r _
    by_cases h : gr[r]? = some i
    · rw [if_pos h]
      apply Finset.sum_congr rfl
      intro c _
      simp [h]
    · rw [if_neg h]
      apply Finset.sum_eq_zero
      intro c _
      rw [if_neg fun q => h q.1]
  rw [split, split, sum_block hdr hcr hn hg hd he]
  apply Finset.sum_congr rfl
  intro r hr
  rw [Finset.mem_range] at hr
  by_cases h : (g.at e)[r]? = some d
  · rw [if_pos h, if_pos h, sum_block hdc hcc hn' hg' hd' he']
    apply Finset.sum_congr rfl
    intro c hc
    rw [Finset.mem_range] at hc
    unfold blockMat
    rw [decode_place (lens_get hg e) hr, decode_place (lens_get hg' e) hc]
  · rw [if_neg h, if_neg h]

theorem vshare_block {gr : List DGM} {cr : DGM} (hdr : ∀ g ∈ gr, Distinct g) (hcr : chain gr = some cr)
    {rn : ℕ × ℕ → ℕ} (hn : Names gr cr rn) {k d : ℕ} {g : DGM} (hg : gr[k]? = some g) (hd : d ∈ g.nums) {e : ℕ}
    (he : Elem cr e) (b : ℕ → ℕ → ℚ) :
    vshare (cr.at e) (blockVec (lens gr e) b) (rn (k, d)) = vshare (g.at e) (b k) d := by
  unfold vshare
  rw [sum_block hdr hcr hn hg hd he]
  apply Finset.sum_congr rfl
  intro r hr
  rw [Finset.mem_range] at hr
  unfold blockVec
  rw [decode_place (lens_get hg e) hr]

end Phyem.Customize
