import Verif.Customize.BCProps
import Mathlib.Algebra.BigOperators.Ring.Finset
import Mathlib.Algebra.BigOperators.Intervals

/-!
C90: prescribed dofs keep their values in nonlinear iterations. The local systems of the iterations are arbitrary.
-/

open scoped BigOperators

namespace Phyem.Nonlinear

open Chaining Assembly Customize

/-! ### Model -/

/-- The boundary conditions on hold (`static/main.py:455-463`): for each an unknown, its dofs and their values. -/
abbrev Holds := List (ℕ × List (ℕ × ℚ))

/-- `set_x0_for_unknown` on a rank for unknown `k` (`Newton_Raphson.py:132-161`): the local vectors that are touched are copied,
each place of each dof gets its value, the other local vectors are kept. `D`: the rows of the gathering matrix on the rank. -/
def setX0 (D : Dict ℕ (List ℕ)) (cs : List (ℕ × ℚ)) (x : ℕ → ℕ → ℚ) : ℕ → ℕ → ℚ :=
  (cs.foldl (fun M c => Loc.edit (fun d l => setEntry d l c.2) M (rankPlaces D c.1)) (⟨x, []⟩ : Loc (ℕ → ℚ))).get

/-- The initial guess of rank `p`, unknown by unknown, after all customisations. -/
def startAt (gms : List DGM) (p : ℕ) : Holds → (ℕ → ℕ → ℕ → ℚ) → ℕ → ℕ → ℕ → ℚ
  | [], x => x
  | h :: hs, x => startAt gms p hs fun k =>
      if k = h.1 then setX0 (((gms[k]?).bind fun g => g[p]?).getD []) h.2 (x k) else x k

/-- `ls.x.update(x)`: the local vectors of a solution, read through the chained gathering matrix `c`. -/
def localOf (gms : List DGM) (c : DGM) (X : ℕ → ℚ) (k e r : ℕ) : ℚ :=
  X ((c.at e).getD (((lens gms e).take k).sum + r) 0)

/-- The calls of `apply` of the linear systems: values zero in the Newton method (`Newton_Raphson.py:271-288`). -/
def zeroBCs (hs : Holds) : List (ℕ × List (ℤ × ℚ)) := hs.map fun h => (h.1, h.2.map fun c => ((c.1 : ℤ), 0))

/-- The values themselves in the Picard method (`Picard.py:153-171`). -/
def valueBCs (hs : Holds) : List (ℕ × List (ℤ × ℚ)) := hs.map fun h => (h.1, h.2.map fun c => ((c.1 : ℤ), c.2))

/-- `X` solves the assembled system exactly. -/
def Solves (gms : List DGM) (c : DGM) (s : BSys) (X : ℕ → ℚ) : Prop :=
  ∀ i < c.num, ∑ j ∈ Finset.range c.num, totH c (s.mA gms) i j * X j = vtotH c (s.vb gms) i

/-- A local system as it is made in an iteration: blocks of their own, the whole matrix and the whole vector not customised yet. -/
def Fresh (gms : List DGM) (c : DGM) (s : BSys) : Prop :=
  s.OK gms c ∧ (∀ k < gms.length, Own gms.length s k) ∧ (∀ C ∈ s.cust, C = []) ∧ ∀ C ∈ s.vcust, C = []

/-- Iterates of the Newton method on rank `p`: local vectors `x n k e r`, local systems `s n`, increments `X n`. -/
def NewtonRun (gms : List DGM) (c : DGM) (hs : Holds) (p : ℕ) (x₀ : ℕ → ℕ → ℕ → ℚ) (s : ℕ → BSys) (X : ℕ → ℕ → ℚ)
    (x : ℕ → ℕ → ℕ → ℕ → ℚ) : Prop :=
  x 0 = startAt gms p hs x₀ ∧ ∀ n, Fresh gms c (s n) ∧ (∃ s', applyBCs gms (zeroBCs hs) (s n) = some s' ∧ Solves gms c s' (X n)) ∧
    ∀ k e r, x (n + 1) k e r = x n k e r + localOf gms c (X n) k e r

/-- Iterates of the Picard method. -/
def PicardRun (gms : List DGM) (c : DGM) (hs : Holds) (s : ℕ → BSys) (X : ℕ → ℕ → ℚ) (x : ℕ → ℕ → ℕ → ℕ → ℚ) : Prop :=
  ∀ n, Fresh gms c (s n) ∧ (∃ s', applyBCs gms (valueBCs hs) (s n) = some s' ∧ Solves gms c s' (X n)) ∧
    ∀ k e r, x (n + 1) k e r = localOf gms c (X n) k e r

/-! ### Specification -/

/-- The value prescribed last for dof `d` of unknown `k`. -/
def prescribed : Holds → ℕ → ℕ → Option ℚ
  | [], _, _ => none
  | h :: hs, k, d => (prescribed hs k d).or (if h.1 = k then (h.2.reverse.find? fun c => decide (c.1 = d)).map Prod.snd else none)

/-- Unknowns of the system and dofs they have. -/
def HoldsOK (gms : List DGM) (hs : Holds) : Prop := ∀ h ∈ hs, ∃ g, gms[h.1]? = some g ∧ ∀ c ∈ h.2, c.1 < g.num

/-! ### Lemmas -/

theorem edit_get (v : ℚ) (qs : List (ℕ × ℕ)) (M : Loc (ℕ → ℚ)) (e r : ℕ) :
    (Loc.edit (fun d l => setEntry d l v) M qs).get e r = if (e, r) ∈ qs then v else M.get e r := by
  induction qs generalizing M with
  | nil => rfl
  | cons q qs ih =>
    change (Loc.edit (fun d l => setEntry d l v) (M.set q.1 (setEntry (M.get q.1) q.2 v)) qs).get e r = _
    rw [ih]
    by_cases h : (e, r) ∈ qs
    · simp [h]
    · rw [if_neg h]
      have hset : (M.set q.1 (setEntry (M.get q.1) q.2 v)).get e = if e = q.1 then setEntry (M.get q.1) q.2 v else M.get e := by
        unfold Loc.set Loc.get
        simp only [Dict.get_put]
        by_cases he : e = q.1
        · simp [he]
        · simp [he, Ne.symm he]
      rw [hset]
      by_cases he : e = q.1
      · subst he
        simp only [if_true, setEntry, List.mem_cons, h, or_false]
        by_cases hr : r = q.2
        · subst hr; simp
        · rw [if_neg hr, if_neg]
          intro hq
          exact hr (by rw [← hq])
      · rw [if_neg he, if_neg]
        simp only [List.mem_cons, h, or_false]
        intro hq
        exact he (by rw [← hq])

theorem setX0_at {D : Dict ℕ (List ℕ)} {e r d : ℕ} (hp : (e, r) ∈ rankPlaces D d) (hu : ∀ d', (e, r) ∈ rankPlaces D d' → d' = d)
    (cs : List (ℕ × ℚ)) (x : ℕ → ℕ → ℚ) :
    setX0 D cs x e r = ((cs.reverse.find? fun c => decide (c.1 = d)).map Prod.snd).getD (x e r) := by
  have : ∀ (cs : List (ℕ × ℚ)) (M : Loc (ℕ → ℚ)),
      (cs.foldl (fun M c => Loc.edit (fun d l => setEntry d l c.2) M (rankPlaces D c.1)) M).get e r
        = ((cs.reverse.find? fun c => decide (c.1 = d)).map Prod.snd).getD (M.get e r) := by
    intro cs
    induction cs with
    | nil => intro M; rfl
    | cons c cs ih =>
      intro M
      rw [List.foldl_cons, ih, edit_get, List.reverse_cons, List.find?_append]
      cases h : cs.reverse.find? fun c => decide (c.1 = d) with
      | some y => rfl
      | none =>
        simp only [Option.map_none, Option.getD_none, Option.none_or, List.find?_cons, List.find?_nil]
        by_cases hc : c.1 = d
        · subst hc; simp [hp]
        · have : (e, r) ∉ rankPlaces D c.1 := fun h' => hc (hu _ h')
          simp [hc, this]
  exact this cs ⟨x, []⟩

theorem dofOf_cast (n d : ℕ) : dofOf n (d : ℤ) = d := by
  unfold dofOf
  rw [if_neg (by omega)]; simp

theorem lastSet_map (n : ℕ) (cs : List (ℕ × ℚ)) (f : ℕ × ℚ → ℚ) (d : ℕ) :
    lastSet n (cs.map fun c => ((c.1 : ℤ), f c)) d = (cs.reverse.find? fun c => decide (c.1 = d)).map f := by
  unfold lastSet
  rw [← List.map_reverse, List.find?_map, Option.map_map]
  have h : ((fun c : ℤ × ℚ => decide (dofOf n c.1 = d)) ∘ fun c : ℕ × ℚ => ((c.1 : ℤ), f c)) = fun c => decide (c.1 = d) := by
    funext c
    simp [dofOf_cast]
  rw [h]
  rfl

theorem lastBC_map {gms : List DGM} (f : ℕ × ℚ → ℚ) : ∀ (hs : Holds), HoldsOK gms hs → ∀ k d,
    lastBC gms (hs.map fun h => (h.1, h.2.map fun c => ((c.1 : ℤ), f c))) k d
      = (hs.foldr (fun h o => o.or (if h.1 = k then (h.2.reverse.find? fun c => decide (c.1 = d)).map f else none)) none) := by
  intro hs
  induction hs with
  | nil => intro _ k d; rfl
  | cons h hs ih =>
    intro hok k d
    rw [List.map_cons, List.foldr_cons, ← ih (fun h' hh' => hok h' (by simp [hh'])) k d]
    unfold lastBC
    by_cases hk : h.1 = k
    · subst hk
      obtain ⟨g, hg, _⟩ := hok h (by simp)
      simp only [if_true, hg, Option.bind_some, lastSet_map]
      cases hs <;> rfl
    · simp only [hk, if_false]
      cases hs <;> rfl

theorem prescribed_fold (hs : Holds) (k d : ℕ) : prescribed hs k d
    = hs.foldr (fun h o => o.or (if h.1 = k then (h.2.reverse.find? fun c => decide (c.1 = d)).map Prod.snd else none)) none := by
  induction hs with
  | nil => rfl
  | cons h hs ih => simp only [prescribed, List.foldr_cons, ih]

theorem lastBC_value {gms : List DGM} {hs : Holds} (hok : HoldsOK gms hs) (k d : ℕ) :
    lastBC gms (valueBCs hs) k d = prescribed hs k d := by
  unfold valueBCs
  rw [lastBC_map Prod.snd hs hok, prescribed_fold]

theorem lastBC_zero {gms : List DGM} {hs : Holds} (hok : HoldsOK gms hs) (k d : ℕ) :
    lastBC gms (zeroBCs hs) k d = (prescribed hs k d).map fun _ => 0 := by
  unfold zeroBCs
  rw [lastBC_map (fun _ => 0) hs hok, prescribed_fold]
  clear hok
  induction hs with
  | nil => rfl
  | cons h hs ih =>
    simp only [List.foldr_cons, ih]
    generalize List.foldr _ none hs = o
    cases o with
    | some v => rfl
    | none =>
      simp only [Option.map_none, Option.none_or]
      split
      · rw [Option.map_map]; rfl
      · rfl

theorem startAt_at {gms : List DGM} (hd : ∀ g ∈ gms, Distinct g) {k : ℕ} {g : DGM} (hg : gms[k]? = some g) {p e r d : ℕ}
    (hp : Place g p e r d) : ∀ (hs : Holds) (x : ℕ → ℕ → ℕ → ℚ),
      startAt gms p hs x k e r = (prescribed hs k d).getD (x k e r) := by
  obtain ⟨D, hD, hpl⟩ := hp
  have hu : ∀ d', (e, r) ∈ rankPlaces D d' → d' = d := fun d' h' =>
    place_unique (hd g (List.mem_of_getElem? hg)) ⟨D, hD, h'⟩ ⟨D, hD, hpl⟩
  intro hs
  induction hs with
  | nil => intro x; rfl
  | cons h hs ih =>
    intro x
    unfold startAt prescribed
    rw [ih]
    cases hpr : prescribed hs k d with
    | some v => rfl
    | none =>
      simp only [Option.getD_none, Option.none_or]
      by_cases hk : h.1 = k
      · rw [if_pos hk, if_pos hk.symm, hg, Option.bind_some, hD, Option.getD_some, setX0_at hpl hu]
      · rw [if_neg hk, if_neg (Ne.symm hk)]; rfl

theorem bcsOK_map {gms : List DGM} {hs : Holds} (hok : HoldsOK gms hs) (f : ℕ × ℚ → ℚ) :
    BCsOK gms (hs.map fun h => (h.1, h.2.map fun c => ((c.1 : ℤ), f c))) := by
  intro x hx
  obtain ⟨h, hh, rfl⟩ := List.mem_map.mp hx
  obtain ⟨g, hg, hlt⟩ := hok h hh
  refine ⟨g, hg, ?_⟩
  intro y hy
  obtain ⟨c, hc, rfl⟩ := List.mem_map.mp hy
  have := hlt c hc
  simp only; omega

theorem localOf_place {gms : List DGM} {c : DGM} (hd : ∀ g ∈ gms, Distinct g) (hc : chain gms = some c)
    {rn : ℕ × ℕ → ℕ} (hn : Names gms c rn) {k : ℕ} {g : DGM} (hg : gms[k]? = some g) {p e r d : ℕ} (hp : Place g p e r d)
    (X : ℕ → ℚ) : localOf gms c X k e r = X (rn (k, d)) := by
  have hgm := List.mem_of_getElem? hg
  obtain ⟨_, _, _, _, _, _, hel⟩ := chain_ren hd hc
  have hat := place_at (hd g hgm) hp
  obtain ⟨D, hD, hpl⟩ := hp
  obtain ⟨row, hrow, hr⟩ := mem_rankPlaces.mp hpl
  have heg : Elem g e := elem_iff.mpr ⟨D, List.mem_of_getElem? hD, (e, row), hrow, rfl⟩
  have he : Elem c e := (hel g hgm e).mpr heg
  have hdn : d ∈ g.nums := (mem_nums (hd g hgm)).mpr ⟨e, heg, List.mem_of_getElem? hat⟩
  have := (chain_at hd hc hn hg hdn he).mpr ⟨r, hat, decode_place (lens_get hg e) (List.getElem?_eq_some_iff.mp hat).1⟩
  unfold localOf
  rw [List.getD_eq_getElem?_getD, this]; rfl

/-! ### Properties -/

section

variable {gms : List DGM} {c : DGM} (hd : ∀ g ∈ gms, Distinct g) (hc : chain gms = some c) {rn : ℕ × ℕ → ℕ} (hn : Names gms c rn)
  {hs : Holds} (hok : HoldsOK gms hs)

include hd hc hn

/-- An exact solution of a system with a unit row has the value of the right side there. -/
theorem solves_unit {bcs : List (ℕ × List (ℤ × ℚ))} (hbcs : BCsOK gms bcs) {s : BSys} (hf : Fresh gms c s) {X : ℕ → ℚ}
    (hX : ∃ s', applyBCs gms bcs s = some s' ∧ Solves gms c s' X) {k d : ℕ} {v : ℚ} (hv : lastBC gms bcs k d = some v) :
    X (rn (k, d)) = v := by
  obtain ⟨s', e1, hs', p1, _⟩ := applyBCs_tot hd hc hn bcs s hf.1 hf.2.1 hf.2.2.1 hf.2.2.2 hbcs
  obtain ⟨g, hg, hdn⟩ := lastBC_lt hbcs (show (lastBC gms bcs k d).isSome by rw [hv]; rfl)
  have hgm := List.mem_of_getElem? hg
  obtain ⟨_, _, _, hcd, hcc, hcon, hel⟩ := chain_ren hd hc
  have hlt : rn (k, d) < c.num := by
    obtain ⟨e₀, he₀, hv⟩ := (mem_nums (hd g hgm)).mp ((hcon g hgm d).mpr hdn)
    obtain ⟨r₀, hr₀⟩ := List.mem_iff_getElem?.mp hv
    have he : Elem c e₀ := (hel g hgm e₀).mpr he₀
    have := (chain_at hd hc hn hg ((hcon g hgm d).mpr hdn) he).mpr
      ⟨r₀, hr₀, decode_place (lens_get hg e₀) (List.getElem?_eq_some_iff.mp hr₀).1⟩
    exact num_le ((mem_nums hcd).mpr ⟨e₀, he, List.mem_of_getElem? this⟩)
  obtain ⟨s'', e2, hX⟩ := hX
  rw [e1, Option.some.injEq] at e2
  subst e2
  have h1 := hX _ hlt
  rw [(p1 k d v hv).2] at h1
  rw [← h1, Finset.sum_eq_single (rn (k, d))]
  · rw [(p1 k d v hv).1, if_pos rfl, one_mul]
  · intro j _ hj
    rw [(p1 k d v hv).1, if_neg hj, zero_mul]
  · intro h; exact absurd (Finset.mem_range.mpr hlt) h

include hok

/-- **C90**, Newton method: every iterate, the initial guess included, has the prescribed value at every place of a prescribed dof.
Partial: blocks of their own (see `bc_shared_block_refuted`), exact inner solutions. -/
theorem newton_keeps_prescribed_partial {p : ℕ} {x₀ : ℕ → ℕ → ℕ → ℚ} {s : ℕ → BSys} {X : ℕ → ℕ → ℚ} {x : ℕ → ℕ → ℕ → ℕ → ℚ}
    (hrun : NewtonRun gms c hs p x₀ s X x) {k d : ℕ} {v : ℚ} (hv : prescribed hs k d = some v) {g : DGM} (hg : gms[k]? = some g)
    {e r : ℕ} (hp : Place g p e r d) (n : ℕ) : x n k e r = v := by
  induction n with
  | zero => rw [hrun.1, startAt_at hd hg hp, hv]; rfl
  | succ n ih =>
    obtain ⟨hf, hX, hx⟩ := hrun.2 n
    rw [hx, ih, localOf_place hd hc hn hg hp,
      solves_unit hd hc hn (bcsOK_map hok fun _ => 0) hf hX (v := 0) (by
        have := lastBC_zero (gms := gms) hok k d
        rw [hv] at this
        exact this), add_zero]

/-- Dofs of the initial guess that are not prescribed are not touched. -/
theorem newton_start_keeps {p : ℕ} {x₀ : ℕ → ℕ → ℕ → ℚ} {s : ℕ → BSys} {X : ℕ → ℕ → ℚ} {x : ℕ → ℕ → ℕ → ℕ → ℚ}
    (hrun : NewtonRun gms c hs p x₀ s X x) {k d : ℕ} (hv : prescribed hs k d = none) {g : DGM} (hg : gms[k]? = some g)
    {e r : ℕ} (hp : Place g p e r d) : x 0 k e r = x₀ k e r := by
  rw [hrun.1, startAt_at hd hg hp, hv]; rfl

/-- **C90**, Picard method: every iterate after the first solve has the prescribed value at every place of a prescribed dof. -/
theorem picard_keeps_prescribed_partial {s : ℕ → BSys} {X : ℕ → ℕ → ℚ} {x : ℕ → ℕ → ℕ → ℕ → ℚ}
    (hrun : PicardRun gms c hs s X x) {k d : ℕ} {v : ℚ} (hv : prescribed hs k d = some v) {g : DGM} (hg : gms[k]? = some g)
    {p e r : ℕ} (hp : Place g p e r d) (n : ℕ) : x (n + 1) k e r = v := by
  obtain ⟨hf, hX, hx⟩ := hrun n
  rw [hx, localOf_place hd hc hn hg hp]
  exact solves_unit hd hc hn (bcsOK_map hok Prod.snd) hf hX (by rw [← lastBC_value hok] at hv; exact hv)

end

/-! ### Cases that meet the hypotheses -/

/-- The blocks of `sUV`, with right side zero. -/
def sZ : BSys := { sUV with vheap := fun _ => [⟨fun _ _ => 0, []⟩, ⟨fun _ _ => 0, []⟩] }

theorem fresh_sZ : Fresh [gU, gV] gUV sZ := by
  refine ⟨⟨?_, ?_, rfl, rfl⟩, ?_, by decide, by decide⟩
  · intro k g hg j _
    match k with
    | 0 => cases hg; rfl
    | 1 => cases hg; rfl
    | k + 2 => simp at hg
  · intro k g hg
    match k with
    | 0 => cases hg; rfl
    | 1 => cases hg; rfl
    | k + 2 => simp at hg
  · intro k _
    refine ⟨?_, fun i _ h => h⟩
    intro j hj i hi j' hj' h
    change 2 * i + j' = 2 * k + j at h
    simp at hj hj'
    omega

theorem holds_UV : HoldsOK [gU, gV] [(0, [(0, 7), (1, 8)]), (1, [(1, 9)])] := by
  intro x hx
  simp only [List.mem_cons, List.not_mem_nil, or_false] at hx
  rcases hx with rfl | rfl
  · exact ⟨gU, rfl, by decide +kernel⟩
  · exact ⟨gV, rfl, by decide +kernel⟩

/-- The systems of the iterations have rows that are not zero, and a dof of each unknown is prescribed. -/
example (x₀ : ℕ → ℕ → ℕ → ℚ) : NewtonRun [gU, gV] gUV [(0, [(0, 7), (1, 8)]), (1, [(1, 9)])] 0 x₀ (fun _ => sZ) (fun _ _ => 0)
      (fun _ => startAt [gU, gV] 0 [(0, [(0, 7), (1, 8)]), (1, [(1, 9)])] x₀) ∧
    totH gUV (sZ.mA [gU, gV]) 0 1 ≠ 0 ∧ prescribed [(0, [(0, 7), (1, 8)]), (1, [(1, 9)])] 0 1 = some 8 ∧
    ∃ p e r, Place gU p e r 1 := by
  refine ⟨⟨rfl, fun n => ⟨fresh_sZ, ?_, fun k e r => by simp [localOf]⟩⟩, by decide +kernel, by decide +kernel, ?_⟩
  · obtain ⟨s', e1, _, p1, p2⟩ := applyBCs_tot (gms := [gU, gV]) (c := gUV) exUV.1 exUV.2.1 exUV.2.2.1
      (zeroBCs [(0, [(0, 7), (1, 8)]), (1, [(1, 9)])]) sZ fresh_sZ.1 fresh_sZ.2.1 fresh_sZ.2.2.1 fresh_sZ.2.2.2
      (bcsOK_map holds_UV fun _ => 0)
    refine ⟨s', e1, ?_⟩
    intro i hi
    simp only [mul_zero, Finset.sum_const_zero]
    by_cases h : ∃ k d v, lastBC [gU, gV] (zeroBCs [(0, [(0, 7), (1, 8)]), (1, [(1, 9)])]) k d = some v ∧ rnUV (k, d) = i
    · obtain ⟨k, d, v, hv, rfl⟩ := h
      rw [(p1 k d v hv).2]
      rw [lastBC_zero holds_UV, Option.map_eq_some_iff] at hv
      obtain ⟨_, _, hv⟩ := hv
      exact hv
    · rw [(p2 i (by
        intro k d hs hi
        obtain ⟨v, hv⟩ := Option.isSome_iff_exists.mp hs
        exact h ⟨k, d, v, hv, hi⟩)).2]
      have h5 : ∀ i < gUV.num, 0 = vtotH gUV (sZ.vb [gU, gV]) i := by decide +kernel
      exact h5 i hi
  · exact ⟨0, 0, 1, _, rfl, by decide +kernel⟩

/-- The blocks of `sUV`, with a right side for the solution `7, 8, 1, 2, 9`. -/
def sP : BSys := { sUV with vheap := fun a => [⟨fun _ _ => if a = 1 then 57 else 0, []⟩, ⟨fun _ r => if a = 0 ∧ r = 1 then 91 else 0, []⟩] }

theorem fresh_sP : Fresh [gU, gV] gUV sP := by
  refine ⟨⟨fresh_sZ.1.1, ?_, rfl, rfl⟩, fresh_sZ.2.1, by decide, by decide⟩
  intro k g hg
  match k with
  | 0 => cases hg; rfl
  | 1 => cases hg; rfl
  | k + 2 => simp at hg

example : PicardRun [gU, gV] gUV [(0, [(0, 7), (1, 8)]), (1, [(1, 9)])] (fun _ => sP) (fun _ j => [7, 8, 1, 2, 9].getD j 0)
      (fun _ => localOf [gU, gV] gUV fun j => [7, 8, 1, 2, 9].getD j 0) ∧
    prescribed [(0, [(0, 7), (1, 8)]), (1, [(1, 9)])] 1 1 = some 9 := by
  refine ⟨fun n => ⟨fresh_sP, ?_, fun _ _ _ => rfl⟩, by decide +kernel⟩
  have h : (applyBCs [gU, gV] (valueBCs [(0, [(0, 7), (1, 8)]), (1, [(1, 9)])]) sP).map (fun s' =>
      decide (∀ i < gUV.num, ∑ j ∈ Finset.range gUV.num, totH gUV (s'.mA [gU, gV]) i j * [7, 8, 1, 2, 9].getD j 0
        = vtotH gUV (s'.vb [gU, gV]) i)) = some true := by decide +kernel
  rw [Option.map_eq_some_iff] at h
  obtain ⟨s', h1, h2⟩ := h
  exact ⟨s', h1, show ∀ i < gUV.num, _ from of_decide_eq_true h2⟩

end Phyem.Nonlinear
