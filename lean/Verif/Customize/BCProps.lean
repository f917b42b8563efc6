import Verif.Customize.BCLemmas

/-!
Essential boundary conditions of block systems: properties C34 and C68.
-/

namespace Phyem.Customize

open Chaining Assembly

/-- A block system with `gms.length` unknowns: the blocks of row `k` and the right hand side of `k` have data on every
rank. -/
structure BSys.OK (gms : List DGM) (c : DGM) (s : BSys) : Prop where
  blocks : ∀ k g, gms[k]? = some g → ∀ j < gms.length, (s.heap (s.addr k j)).length = g.length
  vec : ∀ k g, gms[k]? = some g → (s.vheap (s.vaddr k)).length = g.length
  cust : s.cust.length = c.length
  vcust : s.vcust.length = c.length

/-- The blocks of row `k` are objects of their own, used nowhere else in the system. -/
def Own (n : ℕ) (s : BSys) (k : ℕ) : Prop :=
  (∀ j < n, ∀ i < n, ∀ j' < n, s.addr i j' = s.addr k j → i = k ∧ j' = j) ∧ ∀ i < n, s.vaddr i = s.vaddr k → i = k

/-! ### Lemmas -/

theorem bcRow_spec {g : DGM} {addr : ℕ → ℕ → ℕ} {k : ℕ} {dofs : List ℤ}
    (hI : ∀ A : List (Loc Mat), A.length = g.length → ∃ A', identifyRowsH g A dofs = some A')
    (hZ : ∀ A : List (Loc Mat), A.length = g.length → ∃ A', zeroRowsH g A dofs = some A') :
    ∀ (js : List ℕ) (h : ℕ → List (Loc Mat)), js.Nodup → (∀ j ∈ js, ∀ j' ∈ js, addr k j' = addr k j → j' = j) →
      (∀ j ∈ js, (h (addr k j)).length = g.length) →
      ∃ h', bcRow g addr k dofs h js = some h' ∧
        (∀ j ∈ js, (if k = j then identifyRowsH g (h (addr k j)) dofs else zeroRowsH g (h (addr k j)) dofs) =
          some (h' (addr k j))) ∧
        ∀ a, (∀ j ∈ js, a ≠ addr k j) → h' a = h a := by
  intro js
  induction js with
  | nil => intro h _ _ _; exact ⟨h, rfl, by simp, fun _ _ => rfl⟩
  | cons j js ih =>
    intro h hn hinj hl
    rw [List.nodup_cons] at hn
    have hex : ∃ A, (if k = j then identifyRowsH g (h (addr k j)) dofs else zeroRowsH g (h (addr k j)) dofs) = some A := by
      by_cases hkj : k = j
      · rw [if_pos hkj]; exact hI _ (hl j (by simp))
      · rw [if_neg hkj]; exact hZ _ (hl j (by simp))
    obtain ⟨A, hA⟩ := hex
    have hne : ∀ j' ∈ js, addr k j' ≠ addr k j := by
      intro j' hj' q
      have := hinj j (by simp) j' (by simp [hj']) q
      exact hn.1 (this ▸ hj')
    obtain ⟨h', e1, e2, e3⟩ := ih (fun a => if a = addr k j then A else h a) hn.2
      (fun a ha b hb => hinj a (by simp [ha]) b (by simp [hb]))
      (fun j' hj' => by rw [if_neg (hne j' hj')]; exact hl j' (by simp [hj']))
    refine ⟨h', by unfold bcRow; rw [hA, Option.bind_some, e1], ?_, ?_⟩
    · intro j' hj'
      rcases List.mem_cons.mp hj' with rfl | hj'
      · rw [hA, e3 _ fun j'' hj'' q => hne j'' hj'' q.symm, if_pos rfl]
      · have := e2 j' hj'
        rw [if_neg (hne j' hj')] at this
        exact this
    · intro a ha
      rw [e3 a fun j' hj' => ha j' (by simp [hj']), if_neg (ha j (by simp))]

theorem mA_length (gms : List DGM) (s : BSys) : (s.mA gms).length = s.cust.length := by simp [BSys.mA]

theorem vb_length (gms : List DGM) (s : BSys) : (s.vb gms).length = s.vcust.length := by simp [BSys.vb]

theorem onRank_mA (gms : List DGM) (s : BSys) {p : ℕ} {C : Dict ℕ Mat} (hC : s.cust[p]? = some C) (e : ℕ) :
    onRank (s.mA gms) p e = (Dict.get C e).getD
      (blockMat (lens gms e) (lens gms e) fun i j => onRank (s.heap (s.addr i j)) p e) := by
  unfold onRank BSys.mA
  rw [List.getElem?_map, List.getElem?_zipIdx, hC]
  simp only [Option.map_some, Nat.zero_add]
  rfl

theorem onRank_mk (gms : List DGM) {h a cu vh va vc} {p : ℕ} {C : Dict ℕ Mat} (hC : cu[p]? = some C) (e : ℕ) :
    onRank (BSys.mA gms ⟨h, a, cu, vh, va, vc⟩) p e = (Dict.get C e).getD
      (blockMat (lens gms e) (lens gms e) fun i j => onRank (h (a i j)) p e) :=
  onRank_mA gms ⟨h, a, cu, vh, va, vc⟩ hC e

theorem vonRank_vb (gms : List DGM) (s : BSys) {p : ℕ} {C : Dict ℕ (ℕ → ℚ)} (hC : s.vcust[p]? = some C) (e : ℕ) :
    vonRank (s.vb gms) p e = (Dict.get C e).getD
      (blockVec (lens gms e) fun i => vonRank (s.vheap (s.vaddr i)) p e) := by
  unfold vonRank BSys.vb
  rw [List.getElem?_map, List.getElem?_zipIdx, hC]
  simp only [Option.map_some, Nat.zero_add]
  rfl

theorem vonRank_mk (gms : List DGM) {h a cu vh va vc} {p : ℕ} {C : Dict ℕ (ℕ → ℚ)} (hC : vc[p]? = some C) (e : ℕ) :
    vonRank (BSys.vb gms ⟨h, a, cu, vh, va, vc⟩) p e = (Dict.get C e).getD
      (blockVec (lens gms e) fun i => vonRank (vh (va i)) p e) :=
  vonRank_vb gms ⟨h, a, cu, vh, va, vc⟩ hC e

theorem place_rank {g : DGM} {p e r d : ℕ} (h : Place g p e r d) : p < g.length := by
  obtain ⟨D, h1, _⟩ := h
  exact (List.getElem?_eq_some_iff.mp h1).1

theorem decode_lt {gms : List DGM} {e R k r : ℕ} (h : decode (lens gms e) R = some (k, r)) : k < gms.length := by
  obtain ⟨a, h1, _⟩ := decode_some h
  have := (List.getElem?_eq_some_iff.mp h1).1
  simpa [lens] using this

theorem lastSet_iff {n : ℕ} {cs : List (ℤ × ℚ)} {d : ℕ} :
    (lastSet n cs d).isSome ↔ ∃ i ∈ cs.map Prod.fst, dofOf n i = d := by
  induction cs with
  | nil => simp [lastSet]
  | cons c cs ih =>
    rw [lastSet_cons]
    cases h : lastSet n cs d with
    | some x =>
      rw [h] at ih
      have := ih.mp rfl
      obtain ⟨i, h1, h2⟩ := this
      simp only [Option.some_or, Option.isSome_some, true_iff]
      exact ⟨i, by rw [List.map_cons]; exact List.mem_cons_of_mem _ h1, h2⟩
    | none =>
      rw [h] at ih
      simp only [Option.none_or, List.map_cons, List.mem_cons]
      by_cases hd : dofOf n c.1 = d
      · simp [hd]
      · rw [if_neg hd]
        simp only [Option.isSome_none, Bool.false_eq_true, false_iff]
        rintro ⟨i, rfl | h1, h2⟩
        · exact hd h2
        · have := ih.mpr ⟨i, h1, h2⟩; simp at this

/-! ### C34 -/

/-- The data of `apply_essential_bc` on unknown `k`: what it needs and what it leaves. -/
theorem applyBC_tot {gms : List DGM} {c : DGM} (hd : ∀ g ∈ gms, Distinct g) (hc : chain gms = some c)
    {rn : ℕ × ℕ → ℕ} (hn : Names gms c rn) {k : ℕ} {g : DGM} (hg : gms[k]? = some g) {s : BSys} (hs : s.OK gms c)
    (hown : Own gms.length s k) {cs : List (ℤ × ℚ)} (hcs : ∀ x ∈ cs, -(g.num : ℤ) ≤ x.1 ∧ x.1 < g.num) :
    ∃ s', applyBC g k gms.length cs s = some s' ∧ s'.OK gms c ∧ s'.addr = s.addr ∧ s'.cust = s.cust ∧
      s'.vaddr = s.vaddr ∧ s'.vcust = s.vcust ∧
      (∀ d v, lastSet g.num cs d = some v → (∀ p e r C, Place g p e r d → s.cust[p]? = some C → Dict.get C e = none) →
        ∀ j, totH c (s'.mA gms) (rn (k, d)) j = if j = rn (k, d) then 1 else 0) ∧
      (∀ i, (∀ d, (lastSet g.num cs d).isSome → rn (k, d) ≠ i) →
        ∀ j, totH c (s'.mA gms) i j = totH c (s.mA gms) i j) ∧
      (∀ d v, lastSet g.num cs d = some v → (∀ p e r C, Place g p e r d → s.vcust[p]? = some C → Dict.get C e = none) →
        vtotH c (s'.vb gms) (rn (k, d)) = v) ∧
      (∀ i, (∀ d, (lastSet g.num cs d).isSome → rn (k, d) ≠ i) → vtotH c (s'.vb gms) i = vtotH c (s.vb gms) i) := by
  have hgm := List.mem_of_getElem? hg
  have hk : k < gms.length := (List.getElem?_eq_some_iff.mp hg).1
  obtain ⟨_, _, _, hcd, hcc, hcon, _⟩ := chain_ren hd hc
  have hgd := hd g hgm
  have hgc := hcon g hgm
  have hclen : c.length = g.length := (chain_keys hd hc hgm).1
  have hr : ∀ i ∈ cs.map Prod.fst, -(g.num : ℤ) ≤ i ∧ i < g.num := by
    intro i hi
    obtain ⟨x, hx, rfl⟩ := List.mem_map.mp hi
    exact hcs x hx
  have hlenk : ∀ j < gms.length, (s.heap (s.addr k j)).length = g.length := hs.blocks k g hg
  obtain ⟨h', b1, b2, b3⟩ := bcRow_spec (g := g) (addr := s.addr) (k := k) (dofs := cs.map Prod.fst)
    (fun A hA => by obtain ⟨A', e, _⟩ := identifyRows_places hgd hgc _ hA hr; exact ⟨A', e⟩)
    (fun A hA => by obtain ⟨A', e, _⟩ := zeroRows_places _ hA hr; exact ⟨A', e⟩)
    (List.range gms.length) s.heap List.nodup_range
    (fun j hj j' hj' q => (hown.1 j (List.mem_range.mp hj) k hk j' (List.mem_range.mp hj') q).2)
    (fun j hj => hlenk j (List.mem_range.mp hj))
  obtain ⟨b', v1, v2, v3, v4⟩ := setValues_places hgd hgc cs (hs.vec k g hg) hcs
  -- the blocks of row k afterwards
  have hdiag : ∃ A', identifyRowsH g (s.heap (s.addr k k)) (cs.map Prod.fst) = some A' ∧ h' (s.addr k k) = A' := by
    have := b2 k (List.mem_range.mpr hk)
    rw [if_pos rfl] at this
    exact ⟨_, this, rfl⟩
  obtain ⟨Ad, i1, i2, i3, i4⟩ := identifyRows_places hgd hgc (cs.map Prod.fst) (hlenk k hk) hr
  have hAd : h' (s.addr k k) = Ad := by
    obtain ⟨A', a1, a2⟩ := hdiag
    rw [a2]; rw [i1] at a1; exact (Option.some.inj a1).symm
  have hoff : ∀ j < gms.length, j ≠ k → (h' (s.addr k j)).length = g.length ∧
      (∀ i ∈ cs.map Prod.fst, ∀ p e r x, Place g p e r (dofOf g.num i) → onRank (h' (s.addr k j)) p e r x = 0) ∧
      ∀ p e r x, (∀ i ∈ cs.map Prod.fst, ¬ Place g p e r (dofOf g.num i)) →
        onRank (h' (s.addr k j)) p e r x = onRank (s.heap (s.addr k j)) p e r x := by
    intro j hj hjk
    obtain ⟨A', z1, z2, z3, z4⟩ := zeroRows_places (cs.map Prod.fst) (hlenk j hj) hr
    have := b2 j (List.mem_range.mpr hj)
    rw [if_neg fun q => hjk q.symm, z1, Option.some.injEq] at this
    rw [← this]
    exact ⟨z2, z3, z4⟩
  have hrow : ∀ i < gms.length, i ≠ k → ∀ j < gms.length, h' (s.addr i j) = s.heap (s.addr i j) := by
    intro i hi hik j hj
    apply b3
    intro j' hj' q
    exact hik (hown.1 j' (List.mem_range.mp hj') i hi j hj q).1
  -- places outside of the dofs that are set
  have hfree : ∀ {p e r d}, Place g p e r d → lastSet g.num cs d = none →
      ∀ i ∈ cs.map Prod.fst, ¬ Place g p e r (dofOf g.num i) := by
    intro p e r d hp hnone i hi hp'
    have := place_unique hgd hp' hp
    have : (lastSet g.num cs d).isSome := lastSet_iff.mpr ⟨i, hi, this⟩
    rw [hnone] at this; simp at this
  refine ⟨⟨h', s.addr, s.cust, fun a => if a = s.vaddr k then b' else s.vheap a, s.vaddr, s.vcust⟩, ?_, ?_, rfl, rfl,
    rfl, rfl, ?_, ?_, ?_, ?_⟩
  · unfold applyBC
    rw [b1, Option.bind_some, v1]
    rfl
  · refine ⟨?_, ?_, hs.cust, hs.vcust⟩
    · intro k' g' hg' j hj
      by_cases hkk : k' = k
      · subst hkk
        rw [hg] at hg'; cases hg'
        by_cases hjk : j = k'
        · subst hjk
          change (h' (s.addr j j)).length = _
          rw [hAd]; exact i2
        · exact (hoff j hj hjk).1
      · change (h' (s.addr k' j)).length = _
        rw [hrow k' (List.getElem?_eq_some_iff.mp hg').1 hkk j hj]
        exact hs.blocks k' g' hg' j hj
    · intro k' g' hg'
      change (if s.vaddr k' = s.vaddr k then b' else s.vheap (s.vaddr k')).length = _
      by_cases hkk : s.vaddr k' = s.vaddr k
      · have := hown.2 k' (List.getElem?_eq_some_iff.mp hg').1 hkk
        subst this
        rw [hg] at hg'; cases hg'
        rw [if_pos rfl]; exact v2
      · rw [if_neg hkk]; exact hs.vec k' g' hg'
  · -- unit rows
    intro d v hv hun j
    obtain ⟨i, hi, hid⟩ := lastSet_iff.mp (show (lastSet g.num cs d).isSome by rw [hv]; rfl)
    subst hid
    have hdn : dofOf g.num i ∈ g.nums := (hgc _).mpr (dof_norm (hr i hi)).2.2.2
    obtain ⟨p₀, e₀, r₀, w1, w2, w3⟩ := i3 i hi
    have hR₀ : (g.at e₀)[r₀]? = some (dofOf g.num i) := place_at hgd w1
    have hdec₀ := decode_place (lens_get hg e₀) (List.getElem?_eq_some_iff.mp hR₀).1
    have row : ∀ p e R C r x, Place g p e r (dofOf g.num i) → s.cust[p]? = some C →
        decode (lens gms e) R = some (k, r) →
        onRank (BSys.mA gms ⟨h', s.addr, s.cust, fun a => if a = s.vaddr k then b' else s.vheap a, s.vaddr, s.vcust⟩)
          p e R x = match decode (lens gms e) x with
            | some q => onRank (h' (s.addr k q.1)) p e r q.2
            | none => 0 := by
      intro p e R C r x hp hC hdec
      rw [onRank_mk gms hC, hun p e r C hp hC, Option.getD_none]
      unfold blockMat
      rw [hdec]
      cases decode (lens gms e) x <;> rfl
    have cust_at : ∀ {p e r}, Place g p e r (dofOf g.num i) → ∃ C, s.cust[p]? = some C := by
      intro p e r hp
      have := place_rank hp
      exact ⟨_, List.getElem?_eq_getElem (by rw [hs.cust, hclen]; exact this)⟩
    refine totH_unit (keys_rank hcd) (by rw [mA_length]; exact hs.cust) (p₀ := p₀) (e₀ := e₀)
      (r₀ := ((lens gms e₀).take k).sum + r₀) ((chain_place_iff hd hc hn hg hdn).mpr ⟨r₀, hdec₀, w1⟩) ?_ ?_ j
    · intro x
      obtain ⟨C, hC⟩ := cust_at w1
      rw [row p₀ e₀ _ C r₀ x w1 hC hdec₀]
      cases hx : decode (lens gms e₀) x with
      | none =>
        rw [if_neg]
        rintro rfl
        rw [hdec₀] at hx; simp at hx
      | some q =>
        simp only
        by_cases hq : q.1 = k
        · rw [hq, hAd, w2]
          by_cases hq2 : q.2 = r₀
          · rw [if_pos hq2, if_pos]
            obtain ⟨_, _, _, t⟩ := decode_some (show decode (lens gms e₀) x = some (q.1, q.2) from hx)
            rw [hq, hq2] at t; exact t
          · rw [if_neg hq2, if_neg]
            rintro rfl
            rw [hdec₀, Option.some.injEq] at hx
            exact hq2 (by rw [← hx])
        · rw [(hoff q.1 (decode_lt (show decode (lens gms e₀) x = some (q.1, q.2) from hx)) hq).2.1 i hi p₀ e₀ r₀ q.2 w1,
            if_neg]
          rintro rfl
          rw [hdec₀, Option.some.injEq] at hx
          exact hq (by rw [← hx])
    · intro p e R x hp hne
      obtain ⟨r, hdec, hp'⟩ := (chain_place_iff hd hc hn hg hdn).mp hp
      obtain ⟨C, hC⟩ := cust_at hp'
      rw [row p e R C r x hp' hC hdec]
      cases hx : decode (lens gms e) x with
      | none => rfl
      | some q =>
        simp only
        by_cases hq : q.1 = k
        · rw [hq, hAd]
          apply w3 p e r q.2 hp'
          intro t
          rw [Prod.mk.injEq, Prod.mk.injEq] at t
          obtain ⟨t1, t2, t3⟩ := t
          apply hne
          obtain ⟨_, _, _, tR⟩ := decode_some hdec
          rw [t1, t2, tR, t2, t3]
        · exact (hoff q.1 (decode_lt (show decode (lens gms e) x = some (q.1, q.2) from hx)) hq).2.1 i hi p e r q.2 hp'
  · -- other rows
    intro i hi j
    refine totH_same (by rw [mA_length]; exact hs.cust) (by rw [mA_length]; exact hs.cust) ?_ j
    intro p e R x hp
    obtain ⟨C, hC⟩ : ∃ C, s.cust[p]? = some C :=
      ⟨_, List.getElem?_eq_getElem (by rw [hs.cust]; exact place_rank hp)⟩
    rw [onRank_mA gms s hC, onRank_mk gms hC]
    cases Dict.get C e with
    | some _ => rfl
    | none =>
      simp only [Option.getD_none]
      obtain ⟨k', g', r, d, q1, q2, q3, q4⟩ := chain_place hd hc hn hp
      unfold blockMat
      rw [q2]
      cases hx : decode (lens gms e) x with
      | none => rfl
      | some q =>
        simp only
        have hqlt := decode_lt (show decode (lens gms e) x = some (q.1, q.2) from hx)
        by_cases hkk : k' = k
        · subst hkk
          rw [hg] at q1; cases q1
          have hnone : lastSet g.num cs d = none := by
            cases hl : lastSet g.num cs d with
            | none => rfl
            | some y => exact absurd q4 (hi d (by rw [hl]; rfl))
          have hf := hfree q3 hnone
          by_cases hq : q.1 = k'
          · rw [hq, hAd, i4 p e r q.2 hf]
          · rw [(hoff q.1 hqlt hq).2.2 p e r q.2 hf]
        · rw [hrow k' (List.getElem?_eq_some_iff.mp q1).1 hkk q.1 hqlt]
  · -- the values
    intro d v hv hun
    obtain ⟨i, hi, hid⟩ := lastSet_iff.mp (show (lastSet g.num cs d).isSome by rw [hv]; rfl)
    have hdn : d ∈ g.nums := (hgc _).mpr (hid ▸ (dof_norm (hr i hi)).2.2.2)
    obtain ⟨p₀, e₀, r₀, w1, w2, w3⟩ := v3 d v hv
    have hR₀ : (g.at e₀)[r₀]? = some d := place_at hgd w1
    have hdec₀ := decode_place (lens_get hg e₀) (List.getElem?_eq_some_iff.mp hR₀).1
    have row : ∀ p e R r, Place g p e r d → decode (lens gms e) R = some (k, r) →
        vonRank (BSys.vb gms ⟨h', s.addr, s.cust, fun a => if a = s.vaddr k then b' else s.vheap a, s.vaddr, s.vcust⟩)
          p e R = vonRank b' p e r := by
      intro p e R r hp hdec
      obtain ⟨C, hC⟩ : ∃ C, s.vcust[p]? = some C :=
        ⟨_, List.getElem?_eq_getElem (by rw [hs.vcust, hclen]; exact place_rank hp)⟩
      rw [vonRank_mk gms hC, hun p e r C hp hC, Option.getD_none]
      unfold blockVec
      rw [hdec]
      simp only [if_true]
    rw [vtotH_single (keys_rank hcd) (by rw [vb_length]; exact hs.vcust) (p₀ := p₀) (e₀ := e₀)
      (r₀ := ((lens gms e₀).take k).sum + r₀) ((chain_place_iff hd hc hn hg hdn).mpr ⟨r₀, hdec₀, w1⟩) ?_,
      row p₀ e₀ _ r₀ w1 hdec₀, w2]
    intro p e R hp hne
    obtain ⟨r, hdec, hp'⟩ := (chain_place_iff hd hc hn hg hdn).mp hp
    rw [row p e R r hp' hdec]
    apply w3 p e r hp'
    intro t
    rw [Prod.mk.injEq, Prod.mk.injEq] at t
    obtain ⟨t1, t2, t3⟩ := t
    apply hne
    obtain ⟨_, _, _, tR⟩ := decode_some hdec
    rw [t1, t2, tR, t2, t3]
  · -- other values
    intro i hi
    refine vtotH_same (by rw [vb_length]; exact hs.vcust) (by rw [vb_length]; exact hs.vcust) ?_
    intro p e R hp
    obtain ⟨C, hC⟩ : ∃ C, s.vcust[p]? = some C :=
      ⟨_, List.getElem?_eq_getElem (by rw [hs.vcust]; exact place_rank hp)⟩
    rw [vonRank_vb gms s hC, vonRank_mk gms hC]
    cases Dict.get C e with
    | some _ => rfl
    | none =>
      simp only [Option.getD_none]
      obtain ⟨k', g', r, d, q1, q2, q3, q4⟩ := chain_place hd hc hn hp
      unfold blockVec
      rw [q2]
      simp only
      by_cases hkk : k' = k
      · subst hkk
        rw [hg] at q1; cases q1
        have hnone : lastSet g.num cs d = none := by
          cases hl : lastSet g.num cs d with
          | none => rfl
          | some y => exact absurd q4 (hi d (by rw [hl]; rfl))
        rw [if_pos rfl, v4 p e r d q3 hnone]
      · rw [if_neg]
        intro q
        exact hkk (hown.2 k' (List.getElem?_eq_some_iff.mp q1).1 q)

/-- Numbers of different dofs are different. -/
theorem names_ne {gms : List DGM} {c : DGM} (hd : ∀ g ∈ gms, Distinct g) (hc : chain gms = some c) {rn : ℕ × ℕ → ℕ}
    (hn : Names gms c rn) {k k' d d' : ℕ} {g g' : DGM} (hg : gms[k]? = some g) (hg' : gms[k']? = some g')
    (h : d < g.num) (h' : d' < g'.num) (hr : rn (k, d) = rn (k', d')) : k = k' ∧ d = d' := by
  obtain ⟨_, _, _, hcd, hcc, hcon, hel⟩ := chain_ren hd hc
  have key : ∀ {k d : ℕ} {g : DGM}, gms[k]? = some g → d < g.num → ∃ e, Elem c e ∧ (k, d) ∈ cells gms e := by
    intro k d g hg h
    have hgm := List.mem_of_getElem? hg
    obtain ⟨e₀, he₀, hv⟩ := (mem_nums (hd g hgm)).mp ((hcon g hgm d).mpr h)
    obtain ⟨r₀, hr₀⟩ := List.mem_iff_getElem?.mp hv
    exact ⟨e₀, (hel g hgm e₀).mpr he₀, List.mem_of_getElem?
      (cells_get.mpr ⟨g, r₀, hg, hr₀, decode_place (lens_get hg e₀) (List.getElem?_eq_some_iff.mp hr₀).1⟩)⟩
  obtain ⟨e, h1, h2⟩ := key hg h
  obtain ⟨e', h3, h4⟩ := key hg' h'
  have := names_inj hd hc hn h1 h3 h2 h4 hr
  rw [Prod.mk.injEq] at this
  exact this

/-- Several calls of `apply_essential_bc`: the unknown, and the dofs on the place with their values. -/
def applyBCs (gms : List DGM) : List (ℕ × List (ℤ × ℚ)) → BSys → Option BSys
  | [], s => some s
  | x :: xs, s => gms[x.1]?.bind fun g => (applyBC g x.1 gms.length x.2 s).bind (applyBCs gms xs)

/-- The value given last to dof `d` of unknown `k`. -/
def lastBC (gms : List DGM) : List (ℕ × List (ℤ × ℚ)) → ℕ → ℕ → Option ℚ
  | [], _, _ => none
  | x :: xs, k, d => (lastBC gms xs k d).or
      (if x.1 = k then gms[k]?.bind fun g => lastSet g.num x.2 d else none)

/-- The calls are for unknowns of the system and their dofs. -/
def BCsOK (gms : List DGM) (bcs : List (ℕ × List (ℤ × ℚ))) : Prop :=
  ∀ x ∈ bcs, ∃ g, gms[x.1]? = some g ∧ ∀ y ∈ x.2, -(g.num : ℤ) ≤ y.1 ∧ y.1 < g.num

theorem lastSet_lt {n : ℕ} {cs : List (ℤ × ℚ)} (h : ∀ y ∈ cs, -(n : ℤ) ≤ y.1 ∧ y.1 < n) {d : ℕ}
    (hd : (lastSet n cs d).isSome) : d < n := by
  obtain ⟨i, hi, rfl⟩ := lastSet_iff.mp hd
  obtain ⟨y, hy, rfl⟩ := List.mem_map.mp hi
  exact (dof_norm (h y hy)).2.2.2

theorem lastBC_lt {gms : List DGM} {bcs : List (ℕ × List (ℤ × ℚ))} (h : BCsOK gms bcs) {k d : ℕ}
    (hs : (lastBC gms bcs k d).isSome) : ∃ g, gms[k]? = some g ∧ d < g.num := by
  induction bcs with
  | nil => simp [lastBC] at hs
  | cons x xs ih =>
    unfold lastBC at hs
    cases hl : lastBC gms xs k d with
    | some v => exact ih (fun y hy => h y (by simp [hy])) (by rw [hl]; rfl)
    | none =>
      rw [hl, Option.none_or] at hs
      by_cases hk : x.1 = k
      · rw [if_pos hk] at hs
        obtain ⟨g, h1, h2⟩ := h x (by simp)
        rw [hk] at h1
        rw [h1, Option.bind_some] at hs
        exact ⟨g, h1, lastSet_lt h2 hs⟩
      · rw [if_neg hk] at hs; simp at hs

theorem applyBCs_tot {gms : List DGM} {c : DGM} (hd : ∀ g ∈ gms, Distinct g) (hc : chain gms = some c)
    {rn : ℕ × ℕ → ℕ} (hn : Names gms c rn) : ∀ (bcs : List (ℕ × List (ℤ × ℚ))) (s : BSys), s.OK gms c →
      (∀ k < gms.length, Own gms.length s k) → (∀ C ∈ s.cust, C = []) → (∀ C ∈ s.vcust, C = []) → BCsOK gms bcs →
      ∃ s', applyBCs gms bcs s = some s' ∧ s'.OK gms c ∧
        (∀ k d v, lastBC gms bcs k d = some v →
          (∀ j, totH c (s'.mA gms) (rn (k, d)) j = if j = rn (k, d) then 1 else 0) ∧
          vtotH c (s'.vb gms) (rn (k, d)) = v) ∧
        (∀ i, (∀ k d, (lastBC gms bcs k d).isSome → rn (k, d) ≠ i) →
          (∀ j, totH c (s'.mA gms) i j = totH c (s.mA gms) i j) ∧ vtotH c (s'.vb gms) i = vtotH c (s.vb gms) i) := by
  intro bcs
  induction bcs with
  | nil => intro s hs _ _ _ _; exact ⟨s, rfl, hs, by simp [lastBC], fun i _ => ⟨fun j => rfl, rfl⟩⟩
  | cons x xs ih =>
    intro s hs hown hcu hvcu hok
    obtain ⟨g, hg, hr⟩ := hok x (by simp)
    have hok' : BCsOK gms xs := fun y hy => hok y (by simp [hy])
    obtain ⟨s₁, e1, hs₁, ha, hcu₁, hva, hvcu₁, p1, p2, p3, p4⟩ := applyBC_tot hd hc hn hg hs
      (hown _ (List.getElem?_eq_some_iff.mp hg).1) hr
    obtain ⟨s', e2, hs', q1, q2⟩ := ih s₁ hs₁ (by intro k hk; unfold Own; rw [ha, hva]; exact hown k hk)
      (by rw [hcu₁]; exact hcu) (by rw [hvcu₁]; exact hvcu) hok'
    refine ⟨s', by unfold applyBCs; rw [hg, Option.bind_some, e1, Option.bind_some, e2], hs', ?_, ?_⟩
    · intro k d v hv
      unfold lastBC at hv
      cases hl : lastBC gms xs k d with
      | some w =>
        rw [hl, Option.some_or, Option.some.injEq] at hv
        subst hv
        exact q1 k d w hl
      | none =>
        rw [hl, Option.none_or] at hv
        by_cases hk : x.1 = k
        · rw [if_pos hk] at hv
          subst hk
          rw [hg, Option.bind_some] at hv
          have hdlt := lastSet_lt hr (show (lastSet g.num x.2 d).isSome by rw [hv]; rfl)
          have hne : ∀ k' d', (lastBC gms xs k' d').isSome → rn (k', d') ≠ rn (x.1, d) := by
            intro k' d' h' q
            obtain ⟨g', hg', hd'⟩ := lastBC_lt hok' h'
            obtain ⟨a, b⟩ := names_ne hd hc hn hg' hg hd' hdlt q
            rw [a, b, hl] at h'
            simp at h'
          obtain ⟨r1, r2⟩ := q2 _ hne
          refine ⟨fun j => ?_, ?_⟩
          · rw [r1 j]
            exact p1 d v hv (fun p e r C _ hC => by rw [hcu C (List.mem_of_getElem? hC)]; rfl) j
          · rw [r2]
            exact p3 d v hv (fun p e r C _ hC => by rw [hvcu C (List.mem_of_getElem? hC)]; rfl)
        · rw [if_neg hk] at hv; simp at hv
    · intro i hi
      have h1 : ∀ k d, (lastBC gms xs k d).isSome → rn (k, d) ≠ i := by
        intro k d h
        apply hi
        unfold lastBC
        obtain ⟨w, hw⟩ := Option.isSome_iff_exists.mp h
        rw [hw]; rfl
      have h2 : ∀ d, (lastSet g.num x.2 d).isSome → rn (x.1, d) ≠ i := by
        intro d h
        apply hi
        unfold lastBC
        rw [if_pos rfl, hg, Option.bind_some]
        cases lastBC gms xs x.1 d with
        | some w => rfl
        | none => rw [Option.none_or]; exact h
      obtain ⟨r1, r2⟩ := q2 i h1
      exact ⟨fun j => by rw [r1 j, p2 i h2 j], by rw [r2, p4 i h2]⟩

/-- **C34**, when `set_dof` is only used after the boundary conditions were applied and each block is an object of its
own: after any sequence of `apply_essential_bc` calls followed by any sequence of `set_dof` calls, on all ranks and for
any distribution, the assembled matrix has the unit row for each dof given by a boundary condition or set, and all
other rows as before.  (For earlier `set_dof` calls see `bc_after_set_dof_refuted`, for shared blocks
`bc_shared_block_refuted`.) -/
theorem essential_bc_matrix_partial {gms : List DGM} {c : DGM} (hd : ∀ g ∈ gms, Distinct g) (hc : chain gms = some c)
    {rn : ℕ × ℕ → ℕ} (hn : Names gms c rn) (bcs : List (ℕ × List (ℤ × ℚ))) (ds : List (ℤ × ℚ)) (s : BSys)
    (hs : s.OK gms c) (hown : ∀ k < gms.length, Own gms.length s k) (hcu : ∀ C ∈ s.cust, C = [])
    (hvcu : ∀ C ∈ s.vcust, C = []) (hok : BCsOK gms bcs) (hds : ∀ y ∈ ds, -(c.num : ℤ) ≤ y.1 ∧ y.1 < c.num) :
    ∃ s' t, applyBCs gms bcs s = some s' ∧ setDofsH c ⟨s'.mA gms, s'.vb gms⟩ ds = some t ∧
      ∀ {dep wid : ℕ} {ess ess' : List (List El)}, StoresH c (s.mA gms) dep wid ess → StoresH c t.A dep wid ess' →
      ∃ Ts Ts', allSome (ess.map (Assembly.assemble none dep wid)) = some Ts ∧
        allSome (ess'.map (Assembly.assemble none dep wid)) = some Ts' ∧
        (∀ i j, (lastSet c.num ds i).isSome → entryH Ts' i j = if j = i then 1 else 0) ∧
        (∀ k d j, (lastBC gms bcs k d).isSome → entryH Ts' (rn (k, d)) j = if j = rn (k, d) then 1 else 0) ∧
        ∀ i j, lastSet c.num ds i = none → (∀ k d, (lastBC gms bcs k d).isSome → rn (k, d) ≠ i) →
          entryH Ts' i j = entryH Ts i j := by
  obtain ⟨_, _, _, hcd, hcc, _⟩ := chain_ren hd hc
  obtain ⟨s', e1, hs', p1, p2⟩ := applyBCs_tot hd hc hn bcs s hs hown hcu hvcu hok
  obtain ⟨t, e2, _, _, t1, _⟩ := setDofsH_tot (keys_rank hcd) hcc ds ⟨s'.mA gms, s'.vb gms⟩
    (by rw [mA_length]; exact hs'.cust) (by rw [vb_length]; exact hs'.vcust) hds
  refine ⟨s', t, e1, e2, ?_⟩
  intro dep wid ess ess' hst hst'
  obtain ⟨Ts, f1, f2⟩ := storesH_assemble hst
  obtain ⟨Ts', f3, f4⟩ := storesH_assemble hst'
  refine ⟨Ts, Ts', f1, f3, ?_, ?_, ?_⟩
  · intro i j h
    rw [f4, t1, if_pos h]
  · intro k d j h
    rw [f4, t1]
    split
    · rfl
    · obtain ⟨v, hv⟩ := Option.isSome_iff_exists.mp h
      exact (p1 k d v hv).1 j
  · intro i j h h'
    rw [f4, f2, t1, h]
    exact (p2 i h').1 j

/-- **C34**, right hand side, under the same conditions and for gathering matrices whose rows have no repeated numbers:
the entry of each dof that was set afterwards is the value set last, otherwise the value of the last boundary
condition for it; all other entries are as before. -/
theorem essential_bc_rhs_partial {gms : List DGM} {c : DGM} (hd : ∀ g ∈ gms, Distinct g) (hc : chain gms = some c)
    (hnd : ∀ g ∈ gms, ∀ d ∈ g, ∀ p ∈ d, p.2.Nodup)
    {rn : ℕ × ℕ → ℕ} (hn : Names gms c rn) (bcs : List (ℕ × List (ℤ × ℚ))) (ds : List (ℤ × ℚ)) (s : BSys)
    (hs : s.OK gms c) (hown : ∀ k < gms.length, Own gms.length s k) (hcu : ∀ C ∈ s.cust, C = [])
    (hvcu : ∀ C ∈ s.vcust, C = []) (hok : BCsOK gms bcs) (hds : ∀ y ∈ ds, -(c.num : ℤ) ≤ y.1 ∧ y.1 < c.num) :
    ∃ s' t, applyBCs gms bcs s = some s' ∧ setDofsH c ⟨s'.mA gms, s'.vb gms⟩ ds = some t ∧ ∃ vs vs',
      allSome (List.zipWith (fun d b => vassemble c.num (vecs (rankRows d) b)) c (s.vb gms)) = some vs ∧
      allSome (List.zipWith (fun d b => vassemble c.num (vecs (rankRows d) b)) c t.b) = some vs' ∧
        (∀ i < c.num, ∀ v, lastSet c.num ds i = some v → ventryH vs' i = v) ∧
        (∀ k d v, lastBC gms bcs k d = some v → rn (k, d) < c.num ∧
          (lastSet c.num ds (rn (k, d)) = none → ventryH vs' (rn (k, d)) = v)) ∧
        ∀ i < c.num, lastSet c.num ds i = none → (∀ k d, (lastBC gms bcs k d).isSome → rn (k, d) ≠ i) →
          ventryH vs' i = ventryH vs i := by
  obtain ⟨_, _, _, hcd, hcc, hcon, hel⟩ := chain_ren hd hc
  obtain ⟨s', e1, hs', p1, p2⟩ := applyBCs_tot hd hc hn bcs s hs hown hcu hvcu hok
  obtain ⟨t, e2, _, hb, _, t1⟩ := setDofsH_tot (keys_rank hcd) hcc ds ⟨s'.mA gms, s'.vb gms⟩
    (by rw [mA_length]; exact hs'.cust) (by rw [vb_length]; exact hs'.vcust) hds
  obtain ⟨vs, f1, f2⟩ := vecsH_assemble (g := c) (b := s.vb gms) (by rw [vb_length]; exact hs.vcust)
    (fun n h => num_le h) (chain_nodup hd hc hnd)
  obtain ⟨vs', f3, f4⟩ := vecsH_assemble (g := c) (b := t.b) hb (fun n h => num_le h) (chain_nodup hd hc hnd)
  refine ⟨s', t, e1, e2, vs, vs', f1, f3, ?_, ?_, ?_⟩
  · intro i hi v h
    rw [f4 i hi, t1, h]; rfl
  · intro k d v hv
    obtain ⟨g, hg, hdn⟩ := lastBC_lt hok (show (lastBC gms bcs k d).isSome by rw [hv]; rfl)
    have hlt : rn (k, d) < c.num := by
      have hgm := List.mem_of_getElem? hg
      obtain ⟨e₀, he₀, hv⟩ := (mem_nums (hd g hgm)).mp ((hcon g hgm d).mpr hdn)
      obtain ⟨r₀, hr₀⟩ := List.mem_iff_getElem?.mp hv
      have he : Elem c e₀ := (hel g hgm e₀).mpr he₀
      have := (chain_at hd hc hn hg ((hcon g hgm d).mpr hdn) he).mpr
        ⟨r₀, hr₀, decode_place (lens_get hg e₀) (List.getElem?_eq_some_iff.mp hr₀).1⟩
      exact num_le ((mem_nums hcd).mpr ⟨e₀, he, List.mem_of_getElem? this⟩)
    refine ⟨hlt, ?_⟩
    intro h
    rw [f4 _ hlt, t1, h]
    exact (p1 k d v hv).2
  · intro i hi h h'
    rw [f4 i hi, f2 i hi, t1, h]
    exact (p2 i h').2

/-- A system of the two unknowns `gU`, `gV`. -/
def sUV : BSys where
  heap a := [⟨fun e r c => ((a + e + 2 * r + c + 1 : ℕ) : ℚ), []⟩, ⟨fun e r c => ((a + e + r + 3 * c + 2 : ℕ) : ℚ), []⟩]
  addr i j := 2 * i + j
  cust := [[], []]
  vheap a := [⟨fun e r => ((a + e + r : ℕ) : ℚ), []⟩, ⟨fun e r => ((a + e + r : ℕ) : ℚ), []⟩]
  vaddr i := i
  vcust := [[], []]

example : sUV.OK [gU, gV] gUV ∧ (∀ k < [gU, gV].length, Own [gU, gV].length sUV k) ∧ (∀ C ∈ sUV.cust, C = []) ∧
    (∀ C ∈ sUV.vcust, C = []) ∧ BCsOK [gU, gV] [(0, [(0, 7), (-1, 8)]), (1, [(1, 9)])] ∧
    ∀ y ∈ [((2 : ℤ), (4 : ℚ))], -(gUV.num : ℤ) ≤ y.1 ∧ y.1 < gUV.num := by
  refine ⟨⟨?_, ?_, rfl, rfl⟩, ?_, by decide, by decide, ?_, by decide +kernel⟩
  · intro k g hg j _
    match k with
    | 0 => cases hg; rfl
    | 1 => cases hg; rfl
    | k + 2 => simp at hg
  · intro k g hg
    match k with
    | 0 => cases hg; rfl
    | 1 => cases hg; rfl
    | k + 2 => simp at hg
  · intro k _
    refine ⟨?_, fun i _ h => h⟩
    intro j hj i hi j' hj' h
    change 2 * i + j' = 2 * k + j at h
    simp at hj hj'
    omega
  · intro x hx
    simp only [List.mem_cons, List.not_mem_nil, or_false] at hx
    rcases hx with rfl | rfl
    · exact ⟨gU, rfl, by decide +kernel⟩
    · exact ⟨gV, rfl, by decide +kernel⟩

/-- A boundary condition does not take effect in an element that was customised by an earlier `set_dof`: the
customisation of the whole matrix hides those of its blocks. -/
theorem bc_after_set_dof_refuted : ∃ s₁ s₂, sUV.setDof [gU, gV] gUV 2 4 = some s₁ ∧
    applyBC gU 0 2 [(0, 7)] s₁ = some s₂ ∧ rnUV (0, 0) = 0 ∧
    ∀ {dep wid : ℕ} {ess : List (List El)}, StoresH gUV (s₂.mA [gU, gV]) dep wid ess →
      ∃ Ts, allSome (ess.map (Assembly.assemble none dep wid)) = some Ts ∧ entryH Ts 0 1 = 2 := by
  have h1 : ((sUV.setDof [gU, gV] gUV 2 4).bind fun s₁ => (applyBC gU 0 2 [(0, 7)] s₁).map fun s₂ =>
      totH gUV (s₂.mA [gU, gV]) 0 1) = some 2 := by decide +kernel
  rw [Option.bind_eq_some_iff] at h1
  obtain ⟨s₁, a1, a2⟩ := h1
  rw [Option.map_eq_some_iff] at a2
  obtain ⟨s₂, b1, b2⟩ := a2
  refine ⟨s₁, s₂, a1, b1, by decide, ?_⟩
  intro dep wid ess hst
  obtain ⟨Ts, f1, f2⟩ := storesH_assemble hst
  exact ⟨Ts, f1, by rw [f2, b2]⟩

/-- Two unknowns of the same space, both with the same mass matrix on the diagonal. -/
def sUU : BSys := ⟨sUV.heap, fun i j => if i = j then 0 else 1 + i, sUV.cust, sUV.vheap, sUV.vaddr, sUV.vcust⟩

/-- **C68** is refuted when a block is the same object as a block of another row (as is the case for mass matrices):
the boundary condition of the first unknown replaces rows of the second. -/
theorem bc_shared_block_refuted : ∃ (c : DGM) (rn : ℕ × ℕ → ℕ) (s' : BSys), chain [gU, gU] = some c ∧
    Names [gU, gU] c rn ∧ applyBC gU 0 2 [(0, 7)] sUU = some s' ∧
    ∀ {dep wid : ℕ} {ess ess' : List (List El)}, StoresH c (sUU.mA [gU, gU]) dep wid ess →
      StoresH c (s'.mA [gU, gU]) dep wid ess' →
      ∃ Ts Ts', allSome (ess.map (Assembly.assemble none dep wid)) = some Ts ∧
        allSome (ess'.map (Assembly.assemble none dep wid)) = some Ts' ∧
        entryH Ts (rn (1, 0)) (rn (1, 1)) = 2 ∧ entryH Ts' (rn (1, 0)) (rn (1, 1)) = 0 := by
  have h1 : ((applyBC gU 0 2 [(0, 7)] sUU).map fun s' =>
      totH [[(0, [0, 1, 2, 3])], [(1, [1, 4, 3, 5])]] (s'.mA [gU, gU]) 2 3) = some 0 := by decide +kernel
  rw [Option.map_eq_some_iff] at h1
  obtain ⟨s', a1, a2⟩ := h1
  have h0 : totH [[(0, [0, 1, 2, 3])], [(1, [1, 4, 3, 5])]] (sUU.mA [gU, gU]) 2 3 = 2 := by decide +kernel
  refine ⟨[[(0, [0, 1, 2, 3])], [(1, [1, 4, 3, 5])]], fun x => if x.1 = 0 then (if x.2 = 2 then 4 else x.2) else
    (if x.2 = 2 then 5 else x.2 + 2), s', by decide +kernel, ?_, a1, ?_⟩
  · intro e he
    have : e ∈ [0, 1] := he
    simp only [List.mem_cons, List.not_mem_nil, or_false] at this
    rcases this with rfl | rfl <;> decide +kernel
  · intro dep wid ess ess' hst hst'
    obtain ⟨Ts, f1, f2⟩ := storesH_assemble hst
    obtain ⟨Ts', f3, f4⟩ := storesH_assemble hst'
    exact ⟨Ts, Ts', f1, f3, by rw [f2]; exact h0, by rw [f4]; exact a2⟩

/-- **C68**, when the blocks of the row are objects of their own: a boundary condition for unknown `k` changes no row
of another unknown. -/
theorem bc_other_unknowns_partial {gms : List DGM} {c : DGM} (hd : ∀ g ∈ gms, Distinct g) (hc : chain gms = some c)
    {rn : ℕ × ℕ → ℕ} (hn : Names gms c rn) {k : ℕ} {g : DGM} (hg : gms[k]? = some g) {s : BSys} (hs : s.OK gms c)
    (hown : Own gms.length s k) {cs : List (ℤ × ℚ)} (hcs : ∀ x ∈ cs, -(g.num : ℤ) ≤ x.1 ∧ x.1 < g.num) :
    ∃ s', applyBC g k gms.length cs s = some s' ∧
      ∀ {dep wid : ℕ} {ess ess' : List (List El)}, StoresH c (s.mA gms) dep wid ess →
        StoresH c (s'.mA gms) dep wid ess' →
      ∃ Ts Ts', allSome (ess.map (Assembly.assemble none dep wid)) = some Ts ∧
        allSome (ess'.map (Assembly.assemble none dep wid)) = some Ts' ∧
        ∀ k' g' d j, k' ≠ k → gms[k']? = some g' → d < g'.num →
          entryH Ts' (rn (k', d)) j = entryH Ts (rn (k', d)) j := by
  obtain ⟨s', e1, _, _, _, _, _, _, p2, _, _⟩ := applyBC_tot hd hc hn hg hs hown hcs
  refine ⟨s', e1, ?_⟩
  intro dep wid ess ess' hst hst'
  obtain ⟨Ts, f1, f2⟩ := storesH_assemble hst
  obtain ⟨Ts', f3, f4⟩ := storesH_assemble hst'
  refine ⟨Ts, Ts', f1, f3, ?_⟩
  intro k' g' d j hk hg' hdn
  rw [f2, f4]
  apply p2
  intro d' h' q
  exact hk (names_ne hd hc hn hg hg' (lastSet_lt hcs h') hdn q).1.symm

end Phyem.Customize
