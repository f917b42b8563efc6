import Verif.Customize.BCProps

/-!
C31, C34: `set_dof` on a system of blocks. The customisations are kept with the whole matrix and the whole vector, so that
what is read from the system afterwards is the customised data.
-/

namespace Phyem.Customize

open Chaining Assembly

/-! ### Helpers -/

theorem edit_base {α : Type} (f : α → ℕ → α) (qs : List (ℕ × ℕ)) : ∀ M : Loc α, (Loc.edit f M qs).base = M.base := by
  induction qs with
  | nil => intro M; rfl
  | cons q qs ih =>
    intro M
    change (Loc.edit f (M.set q.1 (f (M.get q.1) q.2)) qs).base = _
    rw [ih]; rfl

theorem flagEdit_base {α : Type} (f f' : α → ℕ → α) (e : ℕ) (qs : List (ℕ × ℕ)) :
    ∀ (b : Bool) (M : Loc α), (flagEdit f f' e b M qs).base = M.base := by
  induction qs with
  | nil => intro b M; rfl
  | cons q qs ih =>
    intro b M
    unfold flagEdit
    split_ifs
    · rw [ih]; rfl
    · rw [ih]; rfl

theorem rankEdit_base {α : Type} {f f' : α → ℕ → α} {g : DGM} {n k : ℕ} {d : Dict ℕ (List ℕ)} {M M' : Loc α}
    (h : rankEdit f f' g n k d M = some M') : M'.base = M.base := by
  unfold rankEdit at h
  split_ifs at h
  · split at h
    · cases h; rfl
    · cases h; rfl
  · obtain ⟨p, _, h⟩ := Option.map_eq_some_iff.1 h
    rw [← h]
    split_ifs
    · rw [flagEdit_base]
    · rw [edit_base]

theorem ranksEdit_base {α : Type} {f f' : α → ℕ → α} {g : DGM} {n : ℕ} : ∀ (k : ℕ) (ds : List (Dict ℕ (List ℕ)))
    (Ms Ms' : List (Loc α)), ds.length = Ms.length → ranksEdit f f' g n k ds Ms = some Ms' →
    Ms'.map Loc.base = Ms.map Loc.base := by
  intro k ds
  induction ds generalizing k with
  | nil =>
    intro Ms Ms' hl h
    cases Ms with
    | nil => simp only [ranksEdit, Option.some.injEq] at h; rw [← h]
    | cons M Ms => simp at hl
  | cons d ds ih =>
    intro Ms Ms' hl h
    cases Ms with
    | nil => simp at hl
    | cons M Ms =>
      unfold ranksEdit at h
      split at h
      · rename_i a b M₁ Ms₁ h1 h2
        simp only [Option.some.injEq] at h
        rw [← h, List.map_cons, List.map_cons, rankEdit_base h1, ih (k + 1) Ms Ms₁ (by simpa using hl) h2]
      · simp at h

theorem rebuild {α : Type} (F : ℕ → ℕ → α) (C : List (Dict ℕ α)) (L : List (Loc α))
    (h : L.map Loc.base = (C.zipIdx.map fun q => (⟨F q.2, q.1⟩ : Loc α)).map Loc.base) :
    ((L.map Loc.cust).zipIdx.map fun q => (⟨F q.2, q.1⟩ : Loc α)) = L := by
  apply List.ext_getElem?
  intro i
  have hi := congrArg (fun l => l[i]?) h
  simp only [List.getElem?_map, List.getElem?_zipIdx, Option.map_map] at hi ⊢
  cases hL : L[i]? with
  | none => simp
  | some x =>
    rw [hL] at hi
    cases hC : C[i]? with
    | none => rw [hC] at hi; simp at hi
    | some y =>
      rw [hC] at hi
      simp only [Option.map_some, Option.some.injEq, Function.comp_apply] at hi ⊢
      cases x with
      | mk b c =>
        have hi : b = F (0 + i) := hi
        rw [hi]

/-! ### Properties -/

/-- What the system of blocks gives after `set_dof` is what `set_dof` makes of the matrix and the vector it gave before. -/
theorem set_dof_of_blocks {gms : List DGM} {c : DGM} {s : BSys} (hs : s.OK gms c) (i : ℤ) (v : ℚ) :
    (s.setDof gms c i v).map (fun s' => (s'.mA gms, s'.vb gms)) =
      (setDofH c ⟨s.mA gms, s.vb gms⟩ i v).map fun t => (t.A, t.b) := by
  unfold BSys.setDof
  rw [Option.map_map]
  cases ht : setDofH c ⟨s.mA gms, s.vb gms⟩ i v with
  | none => rfl
  | some t =>
    simp only [Option.map_some, Function.comp_apply, Option.some.injEq, Prod.mk.injEq]
    unfold setDofH at ht
    obtain ⟨A, hA, ht⟩ := Option.bind_eq_some_iff.1 ht
    obtain ⟨b, hb, ht⟩ := Option.map_eq_some_iff.1 ht
    subst ht
    unfold identifyRowH at hA
    obtain ⟨n, _, hA⟩ := Option.bind_eq_some_iff.1 hA
    unfold setValueH at hb
    obtain ⟨m, _, hb⟩ := Option.bind_eq_some_iff.1 hb
    constructor
    · have h := ranksEdit_base 0 c (s.mA gms) A (by rw [mA_length]; exact hs.cust.symm) hA
      exact rebuild (fun p e => blockMat (lens gms e) (lens gms e) fun i j => onRank (s.heap (s.addr i j)) p e) s.cust A h
    · have h := ranksEdit_base 0 c (s.vb gms) b (by rw [vb_length]; exact hs.vcust.symm) hb
      exact rebuild (fun p e => blockVec (lens gms e) fun i => vonRank (s.vheap (s.vaddr i)) p e) s.vcust b h

/-- **C31** for a system of blocks: after `set_dof(i, v)` with a number in range, on all ranks, the sum over the ranks of the
assembled matrices has the unit row `i` and the other rows as before; for gathering matrices whose rows have no repeated
numbers the assembled right-hand side has `v` there and the other entries as before. -/
theorem block_set_dof_partial {gms : List DGM} {c : DGM} (hd : ∀ g ∈ gms, Distinct g) (hc : chain gms = some c)
    (hnd : ∀ g ∈ gms, ∀ d ∈ g, ∀ p ∈ d, p.2.Nodup) {s : BSys} (hs : s.OK gms c) {i : ℤ}
    (hi : -(c.num : ℤ) ≤ i ∧ i < c.num) (v : ℚ) :
    ∃ s', s.setDof gms c i v = some s' ∧
      (∀ {dep wid : ℕ} {ess ess' : List (List El)}, StoresH c (s.mA gms) dep wid ess →
        StoresH c (s'.mA gms) dep wid ess' →
        ∃ Ts Ts', allSome (ess.map (Assembly.assemble none dep wid)) = some Ts ∧
          allSome (ess'.map (Assembly.assemble none dep wid)) = some Ts' ∧
          (∀ j, entryH Ts' (dofOf c.num i) j = if j = dofOf c.num i then 1 else 0) ∧
          ∀ r ≠ dofOf c.num i, ∀ j, entryH Ts' r j = entryH Ts r j) ∧
      ∃ vs vs', allSome (List.zipWith (fun d b => vassemble c.num (vecs (rankRows d) b)) c (s.vb gms)) = some vs ∧
        allSome (List.zipWith (fun d b => vassemble c.num (vecs (rankRows d) b)) c (s'.vb gms)) = some vs' ∧
        ventryH vs' (dofOf c.num i) = v ∧ ∀ r < c.num, r ≠ dofOf c.num i → ventryH vs' r = ventryH vs r := by
  obtain ⟨_, _, _, hcd, hcc, _⟩ := chain_ren hd hc
  have hA : (s.mA gms).length = c.length := by rw [mA_length]; exact hs.cust
  have hb : (s.vb gms).length = c.length := by rw [vb_length]; exact hs.vcust
  obtain ⟨t, e, hAt, hbt, h1, h2, h3, h4⟩ := setDofH_step (keys_rank hcd) hcc ⟨s.mA gms, s.vb gms⟩ hA hb hi v
  have hv := set_dof_of_blocks hs i v
  rw [e] at hv
  obtain ⟨s', es, hs'⟩ := Option.map_eq_some_iff.1 hv
  simp only [Prod.mk.injEq] at hs'
  refine ⟨s', es, ?_, ?_⟩
  · intro dep wid ess ess' hst hst'
    obtain ⟨Ts, f1, f2⟩ := storesH_assemble hst
    obtain ⟨Ts', f3, f4⟩ := storesH_assemble hst'
    refine ⟨Ts, Ts', f1, f3, fun j => ?_, fun r hr j => ?_⟩
    · rw [f4, hs'.1, h1]
    · rw [f4, f2, hs'.1, h2 r hr]
  · obtain ⟨vs, f1, f2⟩ := vecsH_assemble hb (fun n h => num_le h) (chain_nodup hd hc hnd)
    obtain ⟨vs', f3, f4⟩ := vecsH_assemble (b := s'.vb gms) (by rw [hs'.2]; exact hbt) (fun n h => num_le h)
      (chain_nodup hd hc hnd)
    obtain ⟨_, _, _, hlt⟩ := dof_norm hi
    refine ⟨vs, vs', f1, f3, ?_, fun r hr hne => ?_⟩
    · rw [f4 _ hlt, hs'.2, h3]
    · rw [f4 r hr, f2 r hr, hs'.2, h4 r hne]

/-- The system of two unknowns meets the hypotheses. -/
example : sUV.OK [gU, gV] gUV ∧ (∀ g ∈ [gU, gV], ∀ d ∈ g, ∀ p ∈ d, p.2.Nodup) ∧ -(gUV.num : ℤ) ≤ 2 ∧ 2 < (gUV.num : ℤ) ∧
    (sUV.setDof [gU, gV] gUV 2 4).isSome = true := by
  refine ⟨⟨?_, ?_, rfl, rfl⟩, by decide, by decide +kernel, by decide +kernel, by decide +kernel⟩
  · intro k g hg j _
    match k with
    | 0 => cases hg; rfl
    | 1 => cases hg; rfl
    | k + 2 => simp at hg
  · intro k g hg
    match k with
    | 0 => cases hg; rfl
    | 1 => cases hg; rfl
    | k + 2 => simp at hg

end Phyem.Customize
