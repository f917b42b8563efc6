import Verif.DynSys.Raw

/-!
Essential boundary conditions change the rows of the objects of one evaluation only.
-/

namespace Phyem.DynSys

open Phyem OpCache

variable {T τ C K : Type} [Field K] [DecidableEq K]

/-! ### Prescribed rows -/

lemma lastEdit_nil (e r : ℕ) : lastEdit ([] : List (Edit K)) e r = none := rfl

lemma lastEdit_append (l l' : List (Edit K)) (e r : ℕ) :
    lastEdit (l ++ l') e r = (lastEdit l' e r).or (lastEdit l e r) := by
  unfold lastEdit
  rw [List.reverse_append, List.find?_append]

lemma lastEdit_one (d : Edit K) (e r : ℕ) :
    lastEdit [d] e r = if d.elem = e ∧ d.row = r then some d else none := by
  unfold lastEdit
  by_cases h : d.elem = e ∧ d.row = r
  · simp [h]
  · rw [if_neg h]
    simp only [List.reverse_singleton, List.find?_singleton]
    rw [if_neg]
    simpa using h

lemma withRows_nil (diag : Bool) (e : ℕ) : withRows diag ([] : List (Edit K)) e = id := by
  funext A
  rfl

lemma withVals_nil (e : ℕ) : withVals ([] : List (Edit K)) e = id := by
  funext A
  rfl

lemma withRows_append (diag : Bool) (l l' : List (Edit K)) (e : ℕ) (A : LM K) :
    withRows diag (l ++ l') e A = withRows diag l' e (withRows diag l e A) := by
  unfold withRows
  congr 1
  funext r c
  rw [lastEdit_append]
  cases lastEdit l' e r <;> rfl

lemma withVals_append (l l' : List (Edit K)) (e : ℕ) (A : LV K) :
    withVals (l ++ l') e A = withVals l' e (withVals l e A) := by
  unfold withVals
  congr 1
  funext r
  rw [lastEdit_append]
  cases lastEdit l' e r <;> rfl

lemma withRows_one (diag : Bool) (d : Edit K) (e : ℕ) (A : LM K) :
    withRows diag [d] e A = if e = d.elem then editRow diag d A else A := by
  unfold withRows
  simp only [lastEdit_one]
  by_cases he : e = d.elem
  · rw [if_pos he]
    unfold editRow
    congr 1
    funext r c
    by_cases hr : r = d.row
    · simp [he, hr, and_assoc]
    · simp [he, hr, Ne.symm hr]
  · rw [if_neg he]
    simp [Ne.symm he]

lemma withVals_one (d : Edit K) (e : ℕ) (v : LV K) :
    withVals [d] e v = if e = d.elem then editVal d v else v := by
  unfold withVals
  simp only [lastEdit_one]
  by_cases he : e = d.elem
  · rw [if_pos he]
    unfold editVal
    congr 1
    funext r
    by_cases hr : r = d.row
    · simp [he, hr]
    · simp [he, hr, Ne.symm hr]
  · rw [if_neg he]
    simp [Ne.symm he]

lemma prescribed_append (w : World T τ C K) (cf : List (Config C)) (x : List (Unknown τ)) (i : ℕ)
    (l l' : List (ℕ × BC)) :
    prescribed w cf x i (l ++ l') = prescribed w cf x i l ++ prescribed w cf x i l' := by
  induction l with
  | nil => rfl
  | cons p l ih =>
    obtain ⟨sec, c⟩ := p
    cases c with
    | essential j => simp only [List.cons_append, prescribed, ih, List.append_assoc]
    | natural f => exact ih
    | manual => exact ih

/-! ### Customisation -/

/-- Objects made since `L0` were customised. -/
structure Cust (L0 : ℕ) (s s' : Sess T τ C K) : Prop where
  len : s'.heap.length = s.heap.length
  old : ∀ i < L0, s'.heap[i]? = s.heap[i]?
  uses : ∀ i j, Uses s'.heap i j ↔ Uses s.heap i j
  cache : s'.cacheM = s.cacheM
  systems : s'.systems = s.systems

lemma Cust.refl (L0 : ℕ) (s : Sess T τ C K) : Cust L0 s s :=
  ⟨rfl, fun _ _ => rfl, fun _ _ => .rfl, rfl, rfl⟩

lemma Cust.trans {L0 : ℕ} {s s' s'' : Sess T τ C K} (a : Cust L0 s s') (b : Cust L0 s' s'') :
    Cust L0 s s'' :=
  ⟨b.len.trans a.len, fun i hi => (b.old i hi).trans (a.old i hi), fun i j => (b.uses i j).trans (a.uses i j),
    b.cache.trans a.cache, b.systems.trans a.systems⟩

lemma Cust.unused {L0 : ℕ} {s s' : Sess T τ C K} (a : Cust L0 s s') {i : ℕ} (h : Unused i s.heap) :
    Unused i s'.heap := fun j hj => h j ((a.uses j i).mp hj)

lemma read_custom {h : Hp K} {i : ℕ} (hi : i < h.length) (hu : Unused i h) (e : ℕ) (A : LM K) (e' : ℕ) :
    readM (h.modify i fun o => (o.1, o.2.put e A)) i e' = if e' = e then some A else readM h i e' := by
  unfold readM
  simp only [value]
  have hg : (h.modify i fun o => (o.1, o.2.put e A))[i]? = some ((h[i]'hi).1, (h[i]'hi).2.put e A) := by
    rw [List.getElem?_modify]
    simp [List.getElem?_eq_getElem hi]
  have hg' : h[i]? = some (h[i]'hi) := List.getElem?_eq_getElem hi
  rw [hg, hg']
  rcases ho : h[i]'hi with ⟨op, c⟩
  simp only [Dict.get_put]
  by_cases he : e' = e
  · simp [he]
  · simp only [if_neg he]
    cases c.get e' with
    | some v => rfl
    | none =>
      cases op with
      | leaf d k => rfl
      | derived kind args f =>
        have : args.map (fun j => value (h.modify i fun o => (o.1, o.2.put e A)) i j e') =
            args.map fun j => value h i j e' := by
          apply List.map_congr_left
          intro j hj
          have hji : j ≠ i := by
            rintro rfl
            exact hu j ⟨kind, args, f, c, by rw [hg', ho], hj⟩
          refine (value_agree (h := h) (fun k => k ≠ i) ?_ ?_ _ _ _ hji).symm
          · intro k hk
            rw [List.getElem?_modify]
            simp [Ne.symm hk]
          · rintro k k' - hk' rfl
            exact hu k hk'
        simp only [this]

lemma cust_of (L0 : ℕ) (s : Sess T τ C K) {i : ℕ} (hi : L0 ≤ i) (e : ℕ) (A : LM K) :
    Cust L0 s (customise i e A s).1 := by
  refine ⟨by simp [customise], fun j hj => ?_, fun j k =>
    uses_modify i (fun o => (o.1, o.2.put e A)) (fun _ => rfl) j k, rfl, rfl⟩
  change (s.heap.modify i _)[j]? = _
  rw [List.getElem?_modify]
  have : i ≠ j := by omega
  simp [this]

lemma editM_spec (L0 : ℕ) (s : Sess T τ C K) {i : ℕ} (hi : L0 ≤ i) (hl : i < s.heap.length)
    (hu : Unused i s.heap) (diag : Bool) (ed : Edit K) :
    M.Tri (editM i diag ed) s
      (fun r => Cust L0 s r ∧ ∀ j e, j ≠ i → readM r.heap j e = readM s.heap j e)
      fun _ r => ∀ e, readM r.heap i e = (readM s.heap i e).map (withRows diag [ed] e) := by
  unfold M.Tri editM
  cases hr : readM s.heap i ed.elem with
  | none => exact ⟨⟨.refl _ _, fun _ _ _ => rfl⟩, fun _ h => by cases h⟩
  | some A =>
    refine ⟨⟨cust_of L0 s hi _ _, fun j e hj => read_modify hu _ _ _ hj⟩, fun _ _ e => ?_⟩
    change readM (s.heap.modify i _) i e = _
    rw [read_custom hl hu]
    by_cases he : e = ed.elem
    · subst he
      rw [hr, if_pos rfl]
      simp [withRows_one]
    · rw [if_neg he]
      have : withRows diag [ed] e = id := by
        funext A
        rw [withRows_one, if_neg he]
        rfl
      rw [this]
      simp

lemma editMs_spec (L0 : ℕ) {i : ℕ} (hi : L0 ≤ i) (diag : Bool) : ∀ (l : List (Edit K)) (s : Sess T τ C K),
    i < s.heap.length → Unused i s.heap →
    M.Tri (M.each (editM i diag) l) s
      (fun r => Cust L0 s r ∧ ∀ j e, j ≠ i → readM r.heap j e = readM s.heap j e)
      fun _ r => ∀ e, readM r.heap i e = (readM s.heap i e).map (withRows diag l e)
  | [], s, _, _ => M.tri_pure ⟨.refl _ _, fun _ _ _ => rfl⟩ fun e => by rw [withRows_nil]; simp
  | ed :: l, s, hl, hu => by
    refine (editM_spec L0 s hi hl hu diag ed).bind (fun _ h => h) ?_
    rintro - s1 ⟨h1, h2⟩ h3
    refine (editMs_spec L0 hi diag l s1 (by rw [h1.len]; exact hl) (h1.unused hu)).bind
      (R' := fun r => Cust L0 s r ∧ ∀ j e, j ≠ i → readM r.heap j e = readM s.heap j e)
      (fun r h => ⟨h1.trans h.1, fun j e hj => (h.2 j e hj).trans (h2 j e hj)⟩) ?_
    rintro - s2 ⟨h4, h5⟩ h6
    refine M.tri_pure ⟨h1.trans h4, fun j e hj => (h5 j e hj).trans (h2 j e hj)⟩ fun e => ?_
    rw [h6 e, h3 e, Option.map_map]
    congr 1
    funext A
    exact (withRows_append diag [ed] l e A).symm

lemma editRowAll_spec (L0 i : ℕ) (l : List (Edit K)) : ∀ (ps : List (MRef × ℕ)) (s : Sess T τ C K),
    (ps.map fun p => p.1.id).Pairwise (· ≠ ·) →
    (∀ p ∈ ps, L0 ≤ p.1.id ∧ p.1.id < s.heap.length ∧ Unused p.1.id s.heap) →
    M.Tri (M.each (fun q : MRef × ℕ => M.each (editM q.1.id (q.2 == i)) l) ps) s
      (fun r => Cust L0 s r ∧ ∀ j e, (∀ p ∈ ps, j ≠ p.1.id) → readM r.heap j e = readM s.heap j e)
      fun _ r => ∀ p ∈ ps, ∀ e,
        readM r.heap p.1.id e = (readM s.heap p.1.id e).map (withRows (p.2 == i) l e)
  | [], s, _, _ => M.tri_pure ⟨.refl _ _, fun _ _ _ => rfl⟩ fun p hp => by cases hp
  | p :: ps, s, hnd, hp => by
    obtain ⟨hn1, hn2⟩ := List.pairwise_cons.mp hnd
    obtain ⟨p1, p2, p3⟩ := hp p (List.mem_cons_self ..)
    refine (editMs_spec L0 p1 (p.2 == i) l s p2 p3).bind
      (R' := fun r => Cust L0 s r ∧ ∀ j e, (∀ q ∈ p :: ps, j ≠ q.1.id) → readM r.heap j e = readM s.heap j e)
      (fun r h => ⟨h.1, fun j e hj => h.2 j e (hj p (List.mem_cons_self ..))⟩) ?_
    rintro - s1 ⟨h1, h2⟩ h3
    refine (editRowAll_spec L0 i l ps s1 hn2 (fun q hq => ?_)).bind
      (R' := fun r => Cust L0 s r ∧ ∀ j e, (∀ q ∈ p :: ps, j ≠ q.1.id) → readM r.heap j e = readM s.heap j e)
      (fun r h => ⟨h1.trans h.1, fun j e hj => (h.2 j e fun q hq => hj q (List.mem_cons_of_mem _ hq)).trans
        (h2 j e (hj p (List.mem_cons_self ..)))⟩) ?_
    · obtain ⟨q1, q2, q3⟩ := hp q (List.mem_cons_of_mem _ hq)
      exact ⟨q1, by rw [h1.len]; exact q2, h1.unused q3⟩
    · rintro - s2 ⟨h4, h5⟩ h6
      refine M.tri_pure ⟨h1.trans h4, fun j e hj => (h5 j e fun q hq => hj q (List.mem_cons_of_mem _ hq)).trans
        (h2 j e (hj p (List.mem_cons_self ..)))⟩ fun q hq e => ?_
      have hne : ∀ q ∈ ps, p.1.id ≠ q.1.id := fun q hq => hn1 _ (List.mem_map.mpr ⟨q, hq, rfl⟩)
      rcases List.mem_cons.mp hq with rfl | hq
      · rw [h5 _ e hne, h3 e]
      · rw [h6 q hq e, h2 _ e (Ne.symm (hne q hq))]

/-! ### Right-hand sides -/

lemma SV.read_congr {h h' : Hp K} (v : SV K) (hv : ∀ j e, v.tree.uses j → readM h j e = readM h' j e) (e : ℕ) :
    v.read h e = v.read h' e := by
  unfold SV.read
  rw [VT.read_congr v.tree hv e]

lemma editVs_spec (h : Hp K) : ∀ (l : List (Edit K)) (v u : SV K), editVs h v l = some u →
    u.tree = v.tree ∧ u.gm = v.gm ∧ ∀ e, u.read h e = (v.read h e).map (withVals l e)
  | [], v, u, hu => by
    obtain rfl := Option.some.inj hu
    exact ⟨rfl, rfl, fun e => by rw [withVals_nil]; simp⟩
  | d :: l, v, u, hu => by
    obtain ⟨x, hx, hu⟩ := Option.bind_eq_some_iff.mp hu
    obtain ⟨a, ha, rfl⟩ := Option.map_eq_some_iff.mp hx
    obtain ⟨h1, h2, h3⟩ := editVs_spec h l _ u hu
    refine ⟨h1, h2, fun e => ?_⟩
    rw [h3 e]
    have hone : SV.read h { v with cust := v.cust.put d.elem (editVal d a) } e =
        (v.read h e).map (withVals [d] e) := by
      by_cases he : e = d.elem
      · subst he
        rw [ha]
        unfold SV.read
        simp [Dict.get_put, withVals_one]
      · have : withVals [d] e = id := by
          funext A
          rw [withVals_one, if_neg he]
          rfl
        rw [this]
        unfold SV.read
        simp [Dict.get_put, he]
    rw [hone, Option.map_map]
    congr 1
    funext A
    exact (withVals_append [d] l e A).symm

/-! ### Conditions one after the other -/

/-- What is needed of the system: blocks in the rows of essential conditions are new, unused and different
objects, and right-hand sides do not read them. -/
structure Sep (L0 : ℕ) (h : Hp K) (ess : ℕ → Prop) (S : SLS τ K) : Prop where
  nd : Nd L0 (S.A.flatten.map MRef.id)
  fresh : ∀ i row, ess i → S.A[i]? = some row → ∀ m ∈ row, L0 ≤ m.id ∧ m.id < h.length ∧ Unused m.id h
  vec : ∀ v ∈ S.b, ∀ j, v.tree.uses j → L0 ≤ j → j ∉ S.A.flatten.map MRef.id

/-- The system `S` on heap `h` is the system `S0` on heap `h0` with prescribed rows. -/
structure Imposed (l : ℕ → List (Edit K)) (h0 h : Hp K) (S0 S : SLS τ K) : Prop where
  A : S.A = S0.A
  x : S.x = S0.x
  len : S.b.length = S0.b.length
  mat : ∀ i row, S0.A[i]? = some row → ∀ (j : ℕ) m, row[j]? = some m → ∀ e,
    readM h m.id e = (readM h0 m.id e).map (withRows (j == i) (l i) e)
  vec : ∀ (i : ℕ) v0, S0.b[i]? = some v0 → ∃ v, S.b[i]? = some v ∧ v.tree = v0.tree ∧ v.gm = v0.gm ∧
    ∀ e, v.read h e = (v0.read h0 e).map (withVals (l i) e)

lemma Nd.row {L0 : ℕ} {A : List (List MRef)} (h : Nd L0 (A.flatten.map MRef.id)) {i : ℕ} {row : List MRef}
    (hr : A[i]? = some row) : Nd L0 (row.map MRef.id) := by
  unfold Nd at *
  rw [List.pairwise_map] at *
  exact (List.pairwise_flatten.mp h).1 row (List.mem_of_getElem? hr)

lemma Nd.rows {L0 : ℕ} {A : List (List MRef)} (h : Nd L0 (A.flatten.map MRef.id)) {i i' : ℕ}
    {row row' : List MRef} (hr : A[i]? = some row) (hr' : A[i']? = some row') (hi : i ≠ i') {m m' : MRef}
    (hm : m ∈ row) (hm' : m' ∈ row') (hL : L0 ≤ m.id) : m'.id ≠ m.id := by
  unfold Nd at h
  rw [List.pairwise_map] at h
  have h2 := (List.pairwise_flatten.mp h).2
  rw [List.pairwise_iff_getElem] at h2
  obtain ⟨a1, a2⟩ := List.getElem?_eq_some_iff.mp hr
  obtain ⟨b1, b2⟩ := List.getElem?_eq_some_iff.mp hr'
  subst a2 b2
  intro he
  rcases lt_or_gt_of_ne hi with hlt | hlt
  · rcases h2 i i' a1 b1 hlt m hm m' hm' with h | h
    · exact h he.symm
    · omega
  · rcases h2 i' i b1 a1 hlt m' hm' m hm with h | h
    · exact h he
    · omega

lemma applyEdits_spec (L0 : ℕ) (ess : ℕ → Prop) (i : ℕ) (hi : ess i) (l : List (Edit K)) (S : SLS τ K)
    (s : Sess T τ C K) (hs : Sep L0 s.heap ess S) :
    M.Tri (applyEdits i l S) s (Cust L0 s) fun S' r =>
      Imposed (fun i' => if i = i' then l else []) s.heap r.heap S S' := by
  unfold applyEdits
  refine (M.tri_lift (R := fun r => r = s) (Q := fun row _ => S.A[i]? = some row) rfl fun _ h => h).bind
    (R' := Cust L0 s) (fun r h => h ▸ .refl _ _) ?_
  rintro row s0 rfl hrow
  refine (M.tri_lift (R := fun r => r = s0) (Q := fun v _ => S.b[i]? = some v) rfl fun _ h => h).bind
    (R' := Cust L0 s0) (fun r h => h ▸ .refl _ _) ?_
  rintro v s1 rfl hv
  have hfr := hs.fresh i row hi hrow
  have hndr := hs.nd.row hrow
  have hmem : ∀ p ∈ row.zipIdx, p.1 ∈ row := fun p hp => by
    have := List.mem_zipIdx_iff_getElem?.mp hp
    exact List.mem_of_getElem? this
  refine (editRowAll_spec L0 i l row.zipIdx s1 ?_ (fun p hp => hfr p.1 (hmem p hp))).bind
    (R' := Cust L0 s1) (fun r h => h.1) ?_
  · have : (row.zipIdx.map fun p => p.1.id) = row.map MRef.id := by
      have h := List.zipIdx_map_fst 0 row
      conv_rhs => rw [← h]
      rw [List.map_map]
      rfl
    rw [this]
    unfold Nd at hndr
    refine hndr.imp_of_mem ?_
    intro a b ha _ hab
    rcases hab with hab | hab
    · exact hab
    · obtain ⟨m, hm, rfl⟩ := List.mem_map.mp ha
      have := (hfr m hm).1
      omega
  · rintro - r ⟨h1, h2⟩ h3
    refine ⟨h1, fun S' hS' => ?_⟩
    obtain ⟨u, hu, rfl⟩ := Option.map_eq_some_iff.mp hS'
    obtain ⟨u1, u2, u3⟩ := editVs_spec r.heap l v u hu
    have hvec : ∀ w ∈ S.b, ∀ e, w.read r.heap e = w.read s1.heap e := by
      intro w hw e
      refine SV.read_congr _ (fun j e hj => h2 j e fun p hp he => ?_) e
      have hp' := hmem p hp
      refine hs.vec w hw j hj (he ▸ (hfr p.1 hp').1) ?_
      rw [he]
      exact List.mem_map.mpr ⟨p.1, List.mem_flatten.mpr ⟨row, List.mem_of_getElem? hrow, hp'⟩, rfl⟩
    refine ⟨rfl, rfl, by simp, fun i' row' hr' j m hm e => ?_, fun i' v0 hv0 => ?_⟩
    · change readM r.heap m.id e = _
      by_cases hii : i = i'
      · subst hii
        obtain rfl := Option.some.inj (hrow.symm.trans hr')
        rw [if_pos rfl]
        exact h3 (m, j) (List.mem_zipIdx_iff_getElem?.mpr hm) e
      · rw [if_neg hii, withRows_nil]
        rw [h2 m.id e fun p hp => hs.nd.rows hrow hr' hii (hmem p hp) (List.mem_of_getElem? hm)
          (hfr p.1 (hmem p hp)).1]
        simp
    · change ∃ v, (S.b.set i u)[i']? = some v ∧ _ ∧ _ ∧ ∀ e, v.read r.heap e = _
      by_cases hii : i = i'
      · subst hii
        obtain rfl := Option.some.inj (hv.symm.trans hv0)
        refine ⟨u, ?_, u1, u2, fun e => ?_⟩
        · rw [List.getElem?_set_self (List.getElem?_eq_some_iff.mp hv).1]
        · rw [if_pos rfl, u3 e, hvec v (List.mem_of_getElem? hv) e]
      · refine ⟨v0, ?_, rfl, rfl, fun e => ?_⟩
        · rw [List.getElem?_set_ne hii, hv0]
        · rw [if_neg hii, withVals_nil, hvec v0 (List.mem_of_getElem? hv0) e]
          simp

lemma Imposed.refl (h : Hp K) (S : SLS τ K) : Imposed (fun _ => []) h h S S :=
  ⟨rfl, rfl, rfl, fun i row _ j m _ e => by rw [withRows_nil]; simp,
    fun i v hv => ⟨v, hv, rfl, rfl, fun e => by rw [withVals_nil]; simp⟩⟩

lemma Imposed.trans {l l' : ℕ → List (Edit K)} {h0 h1 h2 : Hp K} {S0 S1 S2 : SLS τ K}
    (a : Imposed l h0 h1 S0 S1) (b : Imposed l' h1 h2 S1 S2) :
    Imposed (fun i => l i ++ l' i) h0 h2 S0 S2 := by
  refine ⟨b.A.trans a.A, b.x.trans a.x, b.len.trans a.len, fun i row hr j m hm e => ?_, fun i v0 hv0 => ?_⟩
  · rw [b.mat i row (a.A ▸ hr) j m hm e, a.mat i row hr j m hm e, Option.map_map]
    congr 1
    funext A
    exact (withRows_append _ _ _ e A).symm
  · obtain ⟨v1, h1, h2, h3, h4⟩ := a.vec i v0 hv0
    obtain ⟨v2, h5, h6, h7, h8⟩ := b.vec i v1 h1
    refine ⟨v2, h5, h6.trans h2, h7.trans h3, fun e => ?_⟩
    rw [h8 e, h4 e, Option.map_map]
    congr 1
    funext A
    exact (withVals_append _ _ e A).symm

lemma Sep.step {L0 : ℕ} {s s' : Sess T τ C K} {ess : ℕ → Prop} {S S' : SLS τ K} {l : ℕ → List (Edit K)}
    (hs : Sep L0 s.heap ess S) (hc : Cust L0 s s') (a : Imposed l s.heap s'.heap S S') :
    Sep L0 s'.heap ess S' := by
  refine ⟨a.A ▸ hs.nd, fun i row hi hr m hm => ?_, fun v hv j hj hL => ?_⟩
  · obtain ⟨h1, h2, h3⟩ := hs.fresh i row hi (a.A ▸ hr) m hm
    exact ⟨h1, by rw [hc.len]; exact h2, hc.unused h3⟩
  · obtain ⟨i, hi⟩ := List.mem_iff_getElem?.mp hv
    have hlt := (List.getElem?_eq_some_iff.mp hi).1
    rw [a.len] at hlt
    obtain ⟨v', h1, h2, -, -⟩ := a.vec i _ (List.getElem?_eq_getElem hlt)
    obtain rfl := Option.some.inj (hi.symm.trans h1)
    rw [a.A]
    exact hs.vec _ (List.getElem_mem hlt) j (h2 ▸ hj) hL

lemma applyBC_spec (w : World T τ C K) (cf : List (Config C)) (L0 : ℕ) (ess : ℕ → Prop) (sec : ℕ) (p : BC)
    (hp : ∀ i, p = .essential i → ess i) (S : SLS τ K) (s : Sess T τ C K) (hs : Sep L0 s.heap ess S) :
    M.Tri (applyBC w cf sec S p) s (Cust L0 s) fun S' r =>
      Imposed (fun i => prescribed w cf S.x i [(sec, p)]) s.heap r.heap S S' ∧ Found w cf S.x (sec, p) := by
  cases p with
  | natural f => exact M.tri_pure (.refl _ _) ⟨.refl _ _, fun i h => by cases h⟩
  | manual => exact M.tri_pure (.refl _ _) ⟨.refl _ _, fun i h => by cases h⟩
  | essential i =>
    unfold applyBC
    refine (M.tri_lift (R := fun r => r = s) (Q := fun u _ => S.x[i]? = some u) rfl fun _ h => h).bind
      (R' := Cust L0 s) (fun r h => h ▸ .refl _ _) ?_
    rintro u s0 rfl hu
    refine (M.tri_lift (R := fun r => r = s0)
      (Q := fun c _ => findEssential w cf sec (w.form u.form).base = some c) rfl fun _ h => h).bind
      (R' := Cust L0 s0) (fun r h => h ▸ .refl _ _) ?_
    rintro c s0 rfl hc
    refine (M.tri_lift (R := fun r => r = s0)
      (Q := fun l _ => w.edits c.place c.cond u.form u.time = some l) rfl fun _ h => h).bind
      (R' := Cust L0 s0) (fun r h => h ▸ .refl _ _) ?_
    rintro l s0 rfl hl
    refine (applyEdits_spec L0 ess i (hp i rfl) l S s0 hs).mono (fun _ h => h) ?_
    intro S' r _ h
    refine ⟨?_, fun i' h => ?_⟩
    · have : (fun i' => if i = i' then l else []) = fun i' => prescribed w cf S.x i' [(sec, .essential i)] := by
        funext i'
        simp only [prescribed, List.append_nil]
        by_cases hii : i = i'
        · subst hii
          simp [hu, hc, hl]
        · simp [hii]
      rw [← this]
      exact h
    · cases h
      exact ⟨u, c, l, hu, hc, hl⟩

lemma applyBCs_spec (w : World T τ C K) (cf : List (Config C)) (L0 : ℕ) (ess : ℕ → Prop) :
    ∀ (ps : List (ℕ × BC)), (∀ p ∈ ps, ∀ i, p.2 = .essential i → ess i) → ∀ (S : SLS τ K) (s : Sess T τ C K),
    Sep L0 s.heap ess S →
    M.Tri (applyBCs w cf S ps) s (Cust L0 s) fun S' r =>
      Imposed (fun i => prescribed w cf S.x i ps) s.heap r.heap S S' ∧ ∀ p ∈ ps, Found w cf S.x p
  | [], _, S, s, _ => M.tri_pure (.refl _ _) ⟨.refl _ _, fun p hp => by cases hp⟩
  | p :: ps, hp, S, s, hs => by
    unfold applyBCs
    refine (applyBC_spec w cf L0 ess p.1 p.2 (hp p (List.mem_cons_self ..)) S s hs).bind
      (R' := Cust L0 s) (fun _ h => h) ?_
    rintro S1 s1 h1 ⟨h2, h3⟩
    refine (applyBCs_spec w cf L0 ess ps (fun q hq => hp q (List.mem_cons_of_mem _ hq)) S1 s1
      (hs.step h1 h2)).mono (fun _ h => h1.trans h) ?_
    rintro S2 s2 - ⟨h4, h5⟩
    have h6 := h2.trans h4
    rw [h2.x] at h6 h5
    refine ⟨?_, fun q hq => ?_⟩
    · have : (fun i => prescribed w cf S.x i (p :: ps)) =
          fun i => prescribed w cf S.x i [(p.1, p.2)] ++ prescribed w cf S.x i ps := by
        funext i
        rw [← prescribed_append]
        rfl
      rw [this]
      exact h6
    · rcases List.mem_cons.mp hq with rfl | hq
      · exact h3
      · exact h5 q hq

end Phyem.DynSys
