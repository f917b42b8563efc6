import Verif.DynSys.Eval

/-!
Evaluation of blocks: sums of terms, and the raw system before boundary conditions.
-/

namespace Phyem.DynSys

open Phyem OpCache

variable {T τ C K : Type} [Field K] [DecidableEq K]

/-- A sum of terms so far. -/
def AOK (w : World T τ C K) (L0 L : ℕ) (h : Hp K) (p : Option (ℕ × ℕ)) (q : Option ℕ)
    (g : ℕ → Option (LM K)) (u : ℕ → Option (LV K)) : Stat K → Prop
  | .mat m => MOK L0 L h m p g
  | .vec v => VIds L0 L h v ∧ q = some v.gm ∧ ∀ e ∈ w.elems, v.tree.read h e = u e

lemma VIds.read_tree {L0 L : ℕ} {h : Hp K} {v : SV K} (a : VIds L0 L h v) (h' : Hp K) (e : ℕ) :
    v.read h' e = v.tree.read h' e := by
  unfold SV.read
  rw [a.cust]
  rfl

lemma addS_spec (w : World T τ C K) (cf : List (Config C)) (bc : Option (List (ℕ × List BC))) (t : T)
    {L0 : ℕ} {s s' : Sess T τ C K} (hr : Run L0 s s') {p : Option (ℕ × ℕ)} {q : Option ℕ}
    {g : ℕ → Option (LM K)} {u : ℕ → Option (LV K)} {a b : Stat K} {tm : Term T τ K}
    (ha : AOK w L0 s.heap.length s'.heap p q g u a) (hb : SOK w cf bc t L0 s.heap.length s'.heap tm b) :
    M.Tri (addS w a b) s' (fun r => Run L0 s r ∧ s'.heap <+: r.heap) fun c r =>
      AOK w L0 s.heap.length r.heap p q
        (fun e => (g e).bind fun A => (matTerm w t tm e).bind fun B => A.add B)
        (fun e => (u e).bind fun A => (vecTerm w cf bc t tm e).bind fun B => A.add B) c ∧
      ∀ m, c = .mat m → Fresh s.heap.length r.heap m.id := by
  cases a with
  | mat m =>
    cases b with
    | vec v => exact M.tri_fail ⟨hr, List.prefix_refl _⟩
    | mat n =>
      have h0 := bin_tri hr ha hb .add LM.add m.row m.col
      have h1 : M.Tri (addM m n) s' (fun r => Run L0 s r ∧ s'.heap <+: r.heap) (fun p r =>
          MOK L0 s.heap.length r.heap p (some (m.row, m.col)) (fun e =>
              (g e).bind fun A => (matTerm w t tm e).bind fun B => A.add B) ∧
            Fresh s.heap.length r.heap p.id) :=
        ⟨⟨h0.1, List.prefix_append _ _⟩, h0.2⟩
      unfold addS
      refine h1.bind (fun _ h => h) ?_
      rintro c r hr' ⟨hc, hf⟩
      refine M.tri_pure hr' ⟨⟨hc.lt, hc.own, hc.means, ha.gm.trans hc.gm⟩, ?_⟩
      rintro m' hm'
      cases hm'
      exact hf
  | vec v =>
    cases b with
    | mat n => exact M.tri_fail ⟨hr, List.prefix_refl _⟩
    | vec v' =>
      refine ⟨⟨hr, List.prefix_refl _⟩, fun c hc => ?_⟩
      change (addV w s'.heap v v').map Stat.vec = some c at hc
      obtain ⟨x, hx, rfl⟩ := Option.map_eq_some_iff.mp hc
      refine ⟨?_, fun m h => by cases h⟩
      change AOK w L0 s.heap.length s'.heap p q _ _ (Stat.vec x)
      unfold addV at hx
      obtain ⟨ha1, ha2, ha3⟩ := ha
      obtain ⟨hb1, hb2, hb3⟩ := hb
      by_cases h1 : v.cochain = true
      · rw [if_pos h1] at hx
        cases hx
      rw [if_neg h1] at hx
      by_cases h2 : v.gm = v'.gm
      · rw [if_pos h2] at hx
        split_ifs at hx with h3
        obtain rfl := Option.some.inj hx
        refine ⟨⟨rfl, fun j hj => hj.elim⟩, ha2, fun e he => ?_⟩
        simp only [VT.read, if_pos he, ha1.read_tree, hb1.read_tree, ha3 e he, hb3 e]
      · rw [if_neg h2] at hx
        cases hx

lemma addAll_spec (w : World T τ C K) (cf : List (Config C)) (bc : Option (List (ℕ × List BC))) (t : T)
    {L0 : ℕ} {s : Sess T τ C K} : ∀ (tms : List (Term T τ K)) (sts : List (Stat K)) (s' : Sess T τ C K)
    (p : Option (ℕ × ℕ)) (q : Option ℕ) (g : ℕ → Option (LM K)) (u : ℕ → Option (LV K)) (a : Stat K),
    Run L0 s s' → AOK w L0 s.heap.length s'.heap p q g u a →
    List.Forall₂ (SOK w cf bc t L0 s.heap.length s'.heap) tms sts →
    M.Tri (addAll w a sts) s' (Run L0 s) fun c r =>
      AOK w L0 s.heap.length r.heap p q (fun e => total (g e :: tms.map fun m => matTerm w t m e))
        (fun e => vtotal (u e :: tms.map fun m => vecTerm w cf bc t m e)) c ∧
      (sts = [] ∧ c = a ∧ r = s' ∨ ∀ m, c = .mat m → Fresh s.heap.length r.heap m.id)
  | [], [], s', p, q, g, u, a, hr, ha, _ => M.tri_pure hr ⟨ha, .inl ⟨rfl, rfl, rfl⟩⟩
  | tm :: tms, b :: sts, s', p, q, g, u, a, hr, ha, h => by
    obtain ⟨hb, h⟩ := List.forall₂_cons.mp h
    refine (addS_spec w cf bc t hr ha hb).bind (R' := Run L0 s) (fun _ h => h.1) ?_
    rintro c r ⟨hr', hp⟩ ⟨hc, hf⟩
    refine (addAll_spec w cf bc t tms sts r p q _ _ c hr' hc
      (h.imp fun _ _ h => h.mono hp hr.wf)).mono (fun _ h => h) ?_
    rintro d r' - ⟨hd, hf'⟩
    simp only [total_two, vtotal_two] at hd
    refine ⟨hd, .inr ?_⟩
    rcases hf' with ⟨-, rfl, rfl⟩ | h
    · exact hf
    · exact h

/-- An evaluated block. -/
def EOK (w : World T τ C K) (cf : List (Config C)) (bc : Option (List (ℕ × List BC))) (t : T)
    (L0 L : ℕ) (h : Hp K) (l : List (Term T τ K)) : Option (Stat K) → Prop
  | none => l = []
  | some (.mat m) => l ≠ [] ∧
    MOK L0 L h m (blockGm w t l) (fun e => total (l.map fun m => matTerm w t m e)) ∧
    (Fresh L h m.id ∨ m.id < L0 ∧ Bare t l)
  | some (.vec v) => l ≠ [] ∧ VIds L0 L h v ∧ (l.head?.bind fun m => vecGm w t m.comps) = some v.gm ∧
    ∀ e ∈ w.elems, v.tree.read h e = vtotal (l.map fun m => vecTerm w cf bc t m e)

lemma evalEntry_spec (w : World T τ C K) (cf : List (Config C)) (bc : Option (List (ℕ × List BC)))
    (h0 : Hp K) (hw0 : Wf h0) (t : T) (tms : List (Term T τ K)) (ds : List (DTerm T τ K))
    (hd : List.Forall₂ (DTOK w bc h0) tms ds) (s : Sess T τ C K) (hp : h0 <+: s.heap) (hw : Wf s.heap) :
    M.Tri (evalEntry w cf t ds) s (Run h0.length s) fun o r =>
      EOK w cf bc t h0.length s.heap.length r.heap tms o := by
  cases hd with
  | nil => exact M.tri_pure (.refl _ hw) rfl
  | @cons tm d tms ds h1 h2 =>
    refine (each_spec w cf bc h0 hw0 t _ _ (.cons h1 h2) s hp hw).bind (R' := Run h0.length s)
      (fun _ h => h) ?_
    rintro fs s1 r1 ⟨hfs, hfr⟩
    cases hfs with
    | @cons _ f _ fs hf hfs =>
      have ha : AOK w h0.length s.heap.length s1.heap (blockGm w t (tm :: tms)) (vecGm w t tm.comps)
          (fun e => matTerm w t tm e) (fun e => vecTerm w cf bc t tm e) f := by
        cases f with
        | mat m => exact hf
        | vec v => exact ⟨hf.1, hf.2.1, fun e _ => hf.2.2 e⟩
      refine (addAll_spec w cf bc t tms fs s1 _ _ _ _ f r1 ha hfs).bind (R' := Run h0.length s)
        (fun _ h => h) ?_
      rintro c s2 r2 ⟨hc, hc'⟩
      refine M.tri_pure r2 ?_
      cases c with
      | mat m =>
        refine ⟨by simp, hc, ?_⟩
        rcases hc' with ⟨rfl, rfl, rfl⟩ | h
        · exact hfr m rfl
        · exact .inl (h m rfl)
      | vec v => exact ⟨by simp, hc⟩

/-- An evaluated block of `A`. -/
def MEnt (w : World T τ C K) (t : T) (L0 L : ℕ) (h : Hp K) (l : List (Term T τ K)) : Option MRef → Prop
  | none => l = []
  | some m => l ≠ [] ∧
    MOK L0 L h m (blockGm w t l) (fun e => total (l.map fun m => matTerm w t m e)) ∧
    (Fresh L h m.id ∨ m.id < L0 ∧ Bare t l)

/-- An evaluated entry of `b`. -/
def VEnt (w : World T τ C K) (cf : List (Config C)) (bc : Option (List (ℕ × List BC))) (t : T)
    (L0 L : ℕ) (h : Hp K) (l : List (Term T τ K)) : Option (SV K) → Prop
  | none => l = []
  | some v => l ≠ [] ∧ VIds L0 L h v ∧ (l.head?.bind fun m => vecGm w t m.comps) = some v.gm ∧
    ∀ e ∈ w.elems, v.tree.read h e = vtotal (l.map fun m => vecTerm w cf bc t m e)

lemma entM_spec (w : World T τ C K) (cf : List (Config C)) (bc : Option (List (ℕ × List BC)))
    (h0 : Hp K) (hw0 : Wf h0) (t : T) (tms : List (Term T τ K)) (ds : List (DTerm T τ K))
    (hd : List.Forall₂ (DTOK w bc h0) tms ds) (s : Sess T τ C K) (hp : h0 <+: s.heap) (hw : Wf s.heap) :
    M.Tri (M.bind (evalEntry w cf t ds) fun a => M.lift (asMat a)) s (Run h0.length s) fun o r =>
      MEnt w t h0.length s.heap.length r.heap tms o := by
  refine (evalEntry_spec w cf bc h0 hw0 t tms ds hd s hp hw).bind (R' := Run h0.length s) (fun _ h => h) ?_
  intro o r hr ho
  refine M.tri_lift hr fun b hb => ?_
  match o, ho, hb with
  | none, ho, hb => cases hb; exact ho
  | some (.mat m), ho, hb => cases hb; exact ho

lemma entV_spec (w : World T τ C K) (cf : List (Config C)) (bc : Option (List (ℕ × List BC)))
    (h0 : Hp K) (hw0 : Wf h0) (t : T) (tms : List (Term T τ K)) (ds : List (DTerm T τ K))
    (hd : List.Forall₂ (DTOK w bc h0) tms ds) (s : Sess T τ C K) (hp : h0 <+: s.heap) (hw : Wf s.heap) :
    M.Tri (M.bind (evalEntry w cf t ds) fun a => M.lift (asVec a)) s (Run h0.length s) fun o r =>
      VEnt w cf bc t h0.length s.heap.length r.heap tms o := by
  refine (evalEntry_spec w cf bc h0 hw0 t tms ds hd s hp hw).bind (R' := Run h0.length s) (fun _ h => h) ?_
  intro o r hr ho
  refine M.tri_lift hr fun b hb => ?_
  match o, ho, hb with
  | none, ho, hb => cases hb; exact ho
  | some (.vec v), ho, hb => cases hb; exact ho

/-! ### Rows of blocks -/

lemma MEnt.mono {w : World T τ C K} {t : T} {L0 L : ℕ} {h h' : Hp K} {l : List (Term T τ K)}
    {o : Option MRef} (a : MEnt w t L0 L h l o) (he : Ext L0 h h') (hw : Wf h) (hL : L0 ≤ L) :
    MEnt w t L0 L h' l o := by
  cases o with
  | none => exact a
  | some m =>
    obtain ⟨h1, h2, h3⟩ := a
    exact ⟨h1, h2.mono he.pre hw, h3.imp_left fun h => ⟨h.1, he.unused (le_trans hL h.1) h2.lt h.2⟩⟩

lemma MEnt.weaken {w : World T τ C K} {t : T} {L0 L L' : ℕ} {h : Hp K} {l : List (Term T τ K)}
    {o : Option MRef} (a : MEnt w t L0 L' h l o) (hl : L ≤ L') : MEnt w t L0 L h l o := by
  cases o with
  | none => exact a
  | some m => exact ⟨a.1, a.2.1.weaken hl, a.2.2.imp_left fun h => h.weaken hl⟩

lemma VEnt.mono {w : World T τ C K} {cf : List (Config C)} {bc : Option (List (ℕ × List BC))} {t : T}
    {L0 L : ℕ} {h h' : Hp K} {l : List (Term T τ K)}
    {o : Option (SV K)} (a : VEnt w cf bc t L0 L h l o) (he : h <+: h') (hw : Wf h) :
    VEnt w cf bc t L0 L h' l o := by
  cases o with
  | none => exact a
  | some m =>
    obtain ⟨h1, h2, h3, h4⟩ := a
    exact ⟨h1, h2.mono he, h3, fun e he' => (h2.read he hw e).trans (h4 e he')⟩

lemma VEnt.weaken {w : World T τ C K} {cf : List (Config C)} {bc : Option (List (ℕ × List BC))} {t : T}
    {L0 L L' : ℕ} {h : Hp K} {l : List (Term T τ K)}
    {o : Option (SV K)} (a : VEnt w cf bc t L0 L' h l o) (hl : L ≤ L') : VEnt w cf bc t L0 L h l o := by
  cases o with
  | none => exact a
  | some m => exact ⟨a.1, a.2.1.weaken hl, a.2.2⟩

/-- Objects given by a list are old or different. -/
def Nd (L0 : ℕ) (l : List ℕ) : Prop := l.Pairwise fun a b => a ≠ b ∨ a < L0

/-- The addresses of the blocks that are not empty. -/
def ids (l : List (Option MRef)) : List ℕ := (l.filterMap id).map MRef.id

/-- Evaluated blocks of a row: right one by one, and different objects made since `L`. -/
structure ROK (w : World T τ C K) (t : T) (L0 L : ℕ) (h : Hp K) (r : List (List (Term T τ K)))
    (os : List (Option MRef)) : Prop where
  ent : List.Forall₂ (MEnt w t L0 L h) r os
  nd : Nd L0 (ids os)

lemma ids_bound {w : World T τ C K} {t : T} {L0 L : ℕ} {h : Hp K} : ∀ {r : List (List (Term T τ K))}
    {os : List (Option MRef)}, List.Forall₂ (MEnt w t L0 L h) r os → ∀ i ∈ ids os,
      (i < L0 ∨ L ≤ i) ∧ i < h.length := by
  intro r os hf i hi
  induction hf with
  | nil => cases hi
  | @cons l o r os h1 _ ih =>
    cases o with
    | none => exact ih hi
    | some m =>
      rcases List.mem_cons.mp hi with rfl | hi
      · exact ⟨h1.2.1.own, h1.2.1.lt⟩
      · exact ih hi

lemma row_spec (w : World T τ C K) (cf : List (Config C)) (bc : Option (List (ℕ × List BC)))
    (h0 : Hp K) (hw0 : Wf h0) (t : T) : ∀ (r : List (List (Term T τ K))) (ds : List (List (DTerm T τ K))),
    List.Forall₂ (List.Forall₂ (DTOK w bc h0)) r ds → ∀ s : Sess T τ C K, h0 <+: s.heap → Wf s.heap →
    M.Tri (M.each (fun l => M.bind (evalEntry w cf t l) fun a => M.lift (asMat a)) ds) s
      (Run h0.length s) fun os r' => ROK w t h0.length s.heap.length r'.heap r os
  | [], [], _, s, _, hw => M.tri_pure (.refl _ hw) ⟨.nil, .nil⟩
  | l :: r, d :: ds, h, s, hp, hw => by
    obtain ⟨h1, h2⟩ := List.forall₂_cons.mp h
    refine (entM_spec w cf bc h0 hw0 t l d h1 s hp hw).bind (R' := Run h0.length s) (fun _ h => h) ?_
    rintro o s1 r1 ho
    refine (row_spec w cf bc h0 hw0 t r ds h2 s1 (hp.trans r1.ext.pre) r1.wf).bind
      (fun _ h => r1.trans h) ?_
    rintro os s2 r2 hos
    refine M.tri_pure (r1.trans r2) ⟨.cons (ho.mono r2.ext r1.wf hp.length_le)
      (hos.ent.imp fun _ _ h => h.weaken r1.len), ?_⟩
    cases o with
    | none => exact hos.nd
    | some m =>
      refine List.pairwise_cons.mpr ⟨fun j hj => ?_, hos.nd⟩
      have hb := (ids_bound hos.ent j hj).1
      have hm := ho.2.1.lt
      rcases hb with hb | hb
      · by_cases hjm : m.id = j
        · exact .inr (hjm ▸ hb)
        · exact .inl hjm
      · exact .inl (by omega)

lemma rows_spec (w : World T τ C K) (cf : List (Config C)) (bc : Option (List (ℕ × List BC)))
    (h0 : Hp K) (hw0 : Wf h0) (t : T) : ∀ (r : List (List (List (Term T τ K))))
    (ds : List (List (List (DTerm T τ K)))),
    List.Forall₂ (List.Forall₂ (List.Forall₂ (DTOK w bc h0))) r ds →
    ∀ s : Sess T τ C K, h0 <+: s.heap → Wf s.heap →
    M.Tri (M.each (M.each (fun l => M.bind (evalEntry w cf t l) fun a => M.lift (asMat a))) ds) s
      (Run h0.length s) fun os r' =>
        List.Forall₂ (List.Forall₂ (MEnt w t h0.length s.heap.length r'.heap)) r os ∧
        Nd h0.length (ids os.flatten)
  | [], [], _, s, _, hw => M.tri_pure (.refl _ hw) ⟨.nil, .nil⟩
  | l :: r, d :: ds, h, s, hp, hw => by
    obtain ⟨h1, h2⟩ := List.forall₂_cons.mp h
    refine (row_spec w cf bc h0 hw0 t l d h1 s hp hw).bind (R' := Run h0.length s) (fun _ h => h) ?_
    rintro o s1 r1 ho
    refine (rows_spec w cf bc h0 hw0 t r ds h2 s1 (hp.trans r1.ext.pre) r1.wf).bind
      (fun _ h => r1.trans h) ?_
    rintro os s2 r2 ⟨hos, hnd⟩
    refine M.tri_pure (r1.trans r2) ⟨.cons (ho.ent.imp fun _ _ h => h.mono r2.ext r1.wf hp.length_le)
      (hos.imp fun _ _ h => h.imp fun _ _ h => h.weaken r1.len), ?_⟩
    unfold Nd ids
    rw [List.flatten_cons, List.filterMap_append, List.map_append, List.pairwise_append]
    refine ⟨ho.nd, hnd, fun i hi j hj => ?_⟩
    have hb := (ids_bound ho.ent i hi).2
    have hc : j < h0.length ∨ s1.heap.length ≤ j := by
      obtain ⟨m, hm, rfl⟩ := List.mem_map.mp hj
      obtain ⟨o', ho', hm'⟩ := List.mem_filterMap.mp hm
      obtain ⟨row, hrow, ho'⟩ := List.mem_flatten.mp ho'
      obtain ⟨k, hk⟩ := List.mem_iff_getElem?.mp hrow
      obtain ⟨r', hr'⟩ : ∃ r', r[k]? = some r' := by
        have hlen := hos.length_eq
        have := (List.getElem?_eq_some_iff.mp hk).1
        exact ⟨_, List.getElem?_eq_getElem (by omega)⟩
      have hrr : List.Forall₂ (MEnt w t h0.length s1.heap.length s2.heap) r' row := by
        have h1 := (List.getElem?_eq_some_iff.mp hk)
        have h2 := (List.getElem?_eq_some_iff.mp hr')
        rw [← h1.2, ← h2.2]
        exact hos.get h2.1 h1.1
      refine (ids_bound hrr m.id ?_).1
      exact List.mem_map.mpr ⟨m, List.mem_filterMap.mpr ⟨o', ho', hm'⟩, rfl⟩
    rcases hc with hc | hc
    · by_cases hij : i = j
      · exact .inr (hij ▸ hc)
      · exact .inl hij
    · exact .inl (by omega)

lemma vrow_spec (w : World T τ C K) (cf : List (Config C)) (bc : Option (List (ℕ × List BC)))
    (h0 : Hp K) (hw0 : Wf h0) (t : T) : ∀ (r : List (List (Term T τ K))) (ds : List (List (DTerm T τ K))),
    List.Forall₂ (List.Forall₂ (DTOK w bc h0)) r ds → ∀ s : Sess T τ C K, h0 <+: s.heap → Wf s.heap →
    M.Tri (M.each (fun l => M.bind (evalEntry w cf t l) fun a => M.lift (asVec a)) ds) s
      (Run h0.length s) fun os r' =>
        List.Forall₂ (VEnt w cf bc t h0.length s.heap.length r'.heap) r os
  | [], [], _, s, _, hw => M.tri_pure (.refl _ hw) .nil
  | l :: r, d :: ds, h, s, hp, hw => by
    obtain ⟨h1, h2⟩ := List.forall₂_cons.mp h
    refine (entV_spec w cf bc h0 hw0 t l d h1 s hp hw).bind (R' := Run h0.length s) (fun _ h => h) ?_
    rintro o s1 r1 ho
    refine (vrow_spec w cf bc h0 hw0 t r ds h2 s1 (hp.trans r1.ext.pre) r1.wf).bind
      (fun _ h => r1.trans h) ?_
    rintro os s2 r2 hos
    exact M.tri_pure (r1.trans r2) (.cons (ho.mono r2.ext.pre r1.wf) (hos.imp fun _ _ h => h.weaken r1.len))

end Phyem.DynSys
