import Verif.DynSys.Block
import Mathlib.Data.List.Forall2

/-!
The raw system: empty blocks are replaced by zeros.
-/

namespace Phyem.DynSys

open Phyem OpCache

variable {T τ C K : Type} [Field K] [DecidableEq K]

lemma seqO_spec {α : Type} : ∀ {l : List (Option α)} {r : List α}, seqO l = some r →
    List.Forall₂ (fun o x => o = some x) l r
  | [], r, h => by cases h; exact .nil
  | a :: l, r, h => by
    cases a with
    | none => cases h
    | some a =>
      change (seqO l).map (a :: ·) = some r at h
      obtain ⟨r', h1, rfl⟩ := Option.map_eq_some_iff.mp h
      exact .cons rfl (seqO_spec h1)

lemma same_spec {l : List ℕ} {g : ℕ} (h : same l = some g) : ∀ a ∈ l, a = g := by
  cases l with
  | nil => cases h
  | cons a l =>
    change (if (l.all fun x => x == a) = true then some a else none) = some g at h
    split_ifs at h with h1
    obtain rfl := Option.some.inj h
    simp only [List.all_eq_true, beq_iff_eq] at h1
    intro b hb
    rcases List.mem_cons.mp hb with rfl | hb
    · rfl
    · exact h1 b hb

lemma forall₂_zip {α β : Type} {R : α → β → Prop} : ∀ {l : List α} {r : List β}, List.Forall₂ R l r →
    ∀ p ∈ l.zip r, R p.1 p.2
  | _, _, .nil, p, hp => by cases hp
  | _, _, .cons h1 h2, p, hp => by
    rcases List.mem_cons.mp hp with rfl | hp
    · exact h1
    · exact forall₂_zip h2 p hp

/-- What the checks of gathering matrices say. -/
structure Gms (A : List (List (Option MRef))) (x : List ℕ) (b : List (Option (SV K))) (rows : List ℕ) :
    Prop where
  len : rows.length = A.length
  lenb : b.length = A.length
  lenr : ∀ row ∈ A, row.length = x.length
  row : ∀ p ∈ A.zip rows, ∀ m, some m ∈ p.1 → m.row = p.2
  col : ∀ row ∈ A, ∀ p ∈ row.zip x, ∀ m, p.1 = some m → m.col = p.2
  vec : ∀ p ∈ b.zip rows, ∀ v, p.1 = some v → v.gm = p.2

lemma gms_spec {A : List (List (Option MRef))} {x : List ℕ} {b : List (Option (SV K))} {g : List ℕ × List ℕ}
    (h : gms A x b = some g) : Gms A x b g.1 ∧ g.2 = x := by
  unfold gms at h
  obtain ⟨rows, hr, h⟩ := Option.bind_eq_some_iff.mp h
  obtain ⟨cols, hc, h⟩ := Option.bind_eq_some_iff.mp h
  split_ifs at h with hh
  obtain rfl := Option.some.inj h
  obtain ⟨h1, h2, h3, h4⟩ := hh
  have hr' := seqO_spec hr
  have hc' := seqO_spec hc
  rw [List.forall₂_map_left_iff] at hr' hc'
  refine ⟨⟨hr'.length_eq.symm, h1, h2, ?_, ?_, fun p hp v hv => h4 p hp v hv⟩, h3.symm⟩
  · intro p hp m hm
    have := same_spec (forall₂_zip hr' p hp)
    exact this _ (List.mem_map.mpr ⟨m, List.mem_filterMap.mpr ⟨_, hm, rfl⟩, rfl⟩)
  · intro row hrow p hp m hm
    obtain ⟨j, hj⟩ := List.mem_iff_getElem?.mp hp
    rw [List.getElem?_zip_eq_some] at hj
    obtain ⟨hj1, hj2⟩ := hj
    have hjx : j < x.length := (List.getElem?_eq_some_iff.mp hj2).1
    have hjc : (j, p.2) ∈ (List.range x.length).zip cols := by
      refine List.mem_iff_getElem?.mpr ⟨j, ?_⟩
      rw [List.getElem?_zip_eq_some]
      exact ⟨by simp [hjx], h3 ▸ hj2⟩
    have := same_spec (forall₂_zip hc' _ hjc)
    refine this _ (List.mem_map.mpr ⟨m, List.mem_filterMap.mpr ⟨row, hrow, ?_⟩, rfl⟩)
    rw [hj1, hm]
    rfl

/-- A block of the evaluated system. -/
structure BOK (w : World T τ C K) (t : T) (L0 : ℕ) (h : Hp K) (ρ κ : ℕ) (l : List (Term T τ K))
    (m : MRef) : Prop where
  lt : m.id < h.length
  row : m.row = ρ
  col : m.col = κ
  gm : l ≠ [] → blockGm w t l = some (ρ, κ)
  means : ∀ e, readM h m.id e = blockSpec w t ρ κ l e
  own : (L0 ≤ m.id ∧ Unused m.id h) ∨ m.id < L0 ∧ Bare t l

lemma BOK.mono {w : World T τ C K} {t : T} {L0 : ℕ} {h h' : Hp K} {ρ κ : ℕ} {l : List (Term T τ K)}
    {m : MRef} (a : BOK w t L0 h ρ κ l m) (he : Ext L0 h h') (hw : Wf h) : BOK w t L0 h' ρ κ l m :=
  ⟨lt_of_lt_of_le a.lt he.pre.length_le, a.row, a.col, a.gm,
    fun e => (read_prefix he.pre hw _ e a.lt).trans (a.means e),
    a.own.imp_left fun h => ⟨h.1, he.unused h.1 a.lt h.2⟩⟩

lemma fillRow_spec (w : World T τ C K) (t : T) (L0 L ρ : ℕ) (hL : L0 ≤ L) :
    ∀ (r : List (List (Term T τ K))) (os : List (Option MRef)) (cols : List ℕ) (s : Sess T τ C K),
    L ≤ s.heap.length → Wf s.heap → List.Forall₂ (MEnt w t L0 L s.heap) r os →
    Nd L0 (ids os) → (∀ m, some m ∈ os → m.row = ρ) →
    (∀ p ∈ os.zip cols, ∀ m, p.1 = some m → m.col = p.2) →
    M.Tri (fillRow w cols (os, ρ)) s (Run L0 s) fun ms s' =>
      List.Forall₂ (fun p m => BOK w t L0 s'.heap ρ p.2 p.1 m) (r.zip cols) ms ∧
      Nd L0 (ms.map MRef.id) ∧ ∀ i ∈ ms.map MRef.id, i ∈ ids os ∨ s.heap.length ≤ i
  | [], [], cols, s, _, hw, _, _, _, _ => M.tri_pure (.refl _ hw) ⟨.nil, .nil, fun i hi => by cases hi⟩
  | r, os, [], s, _, hw, _, _, _, _ => by
    have h1 : fillRow w [] (os, ρ) = (M.pure [] : M (Sess T τ C K) _) := by
      unfold fillRow
      rw [List.zip_nil_right]
      rfl
    rw [h1]
    refine M.tri_pure (.refl _ hw) ⟨?_, .nil, fun i hi => by cases hi⟩
    rw [List.zip_nil_right]
    exact .nil
  | l :: r, o :: os, κ :: cols, s, hLs, hw, hf, hnd, hrow, hcol => by
    obtain ⟨h1, h2⟩ := List.forall₂_cons.mp hf
    have htail : ∀ s1 : Sess T τ C K, Run L0 s s1 →
        M.Tri (fillRow w cols (os, ρ)) s1 (Run L0 s1) fun ms s' =>
        List.Forall₂ (fun p m => BOK w t L0 s'.heap ρ p.2 p.1 m) (r.zip cols) ms ∧
        Nd L0 (ms.map MRef.id) ∧ ∀ i ∈ ms.map MRef.id, i ∈ ids os ∨ s1.heap.length ≤ i := by
      intro s1 r1
      refine fillRow_spec w t L0 L ρ hL r os cols s1 (le_trans hLs r1.len) r1.wf
        (h2.imp fun _ _ h => h.mono r1.ext hw hL) ?_ (fun m hm => hrow m (List.mem_cons_of_mem _ hm))
        (fun p hp => hcol p (List.mem_cons_of_mem _ hp))
      cases o with
      | none => exact hnd
      | some m => exact (List.pairwise_cons.mp hnd).2
    have hos : ∀ i ∈ ids os, i < s.heap.length := fun i hi => (ids_bound h2 i hi).2
    cases o with
    | some m =>
      have hcons : fillRow w (κ :: cols) (some m :: os, ρ) =
          M.bind (M.pure m : M (Sess T τ C K) MRef) fun b =>
            M.bind (fillRow w cols (os, ρ)) fun bs => M.pure (b :: bs) := rfl
      rw [hcons]
      refine (M.tri_pure (R := fun s1 => Run L0 s s1) (Q := fun b s1 => b = m ∧ s1 = s) (.refl _ hw)
        ⟨rfl, rfl⟩).bind (R' := Run L0 s) (fun _ h => h) ?_
      rintro b s1 r1 ⟨rfl, rfl⟩
      refine (htail s1 r1).bind (R' := Run L0 s1) (fun _ h => h) ?_
      rintro ms s2 r2 ⟨h3, h4, h5⟩
      obtain ⟨hl, hm, hfr⟩ := h1
      have hrm := hrow b (List.mem_cons_self ..)
      have hcm : b.col = κ := hcol (some b, κ) (List.mem_cons_self ..) b rfl
      refine M.tri_pure r2 ⟨.cons ?_ h3, ?_, ?_⟩
      · refine BOK.mono ?_ r2.ext hw
        refine ⟨hm.lt, hrm, hcm, fun _ => ?_, fun e => ?_, ?_⟩
        · rw [hm.gm, hrm, hcm]
        · rw [hm.means e, blockSpec, if_neg hl]
        · exact hfr.imp_left fun h => ⟨le_trans hL h.1, h.2⟩
      · refine List.pairwise_cons.mpr ⟨fun j hj => ?_, h4⟩
        rcases h5 j hj with h | h
        · exact (List.pairwise_cons.mp hnd).1 j h
        · exact .inl (by have := hm.lt; omega)
      · intro i hi
        rcases List.mem_cons.mp hi with rfl | hi
        · exact .inl (List.mem_cons_self ..)
        · exact (h5 i hi).imp_left fun h => List.mem_cons_of_mem _ h
    | none =>
      have hcons : fillRow w (κ :: cols) (none :: os, ρ) =
          M.bind (leaf (zeroData w ρ κ) : M (Sess T τ C K) MRef) fun b =>
            M.bind (fillRow w cols (os, ρ)) fun bs => M.pure (b :: bs) := rfl
      rw [hcons]
      refine (leaf_tri (.refl L0 hw) (zeroData w ρ κ)).bind (R' := Run L0 s) (fun _ h => h) ?_
      rintro b s1 r1 ⟨hb, hfr⟩
      refine (htail s1 r1).bind (R' := Run L0 s) (fun _ h => r1.trans h) ?_
      rintro ms s2 r2 ⟨h3, h4, h5⟩
      have hl : l = [] := h1
      have hgm : ρ = b.row ∧ κ = b.col := by simpa [zeroData] using hb.gm
      refine M.tri_pure (r1.trans r2) ⟨.cons ?_ h3, ?_, ?_⟩
      · refine BOK.mono ?_ r2.ext r1.wf
        refine ⟨hb.lt, hgm.1.symm, hgm.2.symm, fun h => absurd hl h, fun e => ?_, ?_⟩
        · rw [hb.means e, blockSpec, if_pos hl]
          rfl
        · exact .inl ⟨le_trans hL (le_trans hLs hfr.1), hfr.2⟩
      · refine List.pairwise_cons.mpr ⟨fun j hj => .inl ?_, h4⟩
        have hb1 := hfr.1
        have hb2 := hb.lt
        rcases h5 j hj with h | h
        · have := hos j h
          omega
        · omega
      · intro i hi
        rcases List.mem_cons.mp hi with rfl | hi
        · exact .inr hfr.1
        · exact (h5 i hi).imp (fun h => h) (fun h => le_trans r1.len h)

lemma ids_append (a b : List (Option MRef)) : ids (a ++ b) = ids a ++ ids b := by
  simp [ids]

lemma fillRows_spec (w : World T τ C K) (t : T) (L0 L : ℕ) (hL : L0 ≤ L) (cols : List ℕ) :
    ∀ (r : List (List (List (Term T τ K)))) (os : List (List (Option MRef))) (rows : List ℕ)
    (s : Sess T τ C K),
    L ≤ s.heap.length → Wf s.heap → List.Forall₂ (List.Forall₂ (MEnt w t L0 L s.heap)) r os →
    Nd L0 (ids os.flatten) → (∀ p ∈ os.zip rows, ∀ m, some m ∈ p.1 → m.row = p.2) →
    (∀ row ∈ os, ∀ p ∈ row.zip cols, ∀ m, p.1 = some m → m.col = p.2) →
    M.Tri (M.each (fillRow w cols) (os.zip rows)) s (Run L0 s) fun ms s' =>
      List.Forall₂ (fun q ms => List.Forall₂ (fun p m => BOK w t L0 s'.heap q.2 p.2 p.1 m) (q.1.zip cols) ms)
        (r.zip rows) ms ∧
      Nd L0 (ms.flatten.map MRef.id) ∧
      ∀ i ∈ ms.flatten.map MRef.id, i ∈ ids os.flatten ∨ s.heap.length ≤ i
  | [], [], rows, s, _, hw, _, _, _, _ => M.tri_pure (.refl _ hw) ⟨.nil, .nil, fun i hi => by cases hi⟩
  | r, os, [], s, _, hw, _, _, _, _ => by
    rw [List.zip_nil_right]
    refine M.tri_pure (.refl _ hw) ⟨?_, .nil, fun i hi => by cases hi⟩
    rw [List.zip_nil_right]
    exact .nil
  | l :: r, o :: os, ρ :: rows, s, hLs, hw, hf, hnd, hrow, hcol => by
    obtain ⟨h1, h2⟩ := List.forall₂_cons.mp hf
    have hnd' := hnd
    rw [List.flatten_cons, ids_append] at hnd'
    obtain ⟨hn1, hn2, hn3⟩ := List.pairwise_append.mp hnd'
    have hb1 : ∀ i ∈ ids o, i < s.heap.length := fun i hi => (ids_bound h1 i hi).2
    have hb2 : ∀ i ∈ ids os.flatten, i < s.heap.length := by
      intro i hi
      obtain ⟨m, hm, rfl⟩ := List.mem_map.mp hi
      obtain ⟨o', ho', hm'⟩ := List.mem_filterMap.mp hm
      obtain ⟨row, hrow, ho'⟩ := List.mem_flatten.mp ho'
      obtain ⟨k, hk⟩ := List.mem_iff_getElem?.mp hrow
      have h5 := List.getElem?_eq_some_iff.mp hk
      have hrr := h2.get (by rw [h2.length_eq]; exact h5.1) h5.1
      simp only [List.get_eq_getElem, h5.2] at hrr
      exact (ids_bound hrr m.id (List.mem_map.mpr ⟨m, List.mem_filterMap.mpr ⟨o', ho', hm'⟩, rfl⟩)).2
    have hcons : M.each (fillRow w cols) ((o :: os).zip (ρ :: rows)) =
          M.bind (fillRow w cols (o, ρ) : M (Sess T τ C K) _) fun b =>
            M.bind (M.each (fillRow w cols) (os.zip rows)) fun bs => M.pure (b :: bs) := rfl
    rw [hcons]
    refine (fillRow_spec w t L0 L ρ hL l o cols s hLs hw h1 hn1
      (fun m hm => hrow (o, ρ) (List.mem_cons_self ..) m hm)
      (hcol o (List.mem_cons_self ..))).bind (R' := Run L0 s) (fun _ h => h) ?_
    rintro b s1 r1 ⟨h3, h4, h5⟩
    refine (fillRows_spec w t L0 L hL cols r os rows s1 (le_trans hLs r1.len) r1.wf
      (h2.imp fun _ _ h => h.imp fun _ _ h => h.mono r1.ext hw hL) hn2
      (fun p hp => hrow p (List.mem_cons_of_mem _ hp))
      (fun row hr => hcol row (List.mem_cons_of_mem _ hr))).bind (R' := Run L0 s) (fun _ h => r1.trans h) ?_
    rintro ms s2 r2 ⟨h6, h7, h8⟩
    have hlt : ∀ i ∈ b.map MRef.id, i < s1.heap.length := by
      intro i hi
      obtain ⟨m, hm, rfl⟩ := List.mem_map.mp hi
      obtain ⟨k, hk⟩ := List.mem_iff_getElem?.mp hm
      have h9 := List.getElem?_eq_some_iff.mp hk
      have hrr := h3.get (by rw [h3.length_eq]; exact h9.1) h9.1
      simp only [List.get_eq_getElem, h9.2] at hrr
      exact hrr.lt
    refine M.tri_pure (r1.trans r2) ⟨.cons (h3.imp fun _ _ h => h.mono r2.ext r1.wf) h6, ?_, ?_⟩
    · unfold Nd
      rw [List.flatten_cons, List.map_append, List.pairwise_append]
      refine ⟨h4, h7, fun i hi j hj => ?_⟩
      rcases h8 j hj with h | h
      · rcases h5 i hi with h' | h'
        · exact hn3 i h' j h
        · have := hb2 j h
          exact .inl (by omega)
      · have := hlt i hi
        exact .inl (by omega)
    · intro i hi
      rw [List.flatten_cons, List.map_append] at hi
      rw [List.flatten_cons, ids_append]
      rcases List.mem_append.mp hi with hi | hi
      · exact (h5 i hi).imp_left fun h => List.mem_append_left _ h
      · exact (h8 i hi).imp (fun h => List.mem_append_right _ h) (fun h => le_trans r1.len h)

/-- An entry of the right-hand side of the evaluated system. -/
structure WOK (w : World T τ C K) (cf : List (Config C)) (bc : Option (List (ℕ × List BC))) (t : T)
    (h : Hp K) (ρ : ℕ) (l : List (Term T τ K)) (v : SV K) : Prop where
  lt : ∀ j, v.tree.uses j → j < h.length
  row : v.gm = ρ
  gm : l ≠ [] → (l.head?.bind fun m => vecGm w t m.comps) = some ρ
  cust : v.cust = []
  means : ∀ e ∈ w.elems, v.tree.read h e = vecSpec w cf bc t ρ l e

/-- The system before boundary conditions; `rows` are the gathering matrices of the rows. -/
structure RawOK (w : World T τ C K) (cf : List (Config C)) (src : Sys T τ K) (t : T) (L0 : ℕ) (h : Hp K)
    (rows : List ℕ) (S : SLS τ K) : Prop where
  len : rows.length = src.A.length
  lenb : src.b.length = src.A.length
  lenr : ∀ row ∈ src.A, row.length = src.x.length
  A : List.Forall₂ (fun q ms => List.Forall₂ (fun p m => BOK w t L0 h q.2 p.2 p.1 m)
    (q.1.zip (src.x.map fun f => (w.form f).gm)) ms) (src.A.zip rows) S.A
  b : List.Forall₂ (fun q v => WOK w cf src.bc t h q.2 q.1 v) (src.b.zip rows) S.b
  x : List.Forall₂ (fun f (u : Unknown τ) => u.form = f ∧ (w.form f).time t = some u.time) src.x S.x
  nd : Nd L0 (S.A.flatten.map MRef.id)
  sep : ∀ v ∈ S.b, ∀ j, v.tree.uses j → L0 ≤ j → j ∉ S.A.flatten.map MRef.id

lemma unknowns_spec (w : World T τ C K) (t : T) (L0 : ℕ) : ∀ (x : List ℕ) (s : Sess T τ C K), Wf s.heap →
    M.Tri (M.each (fun f => M.bind (M.lift ((w.form f).time t)) fun s => M.pure (⟨f, s⟩ : Unknown τ)) x) s
      (fun r => r = s) fun us _ =>
        List.Forall₂ (fun f (u : Unknown τ) => u.form = f ∧ (w.form f).time t = some u.time) x us
  | [], s, _ => M.tri_pure rfl .nil
  | f :: x, s, hw => by
    refine M.Tri.bind (R := fun r => r = s) (Q := fun (u : Unknown τ) _ => u.form = f ∧
      (w.form f).time t = some u.time) ?_ (fun _ h => h) ?_
    · refine (M.tri_lift (R := fun r => r = s) (Q := fun u _ => (w.form f).time t = some u) rfl
        fun b hb => hb).bind (fun _ h => h) ?_
      rintro u r rfl hu
      exact M.tri_pure rfl ⟨rfl, hu⟩
    · rintro u r rfl hu
      refine (unknowns_spec w t L0 x r hw).bind (R' := fun r' => r' = r) (fun _ h => h) ?_
      rintro us r' rfl hus
      exact M.tri_pure rfl (.cons hu hus)

lemma vfill_spec (w : World T τ C K) (cf : List (Config C)) (bc : Option (List (ℕ × List BC))) (t : T)
    (L0 L : ℕ) (h : Hp K) : ∀ (r : List (List (Term T τ K))) (os : List (Option (SV K))) (rows : List ℕ),
    List.Forall₂ (VEnt w cf bc t L0 L h) r os → (∀ p ∈ os.zip rows, ∀ v, p.1 = some v → v.gm = p.2) →
    List.Forall₂ (fun q v => WOK w cf bc t h q.2 q.1 v ∧
        ∀ j, v.tree.uses j → (j < L0 ∨ L ≤ j) ∧ j < h.length) (r.zip rows)
      ((os.zip rows).map fun q => q.1.getD (zeroVec w q.2))
  | [], [], rows, _, _ => .nil
  | r, os, [], _, _ => by
    rw [List.zip_nil_right, List.zip_nil_right]
    exact .nil
  | l :: r, o :: os, ρ :: rows, hf, hg => by
    obtain ⟨h1, h2⟩ := List.forall₂_cons.mp hf
    refine .cons ?_ (vfill_spec w cf bc t L0 L h r os rows h2 fun p hp => hg p (List.mem_cons_of_mem _ hp))
    cases o with
    | none =>
      have hl : l = [] := h1
      refine ⟨⟨fun j hj => hj.elim, rfl, fun h => absurd hl h, rfl, fun e _ => ?_⟩, fun j hj => hj.elim⟩
      change some _ = vecSpec w cf bc t ρ l e
      rw [vecSpec, if_pos hl]
    | some v =>
      obtain ⟨hl, h3, h4, h5⟩ := h1
      have hv : v.gm = ρ := hg (some v, ρ) (List.mem_cons_self ..) v rfl
      refine ⟨⟨fun j hj => (h3.ids j hj).2, hv, fun _ => ?_, h3.cust, fun e he => ?_⟩, h3.ids⟩
      · change _ = some ρ
        rw [← hv]
        exact h4
      · change _ = vecSpec w cf bc t ρ l e
        rw [vecSpec, if_neg hl]
        exact h5 e he

lemma evalRaw_spec (w : World T τ C K) (d : Dls T τ C K) (t : T) (s : Sess T τ C K) (hw : Wf s.heap)
    (hA : List.Forall₂ (List.Forall₂ (List.Forall₂ (DTOK w d.src.bc s.heap))) d.src.A d.A)
    (hb : List.Forall₂ (List.Forall₂ (DTOK w d.src.bc s.heap)) d.src.b d.b) :
    M.Tri (evalRaw w d t) s (Run s.heap.length s) fun S r =>
      ∃ rows, RawOK w d.configs d.src t s.heap.length r.heap rows S := by
  unfold evalRaw
  refine (rows_spec w d.configs d.src.bc s.heap hw t _ _ hA s (List.prefix_refl _) hw).bind
    (R' := Run s.heap.length s) (fun _ h => h) ?_
  rintro A s1 r1 ⟨hA1, hA2⟩
  refine (unknowns_spec w t s.heap.length d.src.x s1 r1.wf).bind (R' := Run s.heap.length s)
    (fun s' h => h ▸ r1) ?_
  rintro x s1' rfl hx
  refine (vrow_spec w d.configs d.src.bc s.heap hw t _ _ hb s1' r1.ext.pre r1.wf).bind
    (R' := Run s.heap.length s) (fun _ h => r1.trans h) ?_
  rintro b s2 r2 hb1
  refine (M.tri_lift (R := Run s.heap.length s) (Q := fun g r =>
      gms A (d.src.x.map fun f => (w.form f).gm) b = some g ∧ r = s2) (r1.trans r2)
    fun g hg => ⟨hg, rfl⟩).bind (fun _ h => h) ?_
  rintro g s2' r12 ⟨hg, rfl⟩
  obtain ⟨hg1, hg2⟩ := gms_spec hg
  have hf := fillRows_spec w t s.heap.length s.heap.length le_rfl g.2 d.src.A A g.1 s2' r12.len r12.wf
    (hA1.imp fun _ _ h => h.imp fun _ _ h => h.mono r2.ext r1.wf le_rfl) hA2 hg1.row (by
      rw [hg2]
      exact hg1.col)
  refine hf.bind (R' := Run s.heap.length s) (fun _ h => r12.trans h) ?_
  rintro A' s3 r3 ⟨h1, h2, h3⟩
  have hv := vfill_spec w d.configs d.src.bc t s.heap.length s1'.heap.length s2'.heap d.src.b b g.1 hb1 hg1.vec
  have hidsA : ∀ i ∈ ids A.flatten, i < s1'.heap.length := by
    intro i hi
    obtain ⟨m, hm, rfl⟩ := List.mem_map.mp hi
    obtain ⟨o', ho', hm'⟩ := List.mem_filterMap.mp hm
    obtain ⟨row, hrow, ho'⟩ := List.mem_flatten.mp ho'
    obtain ⟨k, hk⟩ := List.mem_iff_getElem?.mp hrow
    have h5 := List.getElem?_eq_some_iff.mp hk
    have hrr := hA1.get (by rw [hA1.length_eq]; exact h5.1) h5.1
    simp only [List.get_eq_getElem, h5.2] at hrr
    exact (ids_bound hrr m.id (List.mem_map.mpr ⟨m, List.mem_filterMap.mpr ⟨o', ho', hm'⟩, rfl⟩)).2
  refine M.tri_pure (r12.trans r3) ⟨g.1, ⟨?_, ?_, ?_, ?_, ?_, hx, h2, ?_⟩⟩
  · rw [hg1.len, hA1.length_eq]
  · rw [hb1.length_eq, hg1.lenb, hA1.length_eq]
  · intro row hrow
    obtain ⟨k, hk⟩ := List.mem_iff_getElem?.mp hrow
    have h5 := List.getElem?_eq_some_iff.mp hk
    have hrr := hA1.get h5.1 (by rw [← hA1.length_eq]; exact h5.1)
    simp only [List.get_eq_getElem, h5.2] at hrr
    rw [hrr.length_eq, hg1.lenr _ (List.getElem_mem _), List.length_map]
  · rw [← hg2]
    exact h1
  · refine hv.imp fun q v h => ?_
    obtain ⟨h, -⟩ := h
    exact ⟨fun j hj => lt_of_lt_of_le (h.lt j hj) r3.len, h.row, h.gm, h.cust, fun e he =>
      (VT.read_congr _ (fun j e hj => read_prefix r3.ext.pre r12.wf _ _ (h.lt j hj)) e).trans (h.means e he)⟩
  · intro v hv' j hj hLj hmem
    obtain ⟨k, hk⟩ := List.mem_iff_getElem?.mp hv'
    have h5 := List.getElem?_eq_some_iff.mp hk
    have hrr := hv.get (by rw [hv.length_eq]; exact h5.1) h5.1
    simp only [List.get_eq_getElem, h5.2] at hrr
    obtain ⟨h6, h7⟩ := hrr.2 j hj
    rcases h3 j hmem with h | h
    · have := hidsA j h
      omega
    · omega

end Phyem.DynSys
