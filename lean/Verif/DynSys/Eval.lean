import Verif.DynSys.Lemmas

/-!
Evaluation of terms and blocks.
-/

namespace Phyem.DynSys

open Phyem OpCache

variable {T τ C K : Type} [Field K] [DecidableEq K]

/-- A dynamic matrix stands for a list of root arrays; `h` is the heap. -/
inductive DMOK (w : World T τ C K) (h : Hp K) : DM T K → List (Arr T τ K) → Prop
  | static (m : MRef) (a : Arr T τ K) (hm : m.id < h.length) (hk : Kept a)
      (hr : ∀ t e, readM h m.id e = compMat w t a e)
      (hg : ∀ t, compGm w t a = some (m.row, m.col)) : DMOK w h (.static m) [a]
  | dyn (g : T → Option (MatData K)) : DMOK w h (.dyn g) [⟨.mat g, false⟩]
  | prod (a b : DM T K) (l l' : List (Arr T τ K)) (ha : DMOK w h a l) (hb : DMOK w h b l') :
      DMOK w h (.prod a b) (l ++ l')

/-- A dynamic vector stands for a list of root arrays. -/
inductive DVOK (w : World T τ C K) (bc : Option (List (ℕ × List BC))) (h : Hp K) :
    DV T τ K → List (Arr T τ K) → Prop
  | form (f : ℕ) : DVOK w bc h (.form f) [⟨.form f, false⟩]
  | natural (sec f0 f1 : ℕ) (time : T → Option τ) (hs : (bc.bind fun l => naturalSection l f0) = some sec) :
      DVOK w bc h (.natural sec f0 f1 time) [⟨.natural f0 f1 time, false⟩]
  | dyn (g : T → Option (VecData K)) : DVOK w bc h (.dyn g) [⟨.vec g, false⟩]
  | mulVec (a : DM T K) (v : DV T τ K) (l l' : List (Arr T τ K)) (ha : DMOK w h a l)
      (hv : DVOK w bc h v l') : DVOK w bc h (.mulVec a v) (l ++ l')

/-- A parsed term stands for a term. -/
def DTOK (w : World T τ C K) (bc : Option (List (ℕ × List BC))) (h : Hp K) (m : Term T τ K)
    (d : DTerm T τ K) : Prop :=
  d.minus = m.minus ∧ d.factor = m.factor ∧
    match d.comp with
    | .mat a => DMOK w h a m.comps
    | .vec v => DVOK w bc h v m.comps

lemma DMOK.ne {w : World T τ C K} {h : Hp K} {a : DM T K} {l : List (Arr T τ K)} (ha : DMOK w h a l) :
    l ≠ [] := by
  induction ha with
  | static => simp
  | dyn => simp
  | prod a b l l' _ _ h1 _ => simp [h1]

lemma DVOK.ne {w : World T τ C K} {bc : Option (List (ℕ × List BC))} {h : Hp K} {a : DV T τ K}
    {l : List (Arr T τ K)} (ha : DVOK w bc h a l) : l ≠ [] := by
  induction ha with
  | form => simp
  | natural => simp
  | dyn => simp
  | mulVec a v l l' h1 _ _ => simp [h1.ne]

/-- What evaluation does to a session however it ends: it makes new objects only. -/
structure Run (L0 : ℕ) (s s' : Sess T τ C K) : Prop where
  ext : Ext L0 s.heap s'.heap
  wf : Wf s'.heap
  cache : s'.cacheM = s.cacheM
  systems : s'.systems = s.systems

lemma Run.refl (L0 : ℕ) {s : Sess T τ C K} (hw : Wf s.heap) : Run L0 s s := ⟨.refl _ _, hw, rfl, rfl⟩

lemma Run.trans {L0 : ℕ} {s s' s'' : Sess T τ C K} (a : Run L0 s s') (b : Run L0 s' s'') :
    Run L0 s s'' :=
  ⟨a.ext.trans b.ext, b.wf, b.cache.trans a.cache, b.systems.trans a.systems⟩

lemma Run.len {L0 : ℕ} {s s' : Sess T τ C K} (a : Run L0 s s') : s.heap.length ≤ s'.heap.length :=
  a.ext.pre.length_le

/-- A new object that is not an operand. -/
def Fresh (L : ℕ) (h : Hp K) (i : ℕ) : Prop := L ≤ i ∧ Unused i h

/-- A new object whose operands are below `L0` or made since `s`. -/
lemma push_run {L0 : ℕ} {s s' : Sess T τ C K} (a : Run L0 s s') (op : Op (LM K)) (row col : ℕ)
    (ha : ∀ kind args f, op = .derived kind args f → ∀ j ∈ args,
      (j < L0 ∨ s.heap.length ≤ j) ∧ j < s'.heap.length) :
    Run L0 s (new op row col s').1 ∧ Fresh s.heap.length (new op row col s').1.heap s'.heap.length := by
  have h2 : ∀ kind args f, op = .derived kind args f → ∀ j ∈ args, j < s'.heap.length :=
    fun kind args f h j hj => (ha kind args f h j hj).2
  exact ⟨⟨a.ext.push op fun kind args f h j hj => (ha kind args f h j hj).1, wf_push a.wf op h2, a.cache,
    a.systems⟩, a.len, unused_push a.wf op h2⟩

lemma new_tri {L0 : ℕ} {s s' : Sess T τ C K} (a : Run L0 s s') (op : Op (LM K)) (row col : ℕ)
    (ha : ∀ kind args f, op = .derived kind args f → ∀ j ∈ args,
      (j < L0 ∨ s.heap.length ≤ j) ∧ j < s'.heap.length) :
    M.Tri (new op row col) s' (Run L0 s) fun m r =>
      m = ⟨s'.heap.length, row, col⟩ ∧ r.heap = s'.heap ++ [(op, [])] ∧ m.id < r.heap.length ∧
        Fresh s.heap.length r.heap m.id := by
  obtain ⟨h1, h2⟩ := push_run a op row col ha
  refine ⟨h1, fun m hm => ?_⟩
  change some (⟨s'.heap.length, row, col⟩ : MRef) = some m at hm
  obtain rfl := Option.some.inj hm
  refine ⟨rfl, rfl, ?_, h2⟩
  change s'.heap.length < (s'.heap ++ [_]).length
  simp

/-- A matrix object that can be an operand. -/
structure MOK (L0 L : ℕ) (h : Hp K) (m : MRef) (p : Option (ℕ × ℕ)) (g : ℕ → Option (LM K)) : Prop where
  lt : m.id < h.length
  own : m.id < L0 ∨ L ≤ m.id
  means : ∀ e, readM h m.id e = g e
  gm : p = some (m.row, m.col)

lemma MOK.mono {L0 L : ℕ} {h h' : Hp K} {m : MRef} {p : Option (ℕ × ℕ)} {g : ℕ → Option (LM K)}
    (a : MOK L0 L h m p g) (hp : h <+: h') (hw : Wf h) : MOK L0 L h' m p g :=
  ⟨lt_of_lt_of_le a.lt hp.length_le, a.own, fun e => (read_prefix hp hw _ e a.lt).trans (a.means e), a.gm⟩

lemma un_tri {L0 : ℕ} {s s' : Sess T τ C K} (a : Run L0 s s') {m : MRef} {q : Option (ℕ × ℕ)} {g : ℕ → Option (LM K)}
    (hm : MOK L0 s.heap.length s'.heap m q g) (f : LM K → LM K) (row col : ℕ) :
    M.Tri (new (.derived .un [m.id] (on1 f)) row col) s' (Run L0 s) fun n r =>
      MOK L0 s.heap.length r.heap n (some (row, col)) (fun e => (g e).map f) ∧ Fresh s.heap.length r.heap n.id := by
  refine (new_tri a _ row col ?_).mono (fun _ h => h) ?_
  · intro kind args f h j hj
    cases h
    obtain rfl : j = m.id := by simpa using hj
    exact ⟨hm.own, hm.lt⟩
  · rintro n r - ⟨rfl, hr, hl, hf⟩
    refine ⟨⟨hl, .inr hf.1, fun e => ?_, rfl⟩, hf⟩
    rw [hr]
    change readM _ s'.heap.length e = _
    rw [read_push a.wf _ _ _ (by
      intro j hj
      obtain rfl : j = m.id := by simpa using hj
      exact hm.lt)]
    simp only [List.map_cons, List.map_nil, hm.means e]
    cases g e <;> rfl

lemma bin_tri {L0 : ℕ} {s s' : Sess T τ C K} (a : Run L0 s s') {m n : MRef} {q q' : Option (ℕ × ℕ)}
    {g g' : ℕ → Option (LM K)}
    (hm : MOK L0 s.heap.length s'.heap m q g) (hn : MOK L0 s.heap.length s'.heap n q' g') (kind : Kind)
    (f : LM K → LM K → Option (LM K)) (row col : ℕ) :
    M.Tri (new (.derived kind [m.id, n.id] (on2 f)) row col) s' (Run L0 s) fun p r =>
      MOK L0 s.heap.length r.heap p (some (row, col)) (fun e => (g e).bind fun A => (g' e).bind fun B => f A B) ∧
        Fresh s.heap.length r.heap p.id := by
  refine (new_tri a _ row col ?_).mono (fun _ h => h) ?_
  · intro kind args f h j hj
    cases h
    simp only [List.mem_cons, List.not_mem_nil, or_false] at hj
    rcases hj with rfl | rfl
    · exact ⟨hm.own, hm.lt⟩
    · exact ⟨hn.own, hn.lt⟩
  · rintro p r - ⟨rfl, hr, hl, hf⟩
    refine ⟨⟨hl, .inr hf.1, fun e => ?_, rfl⟩, hf⟩
    rw [hr]
    change readM _ s'.heap.length e = _
    rw [read_push a.wf _ _ _ (by
      intro j hj
      simp only [List.mem_cons, List.not_mem_nil, or_false] at hj
      rcases hj with rfl | rfl
      · exact hm.lt
      · exact hn.lt)]
    simp only [List.map_cons, List.map_nil, hm.means e, hn.means e]
    cases g e with
    | none => rfl
    | some A => cases g' e <;> rfl

lemma leaf_tri {L0 : ℕ} {s s' : Sess T τ C K} (a : Run L0 s s') (d : MatData K) :
    M.Tri (leaf d) s' (Run L0 s) fun n r =>
      MOK L0 s.heap.length r.heap n (some (d.row, d.col)) d.data ∧ Fresh s.heap.length r.heap n.id := by
  refine (new_tri a (.leaf d.data d.key) d.row d.col (fun kind args f h => by cases h)).mono
    (fun _ h => h) ?_
  rintro p r - ⟨rfl, hr, hl, hf⟩
  refine ⟨⟨hl, .inr hf.1, fun e => ?_, rfl⟩, hf⟩
  rw [hr]
  exact read_leaf _ _ _ _

lemma MOK.weaken {L0 L L' : ℕ} {h : Hp K} {m : MRef} {p : Option (ℕ × ℕ)} {g : ℕ → Option (LM K)}
    (a : MOK L0 L' h m p g) (hl : L ≤ L') : MOK L0 L h m p g :=
  ⟨a.lt, a.own.imp_right fun h => le_trans hl h, a.means, a.gm⟩

lemma Fresh.weaken {L L' : ℕ} {h : Hp K} {i : ℕ} (a : Fresh L' h i) (hl : L ≤ L') : Fresh L h i :=
  ⟨le_trans hl a.1, a.2⟩

lemma evalM_spec (w : World T τ C K) (h0 : Hp K) (hw0 : Wf h0) (t : T) (dm : DM T K)
    (cs : List (Arr T τ K)) (hd : DMOK w h0 dm cs) :
    ∀ s : Sess T τ C K, h0 <+: s.heap → Wf s.heap →
      M.Tri (evalM t dm) s (Run h0.length s) fun m r =>
        MOK h0.length s.heap.length r.heap m (chainGm (cs.map (compGm w t)))
          (fun e => chain (cs.map fun a => compMat w t a e)) ∧
        (Fresh s.heap.length r.heap m.id ∨ m.id < h0.length ∧ dm = .static m ∧ ∃ a, cs = [a] ∧ Kept a) := by
  induction hd with
  | static m a hm hk hr hg =>
    intro s hp hw
    refine M.tri_pure (.refl _ hw) ⟨⟨lt_of_lt_of_le hm hp.length_le, .inl hm, fun e => ?_, hg t⟩,
      .inr ⟨hm, rfl, a, rfl, hk⟩⟩
    rw [read_prefix hp hw0 _ _ hm, hr t e]
    rfl
  | dyn g =>
    intro s hp hw
    refine (M.tri_lift (R := Run h0.length s) (Q := fun d r => g t = some d ∧ r = s) (.refl _ hw)
      fun d hd => ⟨hd, rfl⟩).bind (fun _ h => h) ?_
    rintro d r - ⟨hg, rfl⟩
    refine (leaf_tri (.refl _ hw) d).mono (fun _ h => h) ?_
    rintro m r' - ⟨h1, h2⟩
    refine ⟨⟨h1.lt, h1.own, fun e => ?_, ?_⟩, .inl h2⟩
    swap
    · change (g t).map _ = _
      rw [hg]
      exact h1.gm
    rw [h1.means e]
    change _ = (g t).bind _
    rw [hg]
    rfl
  | prod a b l l' ha hb iha ihb =>
    intro s hp hw
    refine (iha s hp hw).bind (R' := Run h0.length s) (fun _ h => h) ?_
    rintro m s1 r1 ⟨hm, -⟩
    refine (ihb s1 (hp.trans r1.ext.pre) r1.wf).bind (fun _ h => r1.trans h) ?_
    rintro n s2 r2 ⟨hn, -⟩
    refine (bin_tri (r1.trans r2) (hm.mono r2.ext.pre r1.wf) (hn.weaken r1.len) .mul LM.mul m.row n.col).mono
      (fun _ h => h) ?_
    rintro p s3 - ⟨h1, h2⟩
    refine ⟨⟨h1.lt, h1.own, fun e => ?_, ?_⟩, .inl h2⟩
    swap
    · rw [List.map_append, chainGm_append hm.gm hn.gm]
      exact h1.gm
    rw [h1.means e, List.map_append, chain_append (by simpa using ha.ne) (by simpa using hb.ne)]

/-- The matrices a vector reads. -/
def VT.uses : VT K → ℕ → Prop
  | .data _, _ => False
  | .mulVec m v, j => j = m ∨ v.uses j
  | .neg v, j => v.uses j
  | .scale _ v, j => v.uses j

lemma VT.read_congr {h h' : Hp K} (v : VT K) (hv : ∀ j e, v.uses j → readM h j e = readM h' j e) (e : ℕ) :
    v.read h e = v.read h' e := by
  induction v with
  | data d => rfl
  | mulVec m v ih =>
    simp only [VT.read]
    rw [hv m e (.inl rfl), ih fun j e hj => hv j e (.inr hj)]
  | neg v ih => simp only [VT.read]; rw [ih hv]
  | scale c v ih => simp only [VT.read]; rw [ih hv]

/-- A vector reads matrices below `L0` or new ones, and is not customised. -/
structure VIds (L0 L : ℕ) (h : Hp K) (v : SV K) : Prop where
  cust : v.cust = []
  ids : ∀ j, v.tree.uses j → (j < L0 ∨ L ≤ j) ∧ j < h.length

lemma VIds.mono {L0 L : ℕ} {h h' : Hp K} {v : SV K} (a : VIds L0 L h v) (hp : h <+: h') :
    VIds L0 L h' v :=
  ⟨a.cust, fun j hj => ⟨(a.ids j hj).1, lt_of_lt_of_le (a.ids j hj).2 hp.length_le⟩⟩

lemma VIds.read {L0 L : ℕ} {h h' : Hp K} {v : SV K} (a : VIds L0 L h v) (hp : h <+: h') (hw : Wf h)
    (e : ℕ) : v.tree.read h' e = v.tree.read h e :=
  VT.read_congr _ (fun j e hj => read_prefix hp hw _ _ (a.ids j hj).2) e

lemma VIds.weaken {L0 L L' : ℕ} {h : Hp K} {v : SV K} (a : VIds L0 L' h v) (hl : L ≤ L') :
    VIds L0 L h v :=
  ⟨a.cust, fun j hj => ⟨(a.ids j hj).1.imp_right fun h => le_trans hl h, (a.ids j hj).2⟩⟩

lemma evalV_spec (w : World T τ C K) (cf : List (Config C)) (bc : Option (List (ℕ × List BC)))
    (h0 : Hp K) (hw0 : Wf h0) (t : T) (dv : DV T τ K)
    (cs : List (Arr T τ K)) (hd : DVOK w bc h0 dv cs) :
    ∀ s : Sess T τ C K, h0 <+: s.heap → Wf s.heap →
      M.Tri (evalV w cf t dv) s (Run h0.length s) fun v r =>
        VIds h0.length s.heap.length r.heap v ∧ vecGm w t cs = some v.gm ∧
        ∀ e, v.tree.read r.heap e = vecChain w cf bc t e cs := by
  induction hd with
  | form f =>
    intro s hp hw
    refine (M.tri_lift (R := Run h0.length s) (Q := fun d r => True) (.refl _ hw)
      fun d hd => trivial).bind (fun _ h => h) ?_
    intro d r hr _
    exact M.tri_pure hr ⟨⟨rfl, fun j hj => hj.elim⟩, rfl, fun e => rfl⟩
  | natural sec f0 f1 time hs =>
    intro s hp hw
    refine (M.tri_lift (R := Run h0.length s) (Q := fun d r => time t = some d) (.refl _ hw)
      fun d hd => hd).bind (fun _ h => h) ?_
    intro d r1 hr1 ht
    refine (M.tri_lift (R := Run h0.length s) (Q := fun d r => w.meshOf sec = some d) hr1
      fun d hd => hd).bind (fun _ h => h) ?_
    intro place r2 hr2 hm
    refine (M.tri_lift (R := Run h0.length s)
      (Q := fun c r => findNatural cf place (w.form f0).base = some c) hr2
      fun d hd => hd).bind (fun _ h => h) ?_
    intro c r3 hr3 hf
    refine (M.tri_lift (R := Run h0.length s)
      (Q := fun g r => w.boundary c.cond d f1 place = some g) hr3
      fun d hd => hd).bind (fun _ h => h) ?_
    intro g r4 hr4 hb
    refine M.tri_pure hr4 ⟨⟨rfl, fun j hj => hj.elim⟩, rfl, fun e => ?_⟩
    change g e = compVec w cf bc t ⟨.natural f0 f1 time, false⟩ e
    simp only [compVec]
    cases bc with
    | none => simp at hs
    | some l =>
      have hs : naturalSection l f0 = some sec := hs
      simp [hs, naturalVec, ht, hm, hf, hb]
  | dyn g =>
    intro s hp hw
    refine (M.tri_lift (R := Run h0.length s) (Q := fun d r => g t = some d) (.refl _ hw)
      fun d hd => hd).bind (fun _ h => h) ?_
    intro d r hr hg
    refine M.tri_pure hr ⟨⟨rfl, fun j hj => hj.elim⟩, ?_, fun e => ?_⟩
    · change (g t).map _ = _
      rw [hg]
      rfl
    change d.data e = (g t).bind _
    rw [hg]
    rfl
  | mulVec a v l l' ha hv ih =>
    intro s hp hw
    refine (evalM_spec w h0 hw0 t a l ha s hp hw).bind (R' := Run h0.length s) (fun _ h => h) ?_
    rintro m s1 r1 ⟨hm, -⟩
    refine (ih s1 (hp.trans r1.ext.pre) r1.wf).bind (fun _ h => r1.trans h) ?_
    rintro u s2 r2 ⟨hu, -, hr⟩
    have hm2 := hm.mono r2.ext.pre r1.wf
    refine M.tri_pure (r1.trans r2) ⟨⟨rfl, fun j hj => ?_⟩, vecGm_append w t hm.gm hv.ne, fun e => ?_⟩
    · rcases hj with rfl | hj
      · exact ⟨hm2.own, hm2.lt⟩
      · exact (hu.weaken r1.len).ids j hj
    · change ((readM s2.heap m.id e).bind fun A => (u.tree.read s2.heap e).bind fun u => A.mulVec u) = _
      rw [vecChain_append _ _ _ _ _ ha.ne hv.ne, hr e, hm2.means e]

/-! ### Terms and blocks -/

/-- A static term stands for a term of the abstract system. -/
def SOK (w : World T τ C K) (cf : List (Config C)) (bc : Option (List (ℕ × List BC))) (t : T)
    (L0 L : ℕ) (h : Hp K) (tm : Term T τ K) : Stat K → Prop
  | .mat m => MOK L0 L h m (chainGm (tm.comps.map (compGm w t))) fun e => matTerm w t tm e
  | .vec v => VIds L0 L h v ∧ vecGm w t tm.comps = some v.gm ∧ ∀ e, v.tree.read h e = vecTerm w cf bc t tm e

lemma SOK.mono {w : World T τ C K} {cf : List (Config C)} {bc : Option (List (ℕ × List BC))} {t : T}
    {L0 L : ℕ} {h h' : Hp K} {tm : Term T τ K} {st : Stat K} (a : SOK w cf bc t L0 L h tm st)
    (hp : h <+: h') (hw : Wf h) : SOK w cf bc t L0 L h' tm st := by
  cases st with
  | mat m => exact MOK.mono a hp hw
  | vec v =>
    exact ⟨a.1.mono hp, a.2.1, fun e => (a.1.read hp hw e).trans (a.2.2 e)⟩

lemma SOK.weaken {w : World T τ C K} {cf : List (Config C)} {bc : Option (List (ℕ × List BC))} {t : T}
    {L0 L L' : ℕ} {h : Hp K} {tm : Term T τ K} {st : Stat K} (a : SOK w cf bc t L0 L' h tm st)
    (hl : L ≤ L') : SOK w cf bc t L0 L h tm st := by
  cases st with
  | mat m => exact MOK.weaken a hl
  | vec v => exact ⟨a.1.weaken hl, a.2⟩

lemma scale_one (A : LM K) : LM.scale 1 A = A := by simp [LM.scale]

lemma scale_neg_one (A : LM K) : LM.scale (-1) A = A.neg := by simp [LM.scale, LM.neg]

lemma vscale_one (A : LV K) : LV.scale 1 A = A := by simp [LV.scale]

lemma vscale_neg_one (A : LV K) : LV.scale (-1) A = A.neg := by simp [LV.scale, LV.neg]

lemma evalTerm_spec (w : World T τ C K) (cf : List (Config C)) (bc : Option (List (ℕ × List BC)))
    (h0 : Hp K) (hw0 : Wf h0) (t : T) (tm : Term T τ K) (d : DTerm T τ K) (hd : DTOK w bc h0 tm d)
    (s : Sess T τ C K) (hp : h0 <+: s.heap) (hw : Wf s.heap) :
    M.Tri (evalTerm w cf t d) s (Run h0.length s) fun st r =>
      SOK w cf bc t h0.length s.heap.length r.heap tm st ∧
      ∀ m, st = .mat m → Fresh s.heap.length r.heap m.id ∨ m.id < h0.length ∧ Bare t [tm] := by
  obtain ⟨hs, hf, hc⟩ := hd
  refine (M.tri_lift (R := Run h0.length s) (Q := fun f r => tm.factor t = some f ∧ r = s) (.refl _ hw)
    fun f h => ⟨hf ▸ h, rfl⟩).bind (fun _ h => h) ?_
  rintro f r - ⟨hft, rfl⟩
  have hcoef : coef t tm = some (if d.minus then -f else f) := by simp [coef, hft, hs]
  rcases hcomp : d.comp with a | v
  · rw [hcomp] at hc
    refine (evalM_spec w h0 hw0 t a _ hc r hp hw).bind (R' := Run h0.length r) (fun _ h => h) ?_
    rintro m s1 r1 ⟨hm, hfr⟩
    simp only [signed]
    by_cases h1 : f = 1
    · rw [if_pos h1]
      cases hmi : d.minus
      · simp only [Bool.false_eq_true, if_false]
        refine M.tri_pure r1 ⟨⟨hm.lt, hm.own, fun e => ?_, hm.gm⟩, ?_⟩
        · rw [hm.means e, matTerm, hcoef, hmi, h1]
          simp [show (LM.scale (1:K)) = id from funext scale_one]
        · rintro n hn
          cases hn
          rcases hfr with h | ⟨h2, h3, a', h4, h5⟩
          · exact .inl h
          · exact .inr ⟨h2, tm, rfl, by rw [← hs, hmi], by rw [hft, h1], a', h4, h5⟩
      · simp only [if_true]
        refine (un_tri r1 hm LM.neg m.row m.col).bind (R' := Run h0.length r) (fun _ h => h) ?_
        rintro n s2 r2 ⟨hn, hfr2⟩
        refine M.tri_pure r2 ⟨⟨hn.lt, hn.own, fun e => ?_, hm.gm.trans hn.gm⟩, ?_⟩
        · rw [hn.means e, matTerm, hcoef, hmi, h1]
          simp only [if_true, Option.bind_some]
          congr 1
          funext A
          exact (scale_neg_one A).symm
        · rintro n' hn'
          cases hn'
          exact .inl hfr2
    · rw [if_neg h1]
      refine (un_tri r1 hm (LM.scale (if d.minus then -f else f)) m.row m.col).bind (R' := Run h0.length r)
        (fun _ h => h) ?_
      rintro n s2 r2 ⟨hn, hfr2⟩
      refine M.tri_pure r2 ⟨⟨hn.lt, hn.own, fun e => ?_, hm.gm.trans hn.gm⟩, ?_⟩
      · rw [hn.means e, matTerm, hcoef]
        rfl
      · rintro n' hn'
        cases hn'
        exact .inl hfr2
  · rw [hcomp] at hc
    refine (evalV_spec w cf bc h0 hw0 t v _ hc r hp hw).bind (R' := Run h0.length r) (fun _ h => h) ?_
    rintro u s1 r1 ⟨hu, hgm, hr⟩
    simp only [signed]
    by_cases h1 : f = 1
    · rw [if_pos h1]
      cases hmi : d.minus
      · simp only [Bool.false_eq_true, if_false]
        refine M.tri_pure r1 ⟨⟨hu, hgm, fun e => ?_⟩, fun m h => by cases h⟩
        rw [hr e, vecTerm, hcoef, hmi, h1]
        simp [show (LV.scale (1:K)) = id from funext vscale_one]
      · simp only [if_true]
        split_ifs with hco
        · exact M.tri_fail r1
        · refine M.tri_pure r1 ⟨⟨⟨hu.cust, hu.ids⟩, hgm, fun e => ?_⟩, fun m h => by cases h⟩
          change (u.tree.read s1.heap e).map LV.neg = _
          rw [hr e, vecTerm, hcoef, hmi, h1]
          simp only [if_true, Option.bind_some]
          congr 1
          funext A
          exact (vscale_neg_one A).symm
    · rw [if_neg h1]
      by_cases hco : u.cochain = true
      · rw [if_pos hco]
        exact M.tri_fail r1
      · rw [if_neg hco]
        refine M.tri_pure r1 ⟨⟨⟨hu.cust, hu.ids⟩, hgm, fun e => ?_⟩, fun m h => by cases h⟩
        change (u.tree.read s1.heap e).map (LV.scale _) = _
        rw [hr e, vecTerm, hcoef]
        rfl

lemma each_spec (w : World T τ C K) (cf : List (Config C)) (bc : Option (List (ℕ × List BC)))
    (h0 : Hp K) (hw0 : Wf h0) (t : T) : ∀ (tms : List (Term T τ K)) (ds : List (DTerm T τ K)),
    List.Forall₂ (DTOK w bc h0) tms ds → ∀ s : Sess T τ C K, h0 <+: s.heap → Wf s.heap →
    M.Tri (M.each (evalTerm w cf t) ds) s (Run h0.length s) fun sts r =>
      List.Forall₂ (SOK w cf bc t h0.length s.heap.length r.heap) tms sts ∧
      ∀ m, sts = [.mat m] → Fresh s.heap.length r.heap m.id ∨ m.id < h0.length ∧ Bare t tms
  | [], [], _, s, _, hw => M.tri_pure (.refl _ hw) ⟨.nil, fun m h => by cases h⟩
  | tm :: tms, d :: ds, h, s, hp, hw => by
    obtain ⟨h1, h2⟩ := List.forall₂_cons.mp h
    refine (evalTerm_spec w cf bc h0 hw0 t tm d h1 s hp hw).bind (R' := Run h0.length s) (fun _ h => h) ?_
    rintro st s1 r1 ⟨hst, hfr⟩
    refine (each_spec w cf bc h0 hw0 t tms ds h2 s1 (hp.trans r1.ext.pre) r1.wf).bind
      (fun _ h => r1.trans h) ?_
    rintro sts s2 r2 ⟨hsts, -⟩
    refine M.tri_pure (r1.trans r2) ⟨.cons (hst.mono r2.ext.pre r1.wf) ?_, ?_⟩
    · exact hsts.imp fun _ _ h => h.weaken r1.len
    · rintro m hm
      obtain ⟨rfl, rfl⟩ : st = .mat m ∧ sts = [] := by simpa using hm
      obtain rfl : tms = [] := by simpa using hsts
      rcases hfr m rfl with ⟨h3, h4⟩ | h3
      · by_cases hl : h0.length ≤ m.id
        · exact .inl ⟨h3, r2.ext.unused hl hst.lt h4⟩
        · exact absurd (le_trans hp.length_le h3) hl
      · exact .inr h3

end Phyem.DynSys
