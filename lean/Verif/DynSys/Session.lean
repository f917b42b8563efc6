import Verif.DynSys.Bc

/-!
Evaluations, parsing and the invariant of a session.
-/

namespace Phyem.DynSys

open Phyem OpCache

variable {T τ C K : Type} [Field K] [DecidableEq K]

/-- What an operation does to the objects of a session: the existing ones stay as they are. -/
structure Keeps (s s' : Sess T τ C K) : Prop where
  pre : s.heap <+: s'.heap
  wf : Wf s'.heap

/-- The parts of a system that is ready to be evaluated. -/
structure Ready (w : World T τ C K) (h : Hp K) (d : Dls T τ C K) : Prop where
  A : List.Forall₂ (List.Forall₂ (List.Forall₂ (DTOK w d.src.bc h))) d.src.A d.A
  b : List.Forall₂ (List.Forall₂ (DTOK w d.src.bc h)) d.src.b d.b
  safe : Safe d.src

/-- `IsEvaluation` with the objects it reads. -/
structure Evaluated (w : World T τ C K) (cf : List (Config C)) (src : Sys T τ K) (t : T) (h : Hp K)
    (S : SLS τ K) : Prop where
  x : List.Forall₂ (fun f (u : Unknown τ) => u.form = f ∧ (w.form f).time t = some u.time) src.x S.x
  shape : S.A.length = src.A.length ∧ S.b.length = src.A.length ∧ src.b.length = src.A.length
  found : ∀ p ∈ (src.bc.map flat).getD [], Found w cf S.x p
  row : ∀ (i : ℕ) row, src.A[i]? = some row → ∃ ρ,
    (∀ (j : ℕ) l, row[j]? = some l → ∃ f ms m, src.x[j]? = some f ∧ S.A[i]? = some ms ∧ ms[j]? = some m ∧
      m.id < h.length ∧ m.row = ρ ∧ m.col = (w.form f).gm ∧
      (l ≠ [] → blockGm w t l = some (ρ, (w.form f).gm)) ∧
      ∀ e, readM h m.id e = (blockSpec w t ρ (w.form f).gm l e).map
        (withRows (j == i) (prescribed w cf S.x i ((src.bc.map flat).getD [])) e)) ∧
    (∀ l, src.b[i]? = some l → ∃ v, S.b[i]? = some v ∧ v.gm = ρ ∧ (∀ j, v.tree.uses j → j < h.length) ∧
      (l ≠ [] → (l.head?.bind fun m => vecGm w t m.comps) = some ρ) ∧
      ∀ e ∈ w.elems, v.read h e = (vecSpec w cf src.bc t ρ l e).map
        (withVals (prescribed w cf S.x i ((src.bc.map flat).getD [])) e))

lemma Evaluated.is {w : World T τ C K} {cf : List (Config C)} {src : Sys T τ K} {t : T} {h : Hp K}
    {S : SLS τ K} (a : Evaluated w cf src t h S) : IsEvaluation w cf src t h S := by
  refine ⟨a.x, a.shape, a.found, fun i row hrow => ?_⟩
  obtain ⟨ρ, h1, h2⟩ := a.row i row hrow
  refine ⟨ρ, fun j l hl => ?_, fun l hl => ?_⟩
  · obtain ⟨f, ms, m, b1, b2, b3, -, b5⟩ := h1 j l hl
    exact ⟨f, ms, m, b1, b2, b3, b5⟩
  · obtain ⟨v, b1, b2, -, b4⟩ := h2 l hl
    exact ⟨v, b1, b2, b4⟩

lemma forall₂_get {α β : Type} {R : α → β → Prop} {l : List α} {r : List β} (h : List.Forall₂ R l r)
    {i : ℕ} {a : α} (ha : l[i]? = some a) : ∃ b, r[i]? = some b ∧ R a b := by
  obtain ⟨h1, h2⟩ := List.getElem?_eq_some_iff.mp ha
  have h3 : i < r.length := by rw [← h.length_eq]; exact h1
  refine ⟨r[i], List.getElem?_eq_getElem h3, ?_⟩
  have := h.get h1 h3
  simp only [List.get_eq_getElem, h2] at this
  exact this

lemma forall₂_get' {α β : Type} {R : α → β → Prop} {l : List α} {r : List β} (h : List.Forall₂ R l r)
    {i : ℕ} {b : β} (hb : r[i]? = some b) : ∃ a, l[i]? = some a ∧ R a b := by
  obtain ⟨a, h1, h2⟩ := forall₂_get h.flip hb
  exact ⟨a, h1, h2⟩

lemma call_spec (w : World T τ C K) (k : ℕ) (t : T) (s : Sess T τ C K) (hw : Wf s.heap)
    (hr : ∀ d ∈ s.systems, Ready w s.heap d) :
    M.Tri (call w k t) s (fun r => Keeps s r ∧ r.cacheM = s.cacheM ∧ r.systems = s.systems) fun S r =>
      ∃ d, s.systems[k]? = some d ∧ Evaluated w d.configs d.src t r.heap S := by
  unfold call
  cases hk : s.systems[k]? with
  | none =>
    refine ⟨?_, fun S hS => ?_⟩
    · simp only [hk]
      exact ⟨⟨List.prefix_refl _, hw⟩, trivial, trivial⟩
    · simp only [hk] at hS
      cases hS
  | some d =>
    have hd := hr d (List.mem_of_getElem? hk)
    have key : M.Tri (M.bind (evalRaw w d t) fun S => applyBCs w d.configs S ((d.src.bc.map flat).getD []))
        s (fun r => Keeps s r ∧ r.cacheM = s.cacheM ∧ r.systems = s.systems) fun S r =>
          Evaluated w d.configs d.src t r.heap S := by
      refine (evalRaw_spec w d t s hw hd.A hd.b).bind
        (fun r h => ⟨⟨h.ext.pre, h.wf⟩, h.cache, h.systems⟩) ?_
      rintro S0 s1 r1 ⟨rows, raw⟩
      have hess : ∀ p ∈ (d.src.bc.map flat).getD [], ∀ i, p.2 = .essential i →
          (∀ row, d.src.A[i]? = some row → ∀ l ∈ row, ¬ Bare t l) := by
        intro p hp i hi row hrow l hl
        cases hb : d.src.bc with
        | none => rw [hb] at hp; cases hp
        | some bc =>
          rw [hb] at hp
          exact hd.safe bc hb p hp i hi row hrow l hl t
      have hsep : Sep s.heap.length s1.heap
          (fun i => ∀ row, d.src.A[i]? = some row → ∀ l ∈ row, ¬ Bare t l) S0 := by
        refine ⟨raw.nd, fun i ms hi hms m hm => ?_, raw.sep⟩
        obtain ⟨q, hq, hrow⟩ := forall₂_get' raw.A hms
        obtain ⟨hq1, hq2⟩ := List.getElem?_zip_eq_some.mp hq
        obtain ⟨j, hj⟩ := List.mem_iff_getElem?.mp hm
        obtain ⟨p, hp, hB⟩ := forall₂_get' hrow hj
        obtain ⟨hp1, -⟩ := List.getElem?_zip_eq_some.mp hp
        rcases hB.own with h | h
        · exact ⟨h.1, hB.lt, h.2⟩
        · exact absurd h.2 (hi q.1 hq1 p.1 (List.mem_of_getElem? hp1))
      refine (applyBCs_spec w d.configs s.heap.length _ _ hess S0 s1 hsep).mono ?_ ?_
      · intro r hc
        refine ⟨⟨?_, ?_⟩, hc.cache.trans r1.cache, hc.systems.trans r1.systems⟩
        · rw [List.prefix_iff_getElem?]
          intro i hi
          rw [hc.old i hi, getElem?_prefix r1.ext.pre hi, List.getElem?_eq_getElem hi]
        · intro i j hu
          exact r1.wf i j ((hc.uses i j).mp hu)
      · rintro S r hc ⟨himp, hfound⟩
        have hlen := hc.len
        refine ⟨himp.x ▸ raw.x, ⟨?_, ?_, raw.lenb⟩, himp.x ▸ hfound, fun i row hrow => ?_⟩
        · rw [himp.A, ← raw.A.length_eq, List.length_zip, raw.len, min_self]
        · rw [himp.len, ← raw.b.length_eq, List.length_zip, raw.len, raw.lenb, min_self]
        · have hi := (List.getElem?_eq_some_iff.mp hrow).1
          obtain ⟨ρ, hρ⟩ : ∃ ρ, rows[i]? = some ρ :=
            ⟨_, List.getElem?_eq_getElem (by rw [raw.len]; exact hi)⟩
          obtain ⟨ms, hms, hrowOK⟩ := forall₂_get raw.A (List.getElem?_zip_eq_some.mpr
            (⟨hrow, hρ⟩ : d.src.A[i]? = some (row, ρ).1 ∧ rows[i]? = some (row, ρ).2))
          refine ⟨ρ, fun j l hl => ?_, fun l hl => ?_⟩
          · have hj := (List.getElem?_eq_some_iff.mp hl).1
            rw [raw.lenr row (List.mem_of_getElem? hrow)] at hj
            have hf : d.src.x[j]? = some d.src.x[j] := List.getElem?_eq_getElem hj
            obtain ⟨m, hm, hB⟩ := forall₂_get hrowOK (List.getElem?_zip_eq_some.mpr
              (⟨hl, by simp [hf]⟩ : row[j]? = some (l, (w.form d.src.x[j]).gm).1 ∧
                (d.src.x.map fun f => (w.form f).gm)[j]? = some (l, (w.form d.src.x[j]).gm).2))
            refine ⟨d.src.x[j], ms, m, hf, by rw [himp.A, hms], hm, by rw [hlen]; exact hB.lt, hB.row, hB.col,
              hB.gm, fun e => ?_⟩
            rw [himp.mat i ms hms j m hm e, hB.means e, himp.x]
          · obtain ⟨v0, hv0, hW⟩ := forall₂_get raw.b (List.getElem?_zip_eq_some.mpr
              (⟨hl, hρ⟩ : d.src.b[i]? = some (l, ρ).1 ∧ rows[i]? = some (l, ρ).2))
            obtain ⟨v, h1, h2, h3, h4⟩ := himp.vec i v0 hv0
            refine ⟨v, h1, h3.trans hW.row, fun j hj => ?_, hW.gm, fun e he => ?_⟩
            · rw [hlen]
              exact hW.lt j (h2 ▸ hj)
            · rw [h4 e, himp.x]
              have : v0.read s1.heap e = v0.tree.read s1.heap e := by
                unfold SV.read
                rw [hW.cust]
                rfl
              rw [this, hW.means e he]
    refine ⟨?_, fun S hS => ⟨d, rfl, ?_⟩⟩
    · simp only [hk]
      exact key.1
    · simp only [hk] at hS ⊢
      exact key.2 S hS

/-- What was evaluated stays so when objects are added. -/
lemma Evaluated.mono {w : World T τ C K} {cf : List (Config C)} {src : Sys T τ K} {t : T} {h h' : Hp K}
    {S : SLS τ K} (a : Evaluated w cf src t h S) (hp : h <+: h') (hw : Wf h) :
    Evaluated w cf src t h' S := by
  refine ⟨a.x, a.shape, a.found, fun i row hrow => ?_⟩
  obtain ⟨ρ, h1, h2⟩ := a.row i row hrow
  refine ⟨ρ, fun j l hl => ?_, fun l hl => ?_⟩
  · obtain ⟨f, ms, m, b1, b2, b3, b4, b5, b6, b7, b8⟩ := h1 j l hl
    exact ⟨f, ms, m, b1, b2, b3, lt_of_lt_of_le b4 hp.length_le, b5, b6, b7,
      fun e => (read_prefix hp hw _ e b4).trans (b8 e)⟩
  · obtain ⟨v, b1, b2, b3, b4, b5⟩ := h2 l hl
    exact ⟨v, b1, b2, fun j hj => lt_of_lt_of_le (b3 j hj) hp.length_le, b4, fun e he =>
      (SV.read_congr v (fun j e hj => read_prefix hp hw _ e (b3 j hj)) e).trans (b5 e he)⟩

/-! ### Parsing -/

lemma DMOK.mono {w : World T τ C K} {h h' : Hp K} (hp : h <+: h') (hw : Wf h) {a : DM T K}
    {l : List (Arr T τ K)} (ha : DMOK w h a l) : DMOK w h' a l := by
  induction ha with
  | static m a hm hk hr hg =>
    exact .static m a (lt_of_lt_of_le hm hp.length_le) hk
      (fun t e => (read_prefix hp hw _ e hm).trans (hr t e)) hg
  | dyn g => exact .dyn g
  | prod a b l l' _ _ h1 h2 => exact .prod a b l l' h1 h2

lemma DVOK.mono {w : World T τ C K} {bc : Option (List (ℕ × List BC))} {h h' : Hp K} (hp : h <+: h')
    (hw : Wf h) {a : DV T τ K} {l : List (Arr T τ K)} (ha : DVOK w bc h a l) : DVOK w bc h' a l := by
  induction ha with
  | form f => exact .form f
  | natural sec f0 f1 time hs => exact .natural sec f0 f1 time hs
  | dyn g => exact .dyn g
  | mulVec a v l l' ha _ h2 => exact .mulVec a v l l' (ha.mono hp hw) h2

lemma DTOK.mono {w : World T τ C K} {bc : Option (List (ℕ × List BC))} {h h' : Hp K} (hp : h <+: h')
    (hw : Wf h) {m : Term T τ K} {d : DTerm T τ K} (ha : DTOK w bc h m d) : DTOK w bc h' m d := by
  obtain ⟨h1, h2, h3⟩ := ha
  refine ⟨h1, h2, ?_⟩
  cases hd : d.comp with
  | mat a => rw [hd] at h3; exact DMOK.mono hp hw h3
  | vec v => rw [hd] at h3; exact DVOK.mono hp hw h3

/-- The cache of mass matrices is right. -/
def CacheOK (w : World T τ C K) (s : Sess T τ C K) : Prop :=
  ∀ k i, s.cacheM.get k = some i → i < s.heap.length ∧ ∀ e, readM s.heap i e = (w.mass k).data e

lemma CacheOK.mono {w : World T τ C K} {s s' : Sess T τ C K} (a : CacheOK w s) (hp : s.heap <+: s'.heap)
    (hw : Wf s.heap) (hc : s'.cacheM = s.cacheM) : CacheOK w s' := by
  intro k i hk
  obtain ⟨h1, h2⟩ := a k i (hc ▸ hk)
  exact ⟨lt_of_lt_of_le h1 hp.length_le, fun e => (read_prefix hp hw _ e h1).trans (h2 e)⟩

/-- What parsing does to a session. -/
structure Par (w : World T τ C K) (s s' : Sess T τ C K) : Prop where
  pre : s.heap <+: s'.heap
  wf : Wf s'.heap
  cache : CacheOK w s'
  systems : s'.systems = s.systems

lemma Par.trans {w : World T τ C K} {s s' s'' : Sess T τ C K} (a : Par w s s') (b : Par w s' s'') :
    Par w s s'' := ⟨a.pre.trans b.pre, b.wf, b.cache, b.systems.trans a.systems⟩

/-- A session in which parsing may go on. -/
structure Good (w : World T τ C K) (s : Sess T τ C K) : Prop where
  wf : Wf s.heap
  cache : CacheOK w s

lemma Good.par {w : World T τ C K} {s : Sess T τ C K} (a : Good w s) : Par w s s :=
  ⟨List.prefix_refl _, a.wf, a.cache, rfl⟩

lemma Par.good {w : World T τ C K} {s s' : Sess T τ C K} (a : Par w s s') : Good w s' := ⟨a.wf, a.cache⟩

lemma Run.par {w : World T τ C K} {L0 : ℕ} {s s' : Sess T τ C K} (a : Run L0 s s') (hg : Good w s) :
    Par w s s' := ⟨a.ext.pre, a.wf, hg.cache.mono a.ext.pre hg.wf a.cache, a.systems⟩

/-- A matrix made while parsing. -/
structure POK (h : Hp K) (m : MRef) (r c : ℕ) (g : ℕ → Option (LM K)) : Prop where
  lt : m.id < h.length
  means : ∀ e, readM h m.id e = g e
  row : m.row = r
  col : m.col = c

lemma leaf_par (w : World T τ C K) (s : Sess T τ C K) (hg : Good w s) (d : MatData K) :
    M.Tri (leaf d) s (Par w s) fun m r => POK r.heap m d.row d.col d.data := by
  refine (leaf_tri (.refl s.heap.length hg.wf) d).mono (fun r h => h.par hg) ?_
  rintro m r - ⟨h, -⟩
  have := h.gm
  simp only [Option.some.injEq, Prod.mk.injEq] at this
  exact ⟨h.lt, h.means, this.1.symm, this.2.symm⟩

lemma tr_par (w : World T τ C K) (s : Sess T τ C K) (hg : Good w s) {m : MRef} {a b : ℕ}
    {g : ℕ → Option (LM K)} (hm : POK s.heap m a b g) :
    M.Tri (trM m) s (Par w s) fun n r => POK r.heap n b a (fun e => (g e).map LM.T) := by
  refine (un_tri (L0 := s.heap.length) (.refl s.heap.length hg.wf) (m := m) (q := some (m.row, m.col)) (g := g)
    ⟨hm.lt, .inl hm.lt, hm.means, rfl⟩ LM.T m.col m.row).mono (fun r h => h.par hg) ?_
  rintro n r - ⟨h, -⟩
  have := h.gm
  simp only [Option.some.injEq, Prod.mk.injEq] at this
  exact ⟨h.lt, h.means, by rw [← this.1, hm.col], by rw [← this.2, hm.row]⟩

lemma mass_par (w : World T τ C K) (s : Sess T τ C K) (hg : Good w s) (k : ℕ) :
    M.Tri (parseMass w k) s (Par w s) fun m r =>
      POK r.heap m (w.mass k).row (w.mass k).col (w.mass k).data := by
  unfold M.Tri
  cases hk : s.cacheM.get k with
  | some i =>
    have hs : parseMass w k s = (s, some ⟨i, (w.mass k).row, (w.mass k).col⟩) := by simp [parseMass, hk]
    rw [hs]
    refine ⟨hg.par, fun b hb => ?_⟩
    obtain rfl := Option.some.inj hb
    obtain ⟨h1, h2⟩ := hg.cache k i hk
    exact ⟨h1, h2, rfl, rfl⟩
  | none =>
    have hs : parseMass w k s = (⟨s.heap ++ [(.leaf (w.mass k).data (w.mass k).key, [])],
        s.cacheM.put k s.heap.length, s.systems⟩,
        some ⟨s.heap.length, (w.mass k).row, (w.mass k).col⟩) := by simp [parseMass, hk]
    rw [hs]
    have hwf := wf_push hg.wf (.leaf (w.mass k).data (w.mass k).key) (fun kind args f h => by cases h)
    refine ⟨⟨List.prefix_append _ _, hwf, ?_, rfl⟩, fun b hb => ?_⟩
    · intro k' i hi
      change (s.cacheM.put k s.heap.length).get k' = some i at hi
      rw [Dict.get_put] at hi
      change i < (s.heap ++ [_]).length ∧ ∀ e, readM (s.heap ++ [_]) i e = _
      by_cases hkk : k' = k
      · rw [if_pos hkk] at hi
        obtain rfl := Option.some.inj hi
        refine ⟨by simp, fun e => ?_⟩
        rw [read_leaf, hkk]
      · rw [if_neg hkk] at hi
        obtain ⟨h1, h2⟩ := hg.cache k' i hi
        refine ⟨by simp; omega, fun e => ?_⟩
        rw [read_prefix (List.prefix_append _ _) hg.wf _ _ h1, h2 e]
    · obtain rfl := Option.some.inj hb
      refine ⟨?_, fun e => read_leaf _ _ _ _, rfl, rfl⟩
      change s.heap.length < (s.heap ++ [_]).length
      simp

/-- A parsed array stands for an array. -/
def DOK (w : World T τ C K) (bc : Option (List (ℕ × List BC))) (h : Hp K) (l : List (Arr T τ K)) :
    Dyn T τ K → Prop
  | .mat a => DMOK w h a l
  | .vec v => DVOK w bc h v l

lemma DOK.mono {w : World T τ C K} {bc : Option (List (ℕ × List BC))} {h h' : Hp K} (hp : h <+: h')
    (hw : Wf h) {l : List (Arr T τ K)} {d : Dyn T τ K} (ha : DOK w bc h l d) : DOK w bc h' l d := by
  cases d with
  | mat a => exact DMOK.mono hp hw ha
  | vec v => exact DVOK.mono hp hw ha

lemma mark_par (w : World T τ C K) (bc : Option (List (ℕ × List BC))) (s : Sess T τ C K) (hg : Good w s)
    {m : MRef} {a b : ℕ} {g : ℕ → Option (LM K)} (hm : POK s.heap m a b g) (arr : Arr T τ K)
    (hk : Kept arr)
    (h0 : arr.tr = false → (∀ t e, compMat w t arr e = g e) ∧ ∀ t, compGm w t arr = some (a, b))
    (h1 : arr.tr = true → (∀ t e, compMat w t arr e = (g e).map LM.T) ∧ ∀ t, compGm w t arr = some (b, a)) :
    M.Tri (mark arr.tr m) s (Par w s) fun d r => DOK w bc r.heap [arr] d := by
  unfold mark
  cases ht : arr.tr with
  | false =>
    rw [if_neg (by simp)]
    obtain ⟨h2, h3⟩ := h0 ht
    exact M.tri_pure hg.par (.static m arr hm.lt hk (fun t e => (hm.means e).trans (h2 t e).symm)
      fun t => by rw [h3 t, hm.row, hm.col])
  | true =>
    rw [if_pos rfl]
    obtain ⟨h2, h3⟩ := h1 ht
    refine (tr_par w s hg hm).bind (R' := Par w s) (fun _ h => h) ?_
    intro n r hr hn
    exact M.tri_pure hr (.static n arr hn.lt hk (fun t e => (hn.means e).trans (h2 t e).symm)
      fun t => by rw [h3 t, hn.row, hn.col])

lemma map_T_T (o : Option (LM K)) : (o.map LM.T).map LM.T = o := by cases o <;> rfl

lemma parseArr_par (w : World T τ C K) (bc : Option (List (ℕ × List BC))) (arr : Arr T τ K)
    (s : Sess T τ C K) (hg : Good w s) :
    M.Tri (parseArr w bc arr) s (Par w s) fun d r => DOK w bc r.heap [arr] d := by
  obtain ⟨comp, tr⟩ := arr
  cases comp with
  | form f =>
    cases tr with
    | true => exact M.tri_fail hg.par
    | false => exact M.tri_pure hg.par (.form f)
  | mat g =>
    cases tr with
    | true => exact M.tri_fail hg.par
    | false => exact M.tri_pure hg.par (.dyn g)
  | vec g =>
    cases tr with
    | true => exact M.tri_fail hg.par
    | false => exact M.tri_pure hg.par (.dyn g)
  | mass k =>
    refine (mass_par w s hg k).bind (R' := Par w s) (fun _ h => h) ?_
    intro m r hr hm
    refine (mark_par w bc r hr.good hm ⟨.mass k, tr⟩ (.inl ⟨k, rfl⟩) ?_ ?_).mono
      (fun _ h => hr.trans h) (fun _ _ _ h => h)
    · intro ht
      obtain rfl : tr = false := ht
      exact ⟨fun _ _ => rfl, fun _ => rfl⟩
    · intro ht
      obtain rfl : tr = true := ht
      exact ⟨fun _ _ => rfl, fun _ => rfl⟩
  | d k =>
    change M.Tri (M.bind (leaf (w.inc k)) (mark tr)) s (Par w s) _
    refine (leaf_par w s hg (w.inc k)).bind (R' := Par w s) (fun _ h => h) ?_
    intro m r hr hm
    refine (mark_par w bc r hr.good hm ⟨.d k, tr⟩ (.inr (.inl ⟨k, rfl⟩)) ?_ ?_).mono
      (fun _ h => hr.trans h) (fun _ _ _ h => h)
    · intro ht
      obtain rfl : tr = false := ht
      exact ⟨fun _ _ => rfl, fun _ => rfl⟩
    · intro ht
      obtain rfl : tr = true := ht
      exact ⟨fun _ _ => rfl, fun _ => rfl⟩
  | dT k =>
    change M.Tri (M.bind (leaf (w.inc k)) fun m => M.bind (trM m) (mark tr)) s (Par w s) _
    refine (leaf_par w s hg (w.inc k)).bind (R' := Par w s) (fun _ h => h) ?_
    intro m r hr hm
    refine (tr_par w r hr.good hm).bind (R' := Par w s) (fun _ h => hr.trans h) ?_
    intro n r' hr' hn
    refine (mark_par w bc r' hr'.good hn ⟨.dT k, tr⟩ (.inr (.inr ⟨k, rfl⟩)) ?_ ?_).mono
      (fun _ h => (hr.trans hr').trans h) (fun _ _ _ h => h)
    · intro ht
      obtain rfl : tr = false := ht
      exact ⟨fun _ _ => rfl, fun _ => rfl⟩
    · intro ht
      obtain rfl : tr = true := ht
      exact ⟨fun _ _ => (map_T_T _).symm, fun _ => rfl⟩
  | natural f0 f1 time =>
    change M.Tri (M.bind (M.lift bc) fun l => M.bind (M.lift (naturalSection l f0)) fun sec =>
      M.bind (M.lift (w.meshOf sec)) fun _ =>
        if tr then M.fail else M.pure (Dyn.vec (.natural sec f0 f1 time))) s (Par w s) _
    refine (M.tri_lift (R := fun r => r = s) (Q := fun l _ => bc = some l) rfl fun _ h => h).bind
      (R' := Par w s) (fun r h => h ▸ hg.par) ?_
    rintro l s0 rfl hl
    refine (M.tri_lift (R := fun r => r = s0) (Q := fun sec _ => naturalSection l f0 = some sec) rfl
      fun _ h => h).bind (R' := Par w s0) (fun r h => h ▸ hg.par) ?_
    rintro sec s0 rfl hsec
    refine (M.tri_lift (R := fun r => r = s0) (Q := fun _ _ => True) rfl
      fun _ h => trivial).bind (R' := Par w s0) (fun r h => h ▸ hg.par) ?_
    rintro _ s0 rfl -
    cases tr with
    | true => exact M.tri_fail hg.par
    | false =>
      refine M.tri_pure hg.par (DVOK.natural sec f0 f1 time ?_)
      rw [hl]
      exact hsec

lemma each_par {α β : Type} (w : World T τ C K) (f : α → M (Sess T τ C K) β) (P : Hp K → α → β → Prop)
    (hP : ∀ h h' a b, h <+: h' → Wf h → P h a b → P h' a b)
    (hf : ∀ a s, Good w s → M.Tri (f a) s (Par w s) fun b r => P r.heap a b) :
    ∀ (l : List α) (s : Sess T τ C K), Good w s →
      M.Tri (M.each f l) s (Par w s) fun bs r => List.Forall₂ (P r.heap) l bs
  | [], s, hg => M.tri_pure hg.par .nil
  | a :: l, s, hg => by
    refine (hf a s hg).bind (R' := Par w s) (fun _ h => h) ?_
    intro b s1 h1 hb
    refine (each_par w f P hP hf l s1 h1.good).bind (R' := Par w s) (fun _ h => h1.trans h) ?_
    intro bs s2 h2 hbs
    exact M.tri_pure (h1.trans h2) (.cons (hP _ _ _ _ h2.pre h1.wf hb) hbs)

lemma matmul_ok {w : World T τ C K} {bc : Option (List (ℕ × List BC))} {h : Hp K} :
    ∀ (cs : List (Dyn T τ K)) (as : List (Arr T τ K)), List.Forall₂ (fun a d => DOK w bc h [a] d) as cs →
    ∀ (pre : List (Arr T τ K)) (c r : Dyn T τ K), DOK w bc h pre c →
      cs.foldl (fun acc d => acc.bind fun a => matmul a d) (some c) = some r → DOK w bc h (pre ++ as) r
  | [], [], _, pre, c, r, hc, hr => by
    obtain rfl := Option.some.inj hr
    rw [List.append_nil]
    exact hc
  | d :: cs, a :: as, hf, pre, c, r, hc, hr => by
    obtain ⟨h1, h2⟩ := List.forall₂_cons.mp hf
    rw [List.foldl_cons] at hr
    have hnone : cs.foldl (fun acc d => acc.bind fun a => matmul a d) (none : Option (Dyn T τ K)) = none := by
      clear hr h2 hf
      induction cs with
      | nil => rfl
      | cons d cs ih => exact ih
    rw [show pre ++ a :: as = (pre ++ [a]) ++ as by simp]
    cases c with
    | vec v =>
      change cs.foldl _ none = _ at hr
      rw [hnone] at hr
      cases hr
    | mat x =>
      cases d with
      | mat y => exact matmul_ok cs as h2 _ (.mat (.prod x y)) _ (DMOK.prod x y pre [a] hc h1) hr
      | vec y => exact matmul_ok cs as h2 _ (.vec (.mulVec x y)) _ (DVOK.mulVec x y pre [a] hc h1) hr

lemma parseTerm_par (w : World T τ C K) (bc : Option (List (ℕ × List BC))) (m : Term T τ K)
    (s : Sess T τ C K) (hg : Good w s) :
    M.Tri (parseTerm w bc m) s (Par w s) fun d r => DTOK w bc r.heap m d := by
  refine (each_par w (parseArr w bc) (fun h a d => DOK w bc h [a] d)
    (fun h h' a d hp hw h => h.mono hp hw) (fun a s hg => parseArr_par w bc a s hg) m.comps s hg).bind
    (R' := Par w s) (fun _ h => h) ?_
  intro cs s1 h1 hcs
  refine (M.tri_lift (R := fun r => r = s1) (Q := fun c _ => matmulAll cs = some c) rfl fun _ h => h).bind
    (R' := Par w s) (fun r h => h ▸ h1) ?_
  rintro c s1' rfl hc
  refine M.tri_pure h1 ⟨rfl, rfl, ?_⟩
  change DOK w bc s1'.heap m.comps c
  generalize m.comps = as at hcs ⊢
  cases hcs with
  | nil => cases hc
  | @cons a d as cs h2 h3 => exact matmul_ok cs as h3 [a] d c h2 hc

/-! ### Sessions -/

/-- The invariant of a session. -/
structure Inv (w : World T τ C K) (s : Sess T τ C K) : Prop where
  wf : Wf s.heap
  cache : CacheOK w s
  ready : ∀ d ∈ s.systems, Ready w s.heap d

lemma Ready.mono {w : World T τ C K} {h h' : Hp K} {d : Dls T τ C K} (a : Ready w h d) (hp : h <+: h')
    (hw : Wf h) : Ready w h' d :=
  ⟨a.A.imp fun _ _ h => h.imp fun _ _ h => h.imp fun _ _ h => h.mono hp hw,
    a.b.imp fun _ _ h => h.imp fun _ _ h => h.mono hp hw, a.safe⟩

lemma apply_inv (w : World T τ C K) (sys : Sys T τ K) (hs : Safe sys) (s : Sess T τ C K) (hi : Inv w s) :
    s.heap <+: (apply w sys s).1.heap ∧ Inv w (apply w sys s).1 ∧
      (∀ u, (apply w sys s).2 = some u → ∃ A b, (apply w sys s).1.systems = s.systems ++ [⟨sys, A, b, []⟩]) ∧
      ((apply w sys s).2 = none → (apply w sys s).1.systems = s.systems) := by
  have hg : Good w s := ⟨hi.wf, hi.cache⟩
  have hfin : M.Tri (apply w sys) s
      (fun r => s.heap <+: r.heap ∧ Wf r.heap ∧ CacheOK w r ∧ ∀ d ∈ r.systems, Ready w r.heap d)
      (fun _ r => ∃ A b, r.systems = s.systems ++ [⟨sys, A, b, []⟩]) := by
    have hpar : ∀ r, Par w s r → s.heap <+: r.heap ∧ Wf r.heap ∧ CacheOK w r ∧
        ∀ d ∈ r.systems, Ready w r.heap d := fun r h =>
      ⟨h.pre, h.wf, h.cache, fun d hd => (hi.ready d (h.systems ▸ hd)).mono h.pre hi.wf⟩
    refine (each_par w _ (fun h a d => List.Forall₂ (List.Forall₂ (DTOK w sys.bc h)) a d)
      (fun h h' a d hp hw h => h.imp fun _ _ h => h.imp fun _ _ h => h.mono hp hw) (fun a s hg =>
        each_par w _ (fun h a d => List.Forall₂ (DTOK w sys.bc h) a d)
          (fun h h' a d hp hw h => h.imp fun _ _ h => h.mono hp hw) (fun a s hg =>
            each_par w _ (DTOK w sys.bc) (fun h h' a d hp hw h => h.mono hp hw)
              (fun a s hg => parseTerm_par w sys.bc a s hg) a s hg) a s hg) sys.A s hg).bind hpar ?_
    intro A s1 h1 hA
    refine (each_par w _ (fun h a d => List.Forall₂ (DTOK w sys.bc h) a d)
          (fun h h' a d hp hw h => h.imp fun _ _ h => h.mono hp hw) (fun a s hg =>
            each_par w _ (DTOK w sys.bc) (fun h h' a d hp hw h => h.mono hp hw)
              (fun a s hg => parseTerm_par w sys.bc a s hg) a s hg) sys.b s1 h1.good).bind
      (fun r h => hpar r (h1.trans h)) ?_
    intro b s2 h2 hb
    obtain ⟨p1, p2, p3, p4⟩ := hpar s2 (h1.trans h2)
    refine ⟨⟨p1, p2, p3, ?_⟩, fun _ _ => ⟨A, b, ?_⟩⟩
    · intro d hd
      change d ∈ s2.systems ++ [_] at hd
      change Ready w s2.heap d
      rcases List.mem_append.mp hd with hd | hd
      · exact p4 d hd
      · obtain rfl := List.mem_singleton.mp hd
        exact ⟨hA.imp fun _ _ h => h.imp fun _ _ h => h.imp fun _ _ h => h.mono h2.pre h1.wf, hb, hs⟩
    · change s2.systems ++ _ = _
      rw [h2.systems, h1.systems]
  refine ⟨hfin.1.1, ⟨hfin.1.2.1, hfin.1.2.2.1, hfin.1.2.2.2⟩, hfin.2, fun hn => ?_⟩
  -- a failing `apply` leaves the systems as they were
  unfold apply M.bind at hn ⊢
  have e1 := each_par w (M.each (M.each (parseTerm w sys.bc))) (fun _ _ _ => True) (fun _ _ _ _ _ _ h => h)
    (fun a s hg => (each_par w (M.each (parseTerm w sys.bc)) (fun _ _ _ => True) (fun _ _ _ _ _ _ h => h)
      (fun a s hg => (each_par w (parseTerm w sys.bc) (fun _ _ _ => True) (fun _ _ _ _ _ _ h => h)
        (fun a s hg => (parseTerm_par w sys.bc a s hg).mono (fun _ h => h) (fun _ _ _ _ => trivial))
        a s hg).mono (fun _ h => h) (fun _ _ _ _ => trivial)) a s hg).mono (fun _ h => h)
      (fun _ _ _ _ => trivial)) sys.A s hg
  rcases h1 : M.each (M.each (M.each (parseTerm w sys.bc))) sys.A s with ⟨s1, _ | A⟩
  · have e1 := e1.1
    rw [h1] at e1
    exact e1.systems
  · have e1 := e1.1
    rw [h1] at e1
    have e2 := (each_par w (M.each (parseTerm w sys.bc)) (fun _ _ _ => True) (fun _ _ _ _ _ _ h => h)
      (fun a s hg => (each_par w (parseTerm w sys.bc) (fun _ _ _ => True) (fun _ _ _ _ _ _ h => h)
        (fun a s hg => (parseTerm_par w sys.bc a s hg).mono (fun _ h => h) (fun _ _ _ _ => trivial))
        a s hg).mono (fun _ h => h) (fun _ _ _ _ => trivial)) sys.b s1 e1.good).1
    simp only [h1] at hn ⊢
    rcases h2 : M.each (M.each (parseTerm w sys.bc)) sys.b s1 with ⟨s2, _ | b⟩
    · rw [h2] at e2
      simp only []
      exact e2.systems.trans e1.systems
    · simp only [h2] at hn
      cases hn

lemma config_inv (w : World T τ C K) (k : ℕ) (c : Config C) (s : Sess T τ C K) (hi : Inv w s) :
    s.heap <+: (config k c s).1.heap ∧ Inv w (config k c s).1 := by
  refine ⟨List.prefix_refl _, ⟨hi.wf, hi.cache, fun d hd => ?_⟩⟩
  change d ∈ s.systems.modify k _ at hd
  change Ready w s.heap d
  obtain ⟨j, hj⟩ := List.mem_iff_getElem?.mp hd
  rw [List.getElem?_modify] at hj
  cases hs : s.systems[j]? with
  | none => rw [hs] at hj; cases hj
  | some d' =>
    rw [hs] at hj
    have hr := hi.ready d' (List.mem_of_getElem? hs)
    by_cases hk : k = j
    · simp only [hk, if_true, Option.map_eq_map, Option.map_some] at hj
      obtain rfl := Option.some.inj hj
      exact ⟨hr.A, hr.b, hr.safe⟩
    · simp only [hk, if_false, Option.map_eq_map, Option.map_some] at hj
      obtain rfl := Option.some.inj hj
      exact hr

lemma step_inv (w : World T τ C K) (o : UserOp T τ C K) (ho : ∀ sys, o = .apply sys → Safe sys)
    (s : Sess T τ C K) (hi : Inv w s) : s.heap <+: (userStep w s o).heap ∧ Inv w (userStep w s o) := by
  cases o with
  | apply sys =>
    obtain ⟨h1, h2, -⟩ := apply_inv w sys (ho sys rfl) s hi
    exact ⟨h1, h2⟩
  | config k c => exact config_inv w k c s hi
  | call k t =>
    obtain ⟨h1, h2, h3⟩ := (call_spec w k t s hi.wf hi.ready).1
    exact ⟨h1.pre, h1.wf, hi.cache.mono h1.pre hi.wf h2, fun d hd =>
      (hi.ready d (h3 ▸ hd)).mono h1.pre hi.wf⟩

lemma foldl_inv (w : World T τ C K) : ∀ (h : List (UserOp T τ C K)), SafeHistory h → ∀ s, Inv w s →
    s.heap <+: (h.foldl (userStep w) s).heap ∧ Inv w (h.foldl (userStep w) s)
  | [], _, s, hi => ⟨List.prefix_refl _, hi⟩
  | o :: h, hs, s, hi => by
    obtain ⟨h1, h2⟩ := step_inv w o (fun sys ho => hs sys (by rw [ho]; exact List.mem_cons_self ..)) s hi
    obtain ⟨h3, h4⟩ := foldl_inv w h (fun sys ho => hs sys (List.mem_cons_of_mem _ ho)) _ h2
    exact ⟨h1.trans h3, h4⟩

lemma init_inv (w : World T τ C K) : Inv w (⟨[], [], []⟩ : Sess T τ C K) :=
  ⟨fun i j hu => by
      obtain ⟨_, _, _, _, h, _⟩ := hu
      simp at h,
    fun k i h => (by cases h), fun d hd => (by cases hd)⟩

end Phyem.DynSys
