import Verif.Instant.Receive

/-!
# C145, C146: single values, all values on one rank, components
-/

namespace Phyem.Instant

open Phyem Phyem.Chaining

/-- `of_dof` with the gathering matrix' look-up of the dof on every rank (`instant.py:150-175`); `hists` are the look-ups that
were made before on the ranks, `hash` is Python's hash. -/
def Inst.ofDof (hash : List ℕ → ℤ) (hists : List (List Look)) (I : Inst) (n : ℤ) : Option ℚ :=
  (I.gm.zipIdx.mapM fun (q : Dict ℕ (List ℕ) × ℕ) =>
    (look hash q.1 I.gm.num (runLook hash q.1 I.gm.num (hists.getD q.2 [])) (.one n)).1).bind I.ofPlaces

/-- The number that is meant: negative ones count from the end. -/
def meant (num : ℕ) (n : ℤ) : ℕ := (if n < 0 then n + num else n).toNat

/-- `x` is the value at a place of number `k`. -/
def ValueAt (I : Inst) (k : ℕ) (x : ℚ) : Prop :=
  ∃ (r e : ℕ) (ns : List ℕ) (v : List ℚ) (l : ℕ), Has I.gm r e ns ∧ I.item r e = some v ∧ ns[l]? = some k ∧ v[l]? = some x

lemma look_head {hash : List ℕ → ℤ} {d : Dict ℕ (List ℕ)} {num : ℕ} (hist : List Look) (n : ℤ)
    (h1 : ∀ ns, hash ns ≠ -1)
    (h2 : ∀ a ∈ Look.one n :: hist, ∀ b ∈ Look.one n :: hist, hash (a.seq num) = hash (b.seq num) → a.seq num = b.seq num)
    (hn : - (num : ℤ) ≤ n) :
    ∃ m k pl, (look hash d num (runLook hash d num hist) (.one n)).1 = some m ∧ m.head? = some (k, pl) ∧
      ∀ e l, (e, l) ∈ pl ↔ ∃ row, (e, row) ∈ d ∧ row[l]? = some (meant num n) := by
  obtain ⟨m, hm, hk, hv⟩ := find_rank_partial (d := d) hist (.one n) h1 h2 (by
    simp only [Look.Legal]; omega)
  have hs : (Look.one n).seq num = [meant num n] := rfl
  obtain ⟨w, hw⟩ := (hk (meant num n)).2 (by rw [hs]; simp)
  cases m with
  | nil => simp [Dict.get] at hw
  | cons p m =>
    obtain ⟨k, pl⟩ := p
    refine ⟨_, k, pl, hm, rfl, ?_⟩
    have hkk : k = meant num n := by
      have := (hk k).1 ⟨pl, by simp [Dict.get]⟩
      rw [hs] at this
      simpa using this
    have := hv k pl (by simp [Dict.get])
    rw [hkk] at this
    exact this

/-! ### C145 -/

/-- The value of a dof, given the same on all ranks: one of the values at the places of the dof, from which all others differ
by less than `1.5e-7`; an error if there is no place or the first value differs by more from another. -/
theorem of_dof_spec {I : Inst} (hd : Distinct I.gm) (hf : Full I) {hash : List ℕ → ℤ} (hists : List (List Look)) (n : ℤ)
    (h1 : ∀ ns, hash ns ≠ -1)
    (h2 : ∀ r, ∀ a ∈ Look.one n :: hists.getD r [], ∀ b ∈ Look.one n :: hists.getD r [],
      hash (a.seq I.gm.num) = hash (b.seq I.gm.num) → a.seq I.gm.num = b.seq I.gm.num)
    (hn : - (I.gm.num : ℤ) ≤ n) :
    (∀ x, I.ofDof hash hists n = some x → ValueAt I (meant I.gm.num n) x ∧
      ∀ y, ValueAt I (meant I.gm.num n) y → |x - y| < 3 / 20000000) ∧
    (I.ofDof hash hists n = none → (∀ y, ¬ ValueAt I (meant I.gm.num n) y) ∨
      ∃ x y, ValueAt I (meant I.gm.num n) x ∧ ValueAt I (meant I.gm.num n) y ∧ 3 / 20000000 ≤ |x - y|) := by
  set k := meant I.gm.num n with hk
  obtain ⟨tabs, htabs⟩ := (mapM_ex (f := fun (q : Dict ℕ (List ℕ) × ℕ) =>
    (look hash q.1 I.gm.num (runLook hash q.1 I.gm.num (hists.getD q.2 [])) (.one n)).1) (l := I.gm.zipIdx)).2 (by
      rintro ⟨d, r⟩ _
      obtain ⟨m, _, _, hm, _⟩ := look_head (d := d) (hists.getD r []) n h1 (h2 r) hn
      exact ⟨m, hm⟩)
  obtain ⟨hl, ht⟩ := mapM_getElem htabs
  have htab : ∀ (r : ℕ) d, I.gm[r]? = some d → ∃ m k' pl, tabs[r]? = some m ∧ m.head? = some (k', pl) ∧
      ∀ e l, (e, l) ∈ pl ↔ ∃ row, (e, row) ∈ d ∧ row[l]? = some k := by
    intro r d hr
    obtain ⟨m, hm, hm'⟩ := ht r (d, r) (by simp [List.getElem?_zipIdx, hr])
    obtain ⟨m', k', pl, h3, h4, h5⟩ := look_head (d := d) (hists.getD r []) n h1 (h2 r) hn
    dsimp only at hm'
    rw [h3] at hm'; cases hm'
    exact ⟨m, k', pl, hm, h4, h5⟩
  have hrank : ∀ (r : ℕ) m, tabs[r]? = some m → ∃ d, I.gm[r]? = some d := by
    intro r m hm
    have : r < I.gm.length := by
      have := (List.getElem?_eq_some_iff.1 hm).1
      rw [hl] at this
      simpa using this
    exact ⟨_, List.getElem?_eq_getElem this⟩
  obtain ⟨ls, hls⟩ := (mapM_ex (f := fun (q : Dict ℕ (List (ℕ × ℕ)) × ℕ) => q.1.head?.bind fun kv =>
      kv.2.mapM fun (x : ℕ × ℕ) => (I.item q.2 x.1).bind fun v => v[x.2]?) (l := tabs.zipIdx)).2 (by
    rintro ⟨m, r⟩ hm
    rw [List.mem_zipIdx_iff_getElem?] at hm
    obtain ⟨d, hr⟩ := hrank r m hm
    obtain ⟨m', k', pl, h3, h4, h5⟩ := htab r d hr
    rw [hm] at h3; cases h3
    dsimp only
    rw [h4, Option.bind_some, mapM_ex]
    rintro ⟨e, l⟩ hel
    obtain ⟨row, h6, h7⟩ := (h5 e l).1 hel
    obtain ⟨v, hv, hvl⟩ := hf r e row ⟨d, hr, h6⟩
    dsimp only
    rw [hv, Option.bind_some]
    have : l < v.length := by rw [hvl]; exact (List.getElem?_eq_some_iff.1 h7).1
    exact ⟨_, List.getElem?_eq_getElem this⟩)
  have hval : ∀ x, x ∈ ls.flatten ↔ ValueAt I k x := by
    intro x
    obtain ⟨hl', ht'⟩ := mapM_getElem hls
    rw [List.mem_flatten]
    constructor
    · rintro ⟨l0, hl0, hx⟩
      obtain ⟨r, hr0⟩ := List.getElem?_of_mem hl0
      have hrl : r < tabs.length := by
        have := (List.getElem?_eq_some_iff.1 hr0).1
        rw [hl'] at this; simpa using this
      have hm := List.getElem?_eq_getElem hrl
      obtain ⟨d, hr⟩ := hrank r _ hm
      obtain ⟨m', k', pl, h3, h4, h5⟩ := htab r d hr
      obtain ⟨y, hy, hy'⟩ := ht' r (m', r) (by simp [List.getElem?_zipIdx, h3])
      rw [hr0] at hy; cases hy
      dsimp only at hy'
      rw [h4, Option.bind_some] at hy'
      obtain ⟨i, hi⟩ := List.getElem?_of_mem hx
      obtain ⟨hl2, ht2⟩ := mapM_getElem hy'
      have hip : i < pl.length := by
        dsimp only at hl2
        rw [← hl2]; exact (List.getElem?_eq_some_iff.1 hi).1
      obtain ⟨z, hz, hz'⟩ := ht2 i pl[i] (List.getElem?_eq_getElem hip)
      rw [hi] at hz; cases hz
      rw [Option.bind_eq_some_iff] at hz'
      obtain ⟨v, hv, hvx⟩ := hz'
      obtain ⟨row, h6, h7⟩ := (h5 pl[i].1 pl[i].2).1 (List.getElem_mem hip)
      exact ⟨r, _, row, v, _, ⟨d, hr, h6⟩, hv, h7, hvx⟩
    · rintro ⟨r, e, ns, v, l, ⟨d, hr, hp⟩, hv, h6, h7⟩
      obtain ⟨m', k', pl, h3, h4, h5⟩ := htab r d hr
      obtain ⟨y, hy, hy'⟩ := ht' r (m', r) (by simp [List.getElem?_zipIdx, h3])
      dsimp only at hy'
      rw [h4, Option.bind_some] at hy'
      obtain ⟨i, hi⟩ := List.getElem?_of_mem ((h5 e l).2 ⟨ns, hp, h6⟩)
      obtain ⟨hl2, ht2⟩ := mapM_getElem hy'
      obtain ⟨z, hz, hz'⟩ := ht2 i _ hi
      dsimp only at hz'
      rw [hv, Option.bind_some, h7] at hz'
      cases hz'
      exact ⟨y, List.mem_of_getElem? hy, List.mem_of_getElem? hz⟩
  have e : I.ofDof hash hists n = match ls.flatten with
      | [] => none
      | c :: cs => if cs.all fun x => almost x c then some c else none := by
    unfold Inst.ofDof
    rw [htabs, Option.bind_some]
    unfold Inst.ofPlaces
    rw [hls, Option.bind_some]
    cases ls.flatten <;> rfl
  rw [e]
  cases hc : ls.flatten with
  | nil =>
    refine ⟨by simp, fun _ => Or.inl ?_⟩
    intro y hy
    rw [← hval, hc] at hy
    cases hy
  | cons c cs =>
    dsimp only
    have hcm : ValueAt I k c := by rw [← hval, hc]; simp
    by_cases ha : (cs.all fun x => almost x c) = true
    · rw [if_pos ha]
      refine ⟨?_, by simp⟩
      intro x hx
      cases hx
      refine ⟨hcm, ?_⟩
      intro y hy
      rw [← hval, hc] at hy
      rcases List.mem_cons.1 hy with rfl | hy
      · rw [sub_self, abs_zero]; norm_num
      · rw [List.all_eq_true] at ha
        have := ha y hy
        unfold almost at this
        simpa using this
    · rw [if_neg ha]
      refine ⟨by simp, fun _ => Or.inr ?_⟩
      rw [List.all_eq_true] at ha
      push Not at ha
      obtain ⟨y, hy, hy'⟩ := ha
      refine ⟨c, y, hcm, by rw [← hval, hc]; simp [hy], ?_⟩
      unfold almost at hy'
      simpa using hy'

/-- If the values agree, the value of every dof is found, with negative numbers counting from the end; numbers that no
element has give an error. -/
theorem of_dof_agrees {I : Inst} (hd : Distinct I.gm) (hc : Contiguous I.gm.nums I.gm.num) {F : ℕ → ℚ} (ha : Agrees I F)
    {hash : List ℕ → ℤ} (hists : List (List Look)) (n : ℤ) (h1 : ∀ ns, hash ns ≠ -1)
    (h2 : ∀ r, ∀ a ∈ Look.one n :: hists.getD r [], ∀ b ∈ Look.one n :: hists.getD r [],
      hash (a.seq I.gm.num) = hash (b.seq I.gm.num) → a.seq I.gm.num = b.seq I.gm.num)
    (hn : - (I.gm.num : ℤ) ≤ n) :
    I.ofDof hash hists n = if n < I.gm.num then some (F (meant I.gm.num n)) else none := by
  obtain ⟨hs, hnone⟩ := of_dof_spec hd (agrees_full ha) hists n h1 h2 hn
  have val : ∀ x, ValueAt I (meant I.gm.num n) x → x = F (meant I.gm.num n) := by
    rintro x ⟨r, e, ns, v, l, hh, hv, h6, h7⟩
    rw [ha r e ns hh] at hv
    cases hv
    rw [List.getElem?_map, h6] at h7
    exact (Option.some.inj h7).symm
  by_cases hlt : n < I.gm.num
  · rw [if_pos hlt]
    have hm : meant I.gm.num n < I.gm.num := by
      unfold meant
      split_ifs <;> omega
    cases hx : I.ofDof hash hists n with
    | some x => rw [val x (hs x hx).1]
    | none =>
      exfalso
      rcases hnone hx with h | ⟨x, y, h3, h4, h5⟩
      · obtain ⟨e, he, hne⟩ := (mem_nums hd).1 ((hc _).2 hm)
        obtain ⟨d, hdm, p, hp, rfl⟩ := elem_iff.1 he
        rw [at_eq hd hdm hp] at hne
        obtain ⟨r, hr⟩ := mem_rank_iff.1 ⟨d, hdm, (hp : (p.1, p.2) ∈ d)⟩
        obtain ⟨l, hl⟩ := List.getElem?_of_mem hne
        exact h _ ⟨r, p.1, p.2, _, l, hr, ha r _ _ hr, hl, by rw [List.getElem?_map, hl]; rfl⟩
      · rw [val x h3, val y h4, sub_self, abs_zero] at h5
        norm_num at h5
  · rw [if_neg hlt]
    cases hx : I.ofDof hash hists n with
    | none => rfl
    | some x =>
      exfalso
      obtain ⟨r, e, ns, v, l, hh, _, h6, _⟩ := (hs x hx).1
      have := has_lt hh (List.mem_of_getElem? h6)
      unfold meant at this
      rw [if_neg (by omega)] at this
      omega

/-- The hypotheses of `of_dof_agrees`, and what comes out. -/
example : (Inst.mk gm3 (.dict [[(4, [5, 6])], [(7, [6, 8])]])).ofDof (fun ns => ns.foldl (fun a n => a * 10 + n + 1) 0)
    [[.many [0, 1], .one 2], []] (-2) = some 6 := by decide +kernel

/-- If two elements have values that differ a little, the value that is looked up and the value in the global vector are
different ones. -/
theorem of_dof_refuted :
    (Inst.mk gm3 (.dict [[(4, [5, 6])], [(7, [60000001 / 10000000, 8])]])).ofDof (fun ns => ns.foldl (fun a n => a * 10 + n + 1) 0) [] 1 =
      some 6 ∧
    (Inst.mk gm3 (.dict [[(4, [5, 6])], [(7, [60000001 / 10000000, 8])]])).gathered.map (fun V => V.getD 1 0) =
      some (60000001 / 10000000) := by decide +kernel

/-- The value of a local dof, given the same on all ranks: that of the element on the rank that has it; an error if no rank
has the element or the element has not so many values. -/
theorem of_local_dof_spec {I : Inst} (hd : Distinct I.gm) (e : ℕ) (l : ℤ) :
    (∀ r ns v, Has I.gm r e ns → I.item r e = some v →
      I.ofLocal e l = if l < 0 then (if - (v.length : ℤ) ≤ l then v[(v.length + l).toNat]? else none) else v[l.toNat]?) ∧
    ((∀ r ns, ¬ Has I.gm r e ns) → I.ofLocal e l = none) := by
  constructor
  · intro r ns v hh hv
    have hat : (if l < 0 then (if - (v.length : ℤ) ≤ l then v[(v.length + l).toNat]? else none) else v[l.toNat]?) = npAt v l := by
      unfold npAt
      by_cases h0 : l < 0
      · rw [if_pos h0, if_neg (show ¬ (0 ≤ l) by omega)]
        by_cases h3 : - (v.length : ℤ) ≤ l
        · rw [if_pos h3, if_pos (show 0 ≤ l + (v.length : ℤ) by omega), add_comm]
        · rw [if_neg h3, if_neg (show ¬ (0 ≤ l + (v.length : ℤ)) by omega)]
      · rw [if_neg h0, if_pos (show 0 ≤ l by omega)]
    rw [hat]
    unfold Inst.ofLocal
    obtain ⟨d, hr, hk⟩ := has_keys hh
    have other : ∀ (d' : Dict ℕ (List ℕ)) r', I.gm[r']? = some d' → r' ≠ r → e ∉ Dict.keys d' := by
      intro d' r' h1 h2 h3
      exact h2 (rank_unique hd h1 hr h3 hk)
    cases hx : npAt v l with
    | none =>
      cases hm : (I.gm.zipIdx.mapM fun (q : Dict ℕ (List ℕ) × ℕ) =>
        if e ∈ Dict.keys q.1 then ((I.item q.2 e).bind fun v => npAt v l).map some else some none) with
      | none => rfl
      | some ls =>
        exfalso
        obtain ⟨_, ht⟩ := mapM_getElem hm
        obtain ⟨y, _, hy⟩ := ht r (d, r) (by simp [List.getElem?_zipIdx, hr])
        dsimp only at hy
        rw [if_pos hk, hv, Option.bind_some, hx] at hy
        cases hy
    | some x =>
      obtain ⟨ls, hm⟩ := (mapM_ex (f := fun (q : Dict ℕ (List ℕ) × ℕ) =>
          if e ∈ Dict.keys q.1 then ((I.item q.2 e).bind fun v => npAt v l).map some else some none) (l := I.gm.zipIdx)).2 (by
        rintro ⟨d', r'⟩ hq
        rw [List.mem_zipIdx_iff_getElem?] at hq
        dsimp only
        by_cases he : e ∈ Dict.keys d'
        · have : r' = r := by by_contra h; exact other d' r' hq h he
          subst this
          rw [if_pos he, hv, Option.bind_some, hx]
          exact ⟨_, rfl⟩
        · rw [if_neg he]; exact ⟨_, rfl⟩)
      rw [hm, Option.bind_some]
      obtain ⟨hl, ht⟩ := mapM_getElem hm
      have hall : ∀ y ∈ ls, y = none ∨ y = some x := by
        intro y hy
        obtain ⟨i, hi⟩ := List.getElem?_of_mem hy
        have hi' : i < I.gm.length := by
          have := (List.getElem?_eq_some_iff.1 hi).1
          rw [hl] at this; simpa using this
        have hg := List.getElem?_eq_getElem hi'
        obtain ⟨z, hz, hz'⟩ := ht i (I.gm[i], i) (by simp [List.getElem?_zipIdx, hg])
        rw [hi] at hz; cases hz
        dsimp only at hz'
        by_cases he : e ∈ Dict.keys I.gm[i]
        · have : i = r := by by_contra h; exact other _ i hg h he
          subst this
          rw [if_pos he, hv, Option.bind_some, hx] at hz'
          cases hz'; exact Or.inr rfl
        · rw [if_neg he] at hz'
          cases hz'; exact Or.inl rfl
      have hin : some x ∈ ls := by
        obtain ⟨z, hz, hz'⟩ := ht r (d, r) (by simp [List.getElem?_zipIdx, hr])
        dsimp only at hz'
        rw [if_pos hk, hv, Option.bind_some, hx] at hz'
        cases hz'
        exact List.mem_of_getElem? hz
      cases hfs : ls.findSome? id with
      | none =>
        rw [List.findSome?_eq_none_iff] at hfs
        exact absurd (hfs _ hin) (by simp)
      | some y =>
        obtain ⟨a, ha1, ha2⟩ := List.exists_of_findSome?_eq_some hfs
        rcases hall a ha1 with rfl | rfl
        · simp at ha2
        · simp at ha2; rw [ha2]
  · intro hno
    unfold Inst.ofLocal
    have : (I.gm.zipIdx.mapM fun (q : Dict ℕ (List ℕ) × ℕ) =>
        if e ∈ Dict.keys q.1 then ((I.item q.2 e).bind fun v => npAt v l).map some else some none) =
        some (I.gm.zipIdx.map fun _ => none) := by
      rw [mapM_iff, List.forall₂_map_right_iff, List.forall₂_same]
      rintro ⟨d', r'⟩ hq
      rw [List.mem_zipIdx_iff_getElem?] at hq
      dsimp only
      rw [if_neg]
      intro he
      obtain ⟨ns, h⟩ := keys_has hq he
      exact hno r' ns h
    rw [this, Option.bind_some, List.findSome?_eq_none_iff]
    intro x hx
    obtain ⟨_, _, rfl⟩ := List.mem_map.1 hx
    rfl

/-- The rank that collects everything gets exactly the elements of all ranks, with their values. -/
theorem merge_spec {I : Inst} (hd : Distinct I.gm) (e : ℕ) :
    (∀ r ns, Has I.gm r e ns → Dict.get I.merge e = I.item r e) ∧
    ((∀ r ns, ¬ Has I.gm r e ns) → Dict.get I.merge e = none) := by
  have inner : ∀ (r : ℕ) (d : Dict ℕ (List ℕ)) (D : Dict ℕ (List ℚ)),
      Dict.get (d.foldl (fun D p => Dict.put D p.1 ((I.item r p.1).getD [])) D) e =
        if e ∈ Dict.keys d then some ((I.item r e).getD []) else Dict.get D e := by
    intro r d
    induction d with
    | nil => intro D; simp [Dict.keys]
    | cons p d ih =>
      intro D
      rw [List.foldl_cons, ih, Dict.get_put]
      by_cases h1 : e ∈ Dict.keys d
      · rw [if_pos h1, if_pos (by simp only [Dict.keys, List.map_cons, List.mem_cons]; exact Or.inr h1)]
      · rw [if_neg h1]
        by_cases h2 : e = p.1
        · subst h2
          simp [Dict.keys]
        · have h3 : e ∉ Dict.keys (p :: d) := by
            simp only [Dict.keys, List.map_cons, List.mem_cons, not_or]
            exact ⟨h2, h1⟩
          rw [if_neg h3]
          simp [h2]
  have outer : ∀ (L : List (Dict ℕ (List ℕ) × ℕ)) (D : Dict ℕ (List ℚ)),
      (∀ q ∈ L, e ∉ Dict.keys q.1) →
      Dict.get (L.foldl (fun D q => q.1.foldl (fun D p => Dict.put D p.1 ((I.item q.2 p.1).getD [])) D) D) e = Dict.get D e := by
    intro L
    induction L with
    | nil => intro D _; rfl
    | cons q L ih =>
      intro D h
      rw [List.foldl_cons, ih _ (fun a ha => h a (by simp [ha])), inner, if_neg (h q (by simp))]
  unfold Inst.merge
  constructor
  · intro r ns hh
    obtain ⟨d, hr, hk⟩ := has_keys hh
    have hm : (d, r) ∈ I.gm.zipIdx := by rw [List.mem_zipIdx_iff_getElem?]; exact hr
    obtain ⟨A, B, hAB⟩ := List.append_of_mem hm
    rw [hAB, List.foldl_append, List.foldl_cons, outer, inner, if_pos hk, data_item hd hh]
    · rfl
    · rintro ⟨d', r'⟩ hq he
      have hz : I.gm.zipIdx[A.length + 1 + (B.idxOf (d', r'))]? = some (d', r') := by
        rw [hAB, List.getElem?_append_right (by omega)]
        rw [show A.length + 1 + B.idxOf (d', r') - A.length = B.idxOf (d', r') + 1 by omega, List.getElem?_cons_succ]
        exact List.getElem?_idxOf hq
      have hz0 : I.gm.zipIdx[A.length]? = some (d, r) := by
        rw [hAB, List.getElem?_append_right (by omega), Nat.sub_self]; rfl
      have e1 : r' = A.length + 1 + B.idxOf (d', r') := by
        rw [List.getElem?_zipIdx, Option.map_eq_some_iff] at hz
        obtain ⟨_, _, h⟩ := hz
        have := congrArg Prod.snd h
        simp at this; omega
      have e2 : r = A.length := by
        rw [List.getElem?_zipIdx, Option.map_eq_some_iff] at hz0
        obtain ⟨_, _, h⟩ := hz0
        have := congrArg Prod.snd h
        simp at this; omega
      have hq' : I.gm[r']? = some d' := by
        have : (d', r') ∈ I.gm.zipIdx := by rw [hAB]; simp [hq]
        rw [List.mem_zipIdx_iff_getElem?] at this
        exact this
      have := rank_unique hd hr hq' hk he
      omega
  · intro hno
    rw [outer]
    · rfl
    · rintro ⟨d', r'⟩ hq he
      rw [List.mem_zipIdx_iff_getElem?] at hq
      obtain ⟨ns, h⟩ := keys_has hq he
      exact hno r' ns h

example : (Inst.mk gm3 (.dict [[(4, [5, 6])], [(7, [6, 8])]])).ofLocal 7 (-1) = some 8 ∧
    (Inst.mk gm3 (.dict [[(4, [5, 6])], [(7, [6, 8])]])).ofLocal 7 2 = none ∧
    (Inst.mk gm3 (.dict [[(4, [5, 6])], [(7, [6, 8])]])).ofLocal 5 0 = none ∧
    (Inst.mk gm3 (.dict [[(4, [5, 6])], [(7, [6, 8])]])).merge = [(4, [5, 6]), (2, []), (7, [6, 8])] := by decide +kernel

/-! ### C146 -/

/-- The values of the local dofs `off, …, off + n - 1`. -/
def block (c : List ℚ) (off n : ℕ) : List ℚ := (List.range n).map fun i => c.getD (off + i) 0

/-- The components of an inner 1-form by the local numbering (`msehtt/static/space/local_numbering/Lambda/ln_m2n2k1.py:111-125`):
first the `px * (py + 1)` dofs of dx, then the `(px + 1) * py` dofs of dy. -/
def innerParts (px py : ℕ) (c : List ℚ) : List (List ℚ) := [block c 0 (px * (py + 1)), block c (px * (py + 1)) ((px + 1) * py)]

/-- The components of an outer 1-form by the local numbering (`ln_m2n2k1.py:28-42`): first the `(px + 1) * py` dofs of dy, then
the `px * (py + 1)` dofs of dx. -/
def outerParts (px py : ℕ) (c : List ℚ) : List (List ℚ) := [block c 0 ((px + 1) * py), block c ((px + 1) * py) (px * (py + 1))]

lemma block_take (c : List ℚ) (n m : ℕ) (h : c.length = n + m) : c.take n = block c 0 n ∧ (c.drop n).take m = block c n m := by
  unfold block
  constructor
  · apply List.ext_getElem
    · simp; omega
    · intro i h1 h2
      simp only [List.getElem_take, List.getElem_map, List.getElem_range, zero_add]
      exact (List.getD_eq_getElem _ _ _).symm
  · apply List.ext_getElem
    · simp; omega
    · intro i h1 h2
      simp only [List.getElem_take, List.getElem_drop, List.getElem_map, List.getElem_range]
      exact (List.getD_eq_getElem _ _ _).symm

/-- The components of an inner 1-form are its dx and dy values, for all degrees. -/
theorem components_inner (px py : ℕ) (c : List ℚ) (h : c.length = px * (py + 1) + (px + 1) * py) :
    components px py c = innerParts px py c := by
  obtain ⟨h1, h2⟩ := block_take c _ _ h
  unfold components numComponents innerParts
  simp only [cut]
  rw [h1, h2]

/-- The components of an outer 1-form are its dy and dx values exactly if the degrees in both directions are the same. -/
theorem components_outer_partial (px py : ℕ) (c : List ℚ) (h : c.length = (px + 1) * py + px * (py + 1)) :
    components px py c = outerParts px py c ↔ px = py := by
  obtain ⟨h1, h2⟩ := block_take c (px * (py + 1)) ((px + 1) * py) (by rw [h, add_comm])
  unfold components numComponents outerParts
  simp only [cut]
  rw [h1, h2]
  constructor
  · intro he
    have := congrArg List.length (List.cons.inj he).1
    unfold block at this
    simp only [List.length_map, List.length_range] at this
    rw [mul_add, add_mul] at this
    omega
  · rintro rfl
    rw [mul_comm (px + 1) px]

/-- An outer 1-form of degree 1 and 2: the first component gets three of the four values. -/
theorem components_outer_refuted :
    components 1 2 [1, 2, 3, 4, 5, 6, 7] = [[1, 2, 3], [4, 5, 6, 7]] ∧
    outerParts 1 2 [1, 2, 3, 4, 5, 6, 7] = [[1, 2, 3, 4], [5, 6, 7]] ∧
    components 1 2 [1, 2, 3, 4, 5, 6, 7] = innerParts 1 2 [1, 2, 3, 4, 5, 6, 7] := by decide +kernel

end Phyem.Instant
