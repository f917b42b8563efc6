import Verif.Instant.Lemmas
import Verif.Chaining.Props2

/-!
# C143, C144: what is accepted as a cochain, and cochains that agree on shared dofs
-/

namespace Phyem.Instant

open Phyem Phyem.Chaining

/-! ### C143 -/

/-- A dictionary on each rank is accepted exactly if each of its elements is an element of the rank, with as many values
as dofs, and the elements that are left out have no dofs. -/
theorem receive_dict_iff {g : DGM} (hd : Distinct g) {cs : List (Dict ℕ (List ℚ))} (hl : cs.length = g.length) :
    (∃ I, receive g (.dict cs) = some I) ↔ ∀ r c, cs[r]? = some c →
      (∀ e v, (e, v) ∈ c → ∃ ns, Has g r e ns ∧ v.length = ns.length) ∧
      ∀ e ns, Has g r e ns → e ∉ Dict.keys c → ns = [] := by
  have key : ∀ (r : ℕ) d c, g[r]? = some d → (dictOK d c = true ↔
      (∀ e v, (e, v) ∈ c → ∃ ns, Has g r e ns ∧ v.length = ns.length) ∧
      ∀ e ns, Has g r e ns → e ∉ Dict.keys c → ns = []) := by
    intro r d c hr
    unfold dictOK
    rw [Bool.and_eq_true, List.all_eq_true, List.all_eq_true]
    refine and_congr ⟨fun h e v hv => ?_, fun h p hp => ?_⟩ ⟨fun h e ns hh hk => ?_, fun h p hp => ?_⟩
    · have := h (e, v) hv
      unfold rowOK at this
      cases hg : Dict.get d e with
      | none => simp [hg] at this
      | some ns => exact ⟨ns, ⟨d, hr, Dict.get_mem d e ns hg⟩, by simpa [hg] using this⟩
    · obtain ⟨ns, ⟨d', h1, h2⟩, h3⟩ := h p.1 p.2 hp
      rw [hr] at h1; cases h1
      unfold rowOK
      rw [Dict.get_of_mem d (nodup_rank hd hr) p.1 ns h2]
      simpa using h3
    · obtain ⟨d', h1, h2⟩ := hh
      rw [hr] at h1; cases h1
      have := h (e, ns) h2
      rw [← Dict.get_eq_none] at hk
      simpa [hk] using this
    · by_cases hk : p.1 ∈ Dict.keys c
      · rw [← Dict.get_isSome] at hk
        simp [hk]
      · have := h p.1 p.2 ⟨d, hr, hp⟩ hk
        simp [this]
  have e : (∃ I, receive g (.dict cs) = some I) ↔ (g.zip cs).all (fun q => dictOK q.1 q.2) = true := by
    unfold receive
    dsimp only
    constructor
    · rintro ⟨I, h⟩
      by_contra hn
      rw [if_neg (fun hh => hn hh.2 : ¬ (cs.length = g.length ∧ _))] at h
      cases h
    · intro h
      exact ⟨_, if_pos ⟨hl, h⟩⟩
  rw [e, List.all_eq_true]
  constructor
  · intro h r c hc
    have hr : r < g.length := by rw [← hl]; exact (List.getElem?_eq_some_iff.1 hc).1
    have hg := List.getElem?_eq_getElem hr
    exact (key r g[r] c hg).1 (h (g[r], c) (List.mem_of_getElem? (i := r) (List.getElem?_zip_eq_some.2 ⟨hg, hc⟩)))
  · rintro h ⟨d, c⟩ hq
    obtain ⟨r, hr⟩ := List.getElem?_of_mem hq
    rw [List.getElem?_zip_eq_some] at hr
    exact (key r d c hr.1).2 (h r c hr.2)

/-- An accepted dictionary is what one reads, and all elements have as many values as dofs. -/
theorem receive_dict_item {g : DGM} (hd : Distinct g) {cs : List (Dict ℕ (List ℚ))} {I : Inst}
    (h : receive g (.dict cs) = some I) :
    (∀ r e ns c, Has g r e ns → cs[r]? = some c → I.item r e = some ((Dict.get c e).getD [])) ∧ Full I := by
  have hl : cs.length = g.length ∧ I = ⟨g, .dict cs⟩ := by
    unfold receive at h
    dsimp only at h
    by_cases hc : cs.length = g.length ∧ (g.zip cs).all (fun q => dictOK q.1 q.2) = true
    · rw [if_pos hc] at h
      cases h; exact ⟨hc.1, rfl⟩
    · rw [if_neg hc] at h; cases h
  obtain ⟨hl, rfl⟩ := hl
  have h1 : ∀ r e ns c, Has g r e ns → cs[r]? = some c →
      (Inst.mk g (.dict cs)).item r e = some ((Dict.get c e).getD []) := by
    intro r e ns c hh hc
    obtain ⟨d, hr, hk⟩ := has_keys hh
    unfold Inst.item
    dsimp only
    rw [hr, Option.bind_some, if_pos hk, hc, Option.bind_some]
  refine ⟨h1, ?_⟩
  intro r e ns hh
  obtain ⟨d, hr, hk⟩ := has_keys hh
  have hr' : r < cs.length := by rw [hl]; exact (List.getElem?_eq_some_iff.1 hr).1
  have hc := List.getElem?_eq_getElem hr'
  obtain ⟨h2, h3⟩ := (receive_dict_iff hd hl).1 ⟨_, h⟩ r _ hc
  refine ⟨_, h1 r e ns _ hh hc, ?_⟩
  cases hg : Dict.get cs[r] e with
  | none =>
    rw [Dict.get_eq_none] at hg
    rw [h3 e ns hh hg]; rfl
  | some v =>
    obtain ⟨ns', hh', hv⟩ := h2 e v (Dict.get_mem _ _ _ hg)
    obtain ⟨_, rfl⟩ := has_unique hd hh hh'
    exact hv

/-- A dictionary made for all elements is accepted if all of them have as many values as dofs. -/
lemma receive_overAll {g : DGM} (hd : Distinct g) {f : ℕ → ℕ × List ℕ → Option (List ℚ)}
    {cs : List (Dict ℕ (List ℚ))} (h : overAll g f = some cs)
    (hf : ∀ r e ns v, Has g r e ns → f r (e, ns) = some v → v.length = ns.length) :
    receive g (.dict cs) = some ⟨g, .dict cs⟩ := by
  have := (receive_dict_iff hd (overAll_spec h).1).2 (by
    intro r c hc
    have hr : r < g.length := by rw [← (overAll_spec h).1]; exact (List.getElem?_eq_some_iff.1 hc).1
    have hg := List.getElem?_eq_getElem hr
    obtain ⟨c', hc', hk, hv⟩ := (overAll_spec h).2 r _ hg
    rw [hc] at hc'; cases hc'
    constructor
    · intro e v hev
      have he : e ∈ Dict.keys g[r] := by rw [← hk]; exact List.mem_map.2 ⟨_, hev, rfl⟩
      obtain ⟨ns, hns⟩ := keys_has hg he
      refine ⟨ns, hns, ?_⟩
      obtain ⟨d, h1, h2⟩ := hns
      rw [hg] at h1; cases h1
      obtain ⟨w, h3, h4⟩ := hv _ h2
      have nc : (Dict.keys c).Nodup := by rw [hk]; exact nodup_rank hd hg
      have a := Dict.get_of_mem c nc e v hev
      have b := Dict.get_of_mem c nc e w h4
      rw [a] at b; cases b
      exact hf r e ns v ⟨_, hg, h2⟩ h3
    · intro e ns hh he
      obtain ⟨d, h1, h2⟩ := has_keys hh
      rw [hg] at h1; cases h1
      rw [hk] at he
      exact absurd h2 he)
  obtain ⟨J, hJ⟩ := this
  rw [hJ]
  unfold receive at hJ
  dsimp only at hJ
  split_ifs at hJ
  exact hJ.symm

/-- Two matrices with the same numbers of local dofs compare equal exactly if on all ranks they have the same elements with
the same numbers. -/
theorem eqAll_iff {h g : DGM} (hh : Distinct h) (hg : Distinct g) (hl : h.length = g.length)
    (hlen : ∀ r e ns ns', Has h r e ns → Has g r e ns' → ns.length = ns'.length) :
    eqAll h g = some true ↔ ∀ r e ns, Has h r e ns ↔ Has g r e ns := by
  have rank : ∀ (r : ℕ) a b, h[r]? = some a → g[r]? = some b →
      ∃ t, eqRank a b = some t ∧ (t = true ↔ ∀ e ns, Has h r e ns ↔ Has g r e ns) := by
    intro r a b ha hb
    have na := nodup_rank hh ha
    have nb := nodup_rank hg hb
    obtain ⟨t, h1, h2⟩ := eq_partial na nb (by
      intro e x y hx hy
      exact hlen r e x y ⟨a, ha, Dict.get_mem _ _ _ hx⟩ ⟨b, hb, Dict.get_mem _ _ _ hy⟩)
    refine ⟨t, h1, h2.trans ?_⟩
    have ea : ∀ e ns, Has h r e ns ↔ Dict.get a e = some ns := by
      intro e ns
      constructor
      · rintro ⟨a', h3, h4⟩
        rw [ha] at h3; cases h3
        exact Dict.get_of_mem a na e ns h4
      · intro h3; exact ⟨a, ha, Dict.get_mem _ _ _ h3⟩
    have eb : ∀ e ns, Has g r e ns ↔ Dict.get b e = some ns := by
      intro e ns
      constructor
      · rintro ⟨b', h3, h4⟩
        rw [hb] at h3; cases h3
        exact Dict.get_of_mem b nb e ns h4
      · intro h3; exact ⟨b, hb, Dict.get_mem _ _ _ h3⟩
    constructor
    · intro h3 e ns; rw [ea, eb, h3]
    · intro h3 e
      apply Option.ext
      intro ns
      rw [← ea, ← eb]; exact h3 e ns
  unfold eqAll
  obtain ⟨bs, hbs⟩ := (mapM_ex (f := fun p : Dict ℕ (List ℕ) × Dict ℕ (List ℕ) => eqRank p.1 p.2) (l := h.zip g)).2 (by
    rintro ⟨a, b⟩ hp
    obtain ⟨r, hr⟩ := List.getElem?_of_mem hp
    rw [List.getElem?_zip_eq_some] at hr
    obtain ⟨t, ht, _⟩ := rank r a b hr.1 hr.2
    exact ⟨t, ht⟩)
  obtain ⟨h1, h2⟩ := mapM_getElem hbs
  rw [hbs, Option.map_some, Option.some.injEq, List.all_eq_true]
  constructor
  · intro hall r e ns
    by_cases hr : r < h.length
    · have ha := List.getElem?_eq_getElem hr
      have hb := List.getElem?_eq_getElem (hl ▸ hr)
      obtain ⟨y, hy, hy'⟩ := h2 r (h[r], g[r]) (List.getElem?_zip_eq_some.2 ⟨ha, hb⟩)
      obtain ⟨t, ht, ht'⟩ := rank r _ _ ha hb
      dsimp only at hy'
      rw [ht] at hy'; cases hy'
      exact ht'.1 (hall _ (List.mem_of_getElem? hy)) e ns
    · constructor
      · rintro ⟨d, h3, _⟩; exact absurd (List.getElem?_eq_some_iff.1 h3).1 hr
      · rintro ⟨d, h3, _⟩; exact absurd (hl ▸ (List.getElem?_eq_some_iff.1 h3).1) hr
  · intro hall y hy
    obtain ⟨r, hr⟩ := List.getElem?_of_mem hy
    have hr' : r < (h.zip g).length := by rw [← h1]; exact (List.getElem?_eq_some_iff.1 hr).1
    have hz := List.getElem?_eq_getElem hr'
    obtain ⟨y', hy', he⟩ := h2 r _ hz
    rw [hr] at hy'; cases hy'
    have hz' := List.getElem?_zip_eq_some.1 (hz : (h.zip g)[r]? = some ((h.zip g)[r].1, (h.zip g)[r].2))
    obtain ⟨t, ht, ht'⟩ := rank r _ _ hz'.1 hz'.2
    rw [ht] at he; cases he
    exact ht'.2 fun e ns => hall r e ns

/-- A local vector of a numbering with the same numbers of local dofs is accepted exactly if the numbering is the same;
then one reads its values. A global vector on the same numbering is accepted, and each dof gets the value of its number;
on another numbering, or without one, it is refused. -/
theorem receive_vectors {h g : DGM} (hh : Distinct h) (hg : Distinct g) (hl : h.length = g.length)
    (hlen : ∀ r e ns ns', Has h r e ns → Has g r e ns' → ns.length = ns'.length) (f : ℕ → List ℚ) (V : List ℚ)
    (hV : V.length = h.num) :
    (∀ I, receive g (.vec h f) = some I ↔ (∀ r e ns, Has h r e ns ↔ Has g r e ns) ∧ I = ⟨g, .call f⟩) ∧
    ((∃ I, receive g (.gathered (some h) V) = some I) ↔ ∀ r e ns, Has h r e ns ↔ Has g r e ns) ∧
    (∀ I, receive g (.gathered (some h) V) = some I → I.gm = g ∧ Agrees I fun n => V.getD n 0) ∧
    receive g (.gathered none V) = none ∧ receive g .other = none := by
  have key := eqAll_iff hh hg hl hlen
  refine ⟨?_, ?_, ?_, rfl, rfl⟩
  · intro I
    rw [← key]
    unfold receive
    dsimp only
    by_cases he : eqAll h g = some true
    · rw [if_pos he]; simp [he, eq_comm]
    · rw [if_neg he]; simp [he]
  · rw [← key]
    unfold receive
    dsimp only
    by_cases he : eqAll h g = some true
    · rw [if_pos he]
      obtain ⟨cs, hcs⟩ := (overAll_ex (g := g) (f := fun _ p => pickM V p.2)).2 (by
        intro r e ns hh'
        refine ⟨_, pickM_ok ?_⟩
        intro n hn
        rw [hV]
        exact has_lt ((key.1 he r e ns).2 hh') hn)
      rw [hcs]
      simp [he]
    · rw [if_neg he]; simp [he]
  · intro I hI
    unfold receive at hI
    dsimp only at hI
    by_cases he : eqAll h g = some true
    · rw [if_pos he, Option.map_eq_some_iff] at hI
      obtain ⟨cs, hcs, rfl⟩ := hI
      refine ⟨rfl, ?_⟩
      intro r e ns hh'
      rw [item_overAll hg hcs hh']
      apply pickM_ok
      intro n hn
      rw [hV]
      exact has_lt ((key.1 he r e ns).2 hh') hn
    · rw [if_neg he] at hI; cases hI

/-- Two elements on two ranks that share a dof, and one element without dofs. -/
def gm3 : DGM := [[(4, [0, 1]), (2, [])], [(7, [1, 2])]]

example : Distinct gm3 := by unfold Distinct; decide +kernel

/-- What the checks say about this mesh. -/
example : (receive gm3 (.dict [[(4, [1, 2])], [(7, [2, 3])]])).isSome = true ∧
    (receive gm3 (.dict [[(4, [1])], [(7, [2, 3])]])).isSome = false ∧
    (receive gm3 (.dict [[(7, [1, 2])], [(7, [2, 3])]])).isSome = false ∧
    (receive gm3 (.dict [[(2, [])], [(7, [2, 3])]])).isSome = false ∧
    ((receive gm3 (.gathered (some gm3) [5, 6, 7])).bind fun I => I.item 1 7) = some [6, 7] ∧
    (receive gm3 (.vec [[(4, [0, 1]), (2, [])], [(7, [2, 1])]] fun _ => [])).isSome = false := by decide +kernel

/-- The number of values is only checked for dictionaries. A local vector of another numbering, where an element has no
dofs, is accepted where the element has one; then the element has no value for its dof. -/
theorem receive_length_refuted :
    ∃ (h g : DGM) (f : ℕ → List ℚ) (I : Inst), Distinct h ∧ Distinct g ∧
      (∀ r e ns, Has h r e ns → (f e).length = ns.length) ∧ receive g (.vec h f) = some I ∧ ¬ Full I := by
  refine ⟨[[(0, []), (1, [0])]], [[(0, [1]), (1, [0])]], fun e => if e = 1 then [3] else [], _, by unfold Distinct; decide +kernel, by unfold Distinct; decide +kernel, ?_, rfl, ?_⟩
  · rintro r e ns ⟨d, h1, h2⟩
    rcases r with _ | r
    · simp only [List.length_cons, List.length_nil, Nat.zero_add, Nat.lt_one_iff, List.getElem?_cons_zero, Option.some.injEq] at h1
      subst h1
      simp only [List.mem_cons, Prod.mk.injEq, List.not_mem_nil, or_false] at h2
      rcases h2 with ⟨rfl, rfl⟩ | ⟨rfl, rfl⟩ <;> rfl
    · simp at h1
  · intro hf
    obtain ⟨v, h1, h2⟩ := hf 0 0 [1] ⟨_, rfl, by simp⟩
    have : (Inst.mk [[(0, [1]), (1, [0])]] (.call fun e => if e = 1 then [3] else [])).item 0 0 = some [] := by
      decide +kernel
    rw [this] at h1
    cases h1
    cases h2

/-! ### C144 -/

/-- The global vector of a cochain: it exists exactly if all elements have as many values as dofs; each number has the value
of its last place, and zero if there is none. -/
theorem gathered_spec {I : Inst} (hd : Distinct I.gm) :
    ((∃ V, I.gathered = some V) ↔ Full I) ∧ ∀ V, I.gathered = some V → V.length = I.gm.num ∧
      ∀ n < I.gm.num, V.getD n 0 = (lastValue (places I) n).getD 0 := by
  unfold Inst.gathered
  by_cases hf : Full I
  · rw [assemble_last hd hf]
    refine ⟨by simp [hf], ?_⟩
    intro V hV
    cases hV
    refine ⟨by simp, ?_⟩
    intro n hn
    rw [List.getD_eq_getElem _ _ (by simpa using hn)]
    simp
  · rw [assemble_none hd hf]
    simp [hf]

lemma agrees_full {I : Inst} {F : ℕ → ℚ} (h : Agrees I F) : Full I := by
  intro r e ns hh
  exact ⟨_, h r e ns hh, by simp⟩

lemma agrees_last {I : Inst} {F : ℕ → ℚ} (h : Agrees I F) {r e : ℕ} {ns : List ℕ} (hh : Has I.gm r e ns) {n : ℕ}
    (hn : n ∈ ns) : lastValue (places I) n = some (F n) := by
  have all : ∀ x ∈ places I, x.2 = F x.1 := by
    intro x hx
    obtain ⟨r', e', ns', v, l, h1, h2, h3, h4⟩ := mem_places.1 hx
    rw [h r' e' ns' h1] at h2
    cases h2
    rw [List.getElem?_map, h3, Option.map_some] at h4
    exact (Option.some.inj h4).symm
  obtain ⟨l, hl⟩ := List.getElem?_of_mem hn
  have hm : (n, F n) ∈ places I := mem_places.2 ⟨r, e, ns, ns.map F, l, hh, h r e ns hh, hl, by simp [hl]⟩
  obtain ⟨y, hy⟩ := lastValue_some hm
  rw [hy, ← all _ (lastValue_mem hy)]

/-- `homogenous` works exactly if all elements have as many values as dofs; afterwards all local dofs with the same number
have the same value: the value of the last place of this number, in the order of ranks, elements and dofs. -/
theorem homogenous_spec {I : Inst} (hd : Distinct I.gm) :
    ((∃ J, I.homogenous = some J) ↔ Full I) ∧ ∀ J, I.homogenous = some J → J.gm = I.gm ∧
      ∃ F, Agrees J F ∧ ∀ r e ns n, Has I.gm r e ns → n ∈ ns → lastValue (places I) n = some (F n) := by
  unfold Inst.homogenous
  by_cases hf : Full I
  · rw [assemble_last hd hf, Option.bind_some]
    set V := (List.range I.gm.num).map fun n => (lastValue (places I) n).getD 0 with hV
    have hl : V.length = I.gm.num := by simp [hV]
    obtain ⟨cs, hcs⟩ := (overAll_ex (g := I.gm) (f := fun _ p => pickM V p.2)).2 (by
      intro r e ns hh
      exact ⟨_, pickM_ok fun n hn => by rw [hl]; exact has_lt hh hn⟩)
    rw [hcs, Option.bind_some]
    have hit : ∀ r e ns, Has I.gm r e ns →
        (Inst.mk I.gm (.dict cs)).item r e = some (ns.map fun n => V.getD n 0) := by
      intro r e ns hh
      rw [item_overAll hd hcs hh]
      exact pickM_ok fun n hn => by rw [hl]; exact has_lt hh hn
    have hex : receive I.gm (.dict cs) = some ⟨I.gm, .dict cs⟩ := by
      apply receive_overAll hd hcs
      intro r e ns v hh hv
      rw [pickM_ok fun n hn => by rw [hl]; exact has_lt hh hn] at hv
      cases hv
      simp
    rw [hex]
    refine ⟨by simp [hf], ?_⟩
    intro J hJ
    cases hJ
    refine ⟨rfl, fun n => V.getD n 0, hit, ?_⟩
    intro r e ns n hh hn
    have hnum := has_lt hh hn
    obtain ⟨l, hl'⟩ := List.getElem?_of_mem hn
    obtain ⟨v, hv, hvl⟩ := hf r e ns hh
    have hlt : l < v.length := by rw [hvl]; exact (List.getElem?_eq_some_iff.1 hl').1
    obtain ⟨y, hy⟩ := lastValue_some (mem_places.2 ⟨r, e, ns, v, l, hh, hv, hl', List.getElem?_eq_getElem hlt⟩ :
      (n, v[l]) ∈ places I)
    rw [hy]
    congr 1
    have : V.getD n 0 = V[n]'(by rw [hl]; exact hnum) := List.getD_eq_getElem _ _ _
    dsimp only
    rw [this]
    simp [hV, hy]
  · rw [assemble_none hd hf]
    simp [hf]

/-- A cochain whose values already agree is not changed; in particular doing it again changes nothing. -/
theorem homogenous_keeps {I : Inst} (hd : Distinct I.gm) {F : ℕ → ℚ} (h : Agrees I F) :
    ∃ J, I.homogenous = some J ∧ J.gm = I.gm ∧ ∀ r e, J.item r e = I.item r e := by
  obtain ⟨J, hJ⟩ := (homogenous_spec hd).1.2 (agrees_full h)
  obtain ⟨hg, G, h1, h2⟩ := (homogenous_spec hd).2 J hJ
  refine ⟨J, hJ, hg, ?_⟩
  intro r e
  by_cases hh : ∃ ns, Has I.gm r e ns
  · obtain ⟨ns, hh⟩ := hh
    rw [h1 r e ns (by rw [hg]; exact hh), h r e ns hh]
    congr 1
    apply List.map_congr_left
    intro n hn
    have := h2 r e ns n hh hn
    rw [agrees_last h hh hn] at this
    exact (Option.some.inj this).symm
  · have a : I.item r e = none := by
      cases hx : I.item r e with
      | none => rfl
      | some v => exact absurd (item_has hx) hh
    have b : J.item r e = none := by
      cases hx : J.item r e with
      | none => rfl
      | some v =>
        have := item_has hx
        rw [hg] at this
        exact absurd this hh
    rw [a, b]

/-- From a global vector to a cochain and back: nothing changes if every number occurs. From a cochain to its global vector
and back: this is what `homogenous` does. -/
theorem gathered_roundtrip {g : DGM} (hd : Distinct g) (hc : Contiguous g.nums g.num) :
    (∀ V I, V.length = g.num → receive g (.gathered (some g) V) = some I → I.gathered = some V) ∧
    ∀ (I : Inst) (V : List ℚ), I.gm = g → I.gathered = some V → ∃ J K : Inst, I.homogenous = some J ∧
      receive g (.gathered (some g) V) = some K ∧ K.gm = J.gm ∧ ∀ r e, K.item r e = J.item r e := by
  have hlen : ∀ r e ns ns', Has g r e ns → Has g r e ns' → ns.length = ns'.length := by
    intro r e ns ns' h1 h2
    rw [(has_unique hd h1 h2).2]
  constructor
  · intro V I hV hI
    obtain ⟨hg, ha⟩ := (receive_vectors hd hd rfl hlen (fun _ => []) V hV).2.2.1 I hI
    have hd' : Distinct I.gm := by rw [hg]; exact hd
    obtain ⟨W, hW⟩ := (gathered_spec hd').1.2 (agrees_full ha)
    obtain ⟨h1, h2⟩ := (gathered_spec hd').2 W hW
    rw [hW]
    congr 1
    rw [hg] at h1 h2
    apply List.ext_getElem (by rw [h1, hV])
    intro n hn hn'
    have := h2 n (by rw [← h1]; exact hn)
    have hx := (hc n).2 (by rw [← h1]; exact hn)
    obtain ⟨e, he, hne⟩ := (mem_nums hd).1 hx
    obtain ⟨d, hdm, p, hp, rfl⟩ := elem_iff.1 he
    rw [at_eq hd hdm hp] at hne
    obtain ⟨r, hr⟩ := mem_rank_iff.1 ⟨d, hdm, (hp : (p.1, p.2) ∈ d)⟩
    rw [agrees_last ha (by rw [hg]; exact hr) hne, Option.getD_some] at this
    have a : W.getD n 0 = W[n] := List.getD_eq_getElem _ _ hn
    have b : V.getD n 0 = V[n] := List.getD_eq_getElem _ _ hn'
    rw [← a, ← b]; exact this
  · rintro I V rfl hV
    obtain ⟨h1, h2⟩ := (gathered_spec hd).2 V hV
    have hf := (gathered_spec hd).1.1 ⟨V, hV⟩
    obtain ⟨J, hJ⟩ := (homogenous_spec hd).1.2 hf
    obtain ⟨hg, G, h3, h4⟩ := (homogenous_spec hd).2 J hJ
    obtain ⟨K, hK⟩ := (receive_vectors hd hd rfl hlen (fun _ => []) V h1).2.1.2 fun _ _ _ => Iff.rfl
    obtain ⟨hg', ha⟩ := (receive_vectors hd hd rfl hlen (fun _ => []) V h1).2.2.1 K hK
    refine ⟨J, K, hJ, hK, by rw [hg, hg'], ?_⟩
    intro r e
    by_cases hh : ∃ ns, Has I.gm r e ns
    · obtain ⟨ns, hh⟩ := hh
      rw [ha r e ns (by rw [hg']; exact hh), h3 r e ns (by rw [hg]; exact hh)]
      congr 1
      apply List.map_congr_left
      intro n hn
      rw [h2 n (has_lt hh hn), h4 r e ns n hh hn]
      rfl
    · have a : K.item r e = none := by
        cases hx : K.item r e with
        | none => rfl
        | some v => have := item_has hx; rw [hg'] at this; exact absurd this hh
      have b : J.item r e = none := by
        cases hx : J.item r e with
        | none => rfl
        | some v => have := item_has hx; rw [hg] at this; exact absurd this hh
      rw [a, b]

/-- A cochain with different values for the shared dof: the value of the last rank wins. -/
example : ((Inst.mk gm3 (.dict [[(4, [1, 2])], [(7, [9, 3])]])).homogenous.bind fun J => J.item 0 4) = some [1, 9] ∧
    (Inst.mk gm3 (.dict [[(4, [1, 2])], [(7, [9, 3])]])).gathered = some [1, 9, 3] ∧
    (Inst.mk gm3 (.dict [[(4, [1, 2])], [(7, [9])]])).gathered = none := by decide +kernel

example : Contiguous gm3.nums gm3.num := by
  intro v
  rw [show gm3.nums = [0, 1, 1, 2] by decide +kernel, show gm3.num = 3 by decide +kernel]
  simp only [List.mem_cons, List.not_mem_nil, or_false]
  omega

end Phyem.Instant
