import Verif.Instant.Receive

/-!
# C147: arithmetic with cochains
-/

namespace Phyem.Instant

open Phyem Phyem.Chaining

/-- A local vector that was made reads as the dictionary on the numbering of the cochain. -/
def vecItem (g : DGM) (cs : List (Dict ℕ (List ℚ))) (r e : ℕ) : Option (List ℚ) := (Inst.mk g (.dict cs)).item r e

lemma newVec_ok {g : DGM} (hd : Distinct g) {f : ℕ → ℕ × List ℕ → Option (List ℚ)}
    {cs : List (Dict ℕ (List ℚ))} (h : overAll g f = some cs) :
    newVec g cs = some cs ↔ ∀ r e ns v, Has g r e ns → f r (e, ns) = some v → v.length = ns.length := by
  obtain ⟨hl, hs⟩ := overAll_spec h
  constructor
  · intro hn r e ns v hh hv
    unfold newVec at hn
    by_cases hc : ((g.zip cs).all fun q => q.2.all (rowOK q.1)) = true
    · obtain ⟨d, h1, h2⟩ := hh
      obtain ⟨c, h3, h4, h5⟩ := hs r d h1
      obtain ⟨w, h6, h7⟩ := h5 _ h2
      rw [hv] at h6; cases h6
      rw [List.all_eq_true] at hc
      have := hc (d, c) (List.mem_of_getElem? (i := r) (List.getElem?_zip_eq_some.2 ⟨h1, h3⟩))
      rw [List.all_eq_true] at this
      have := this _ h7
      unfold rowOK at this
      dsimp only at this
      rw [Dict.get_of_mem d (nodup_rank hd h1) e ns h2] at this
      simpa using this
    · rw [if_neg hc] at hn; cases hn
  · intro hf
    unfold newVec
    rw [if_pos]
    rw [List.all_eq_true]
    rintro ⟨d, c⟩ hq
    obtain ⟨r, hr⟩ := List.getElem?_of_mem hq
    rw [List.getElem?_zip_eq_some] at hr
    rw [List.all_eq_true]
    rintro ⟨e, v⟩ hp
    obtain ⟨c', h3, h4, h5⟩ := hs r d hr.1
    rw [hr.2] at h3; cases h3
    have he : e ∈ Dict.keys d := by rw [← h4]; exact List.mem_map.2 ⟨_, hp, rfl⟩
    obtain ⟨ns, d', h6, h7⟩ := keys_has hr.1 he
    rw [hr.1] at h6; cases h6
    obtain ⟨w, h8, h9⟩ := h5 _ h7
    have nc : (Dict.keys c).Nodup := by rw [h4]; exact nodup_rank hd hr.1
    have a := Dict.get_of_mem c nc e v hp
    have b := Dict.get_of_mem c nc e w h9
    rw [a] at b; cases b
    unfold rowOK
    dsimp only
    rw [Dict.get_of_mem d (nodup_rank hd hr.1) e ns h7]
    simpa using hf r e ns v ⟨d, hr.1, h7⟩ h8

lemma newVec_eq {g : DGM} {cs cs' : List (Dict ℕ (List ℚ))} (h : newVec g cs = some cs') : cs' = cs := by
  unfold newVec at h
  split_ifs at h
  cases h; rfl

lemma combine_full {op : ℚ → ℚ → ℚ} {I : Inst} (hd : Distinct I.gm) (hf : Full I) {o : Operand}
    (ho : ∀ r e ns, Has I.gm r e ns → ∃ v, o.item r e = some v ∧ v.length = ns.length) :
    ∃ cs, I.combine op o = some cs ∧ newVec I.gm cs = some cs ∧ receive I.gm (.dict cs) = some ⟨I.gm, .dict cs⟩ ∧
      ∀ r e ns a b, Has I.gm r e ns → I.item r e = some a → o.item r e = some b →
        vecItem I.gm cs r e = some (List.zipWith op a b) := by
  have val : ∀ r e ns a b, Has I.gm r e ns → I.item r e = some a → o.item r e = some b →
      ((I.item r e).bind fun a => (o.item r e).bind fun b => npOp op a b) = some (List.zipWith op a b) ∧
      (List.zipWith op a b).length = ns.length := by
    intro r e ns a b hh ha hb
    obtain ⟨a', ha', hla⟩ := hf r e ns hh
    obtain ⟨b', hb', hlb⟩ := ho r e ns hh
    rw [ha] at ha'; cases ha'
    rw [hb] at hb'; cases hb'
    rw [ha, hb, Option.bind_some, Option.bind_some]
    unfold npOp
    rw [if_pos (by rw [hla, hlb])]
    exact ⟨rfl, by rw [List.length_zipWith, hla, hlb, min_self]⟩
  obtain ⟨cs, hcs⟩ := (overAll_ex (g := I.gm)
      (f := fun r p => (I.item r p.1).bind fun a => (o.item r p.1).bind fun b => npOp op a b)).2 (by
    intro r e ns hh
    obtain ⟨a, ha, _⟩ := hf r e ns hh
    obtain ⟨b, hb, _⟩ := ho r e ns hh
    exact ⟨_, (val r e ns a b hh ha hb).1⟩)
  have len : ∀ r e ns v, Has I.gm r e ns →
      ((I.item r e).bind fun a => (o.item r e).bind fun b => npOp op a b) = some v → v.length = ns.length := by
    intro r e ns v hh hv
    obtain ⟨a, ha, _⟩ := hf r e ns hh
    obtain ⟨b, hb, _⟩ := ho r e ns hh
    obtain ⟨h1, h2⟩ := val r e ns a b hh ha hb
    rw [h1] at hv; cases hv
    exact h2
  refine ⟨cs, hcs, (newVec_ok hd hcs).2 len, receive_overAll hd hcs len, ?_⟩
  intro r e ns a b hh ha hb
  unfold vecItem
  rw [item_overAll hd hcs hh]
  exact (val r e ns a b hh ha hb).1

/-- The sum and the difference of two cochains, and the sum with a local vector, if both have as many values as dofs in every
element: element by element, dof by dof. -/
theorem add_spec {I : Inst} (hd : Distinct I.gm) (hf : Full I) (o : Operand)
    (ho : ∀ r e ns, Has I.gm r e ns → ∃ v, o.item r e = some v ∧ v.length = ns.length) :
    (∀ J, o = .inst J → ∃ cs ds, I.add o = some cs ∧ I.sub o = some ds ∧
      ∀ r e ns a b, Has I.gm r e ns → I.item r e = some a → o.item r e = some b →
        vecItem I.gm cs r e = some (List.zipWith (· + ·) a b) ∧ vecItem I.gm ds r e = some (List.zipWith (· - ·) a b)) ∧
    (∀ h f, o = .vec h f → ∃ cs, I.add o = some cs ∧ ∀ r e ns a b, Has I.gm r e ns → I.item r e = some a →
      o.item r e = some b → vecItem I.gm cs r e = some (List.zipWith (· + ·) a b)) := by
  constructor
  · rintro J rfl
    obtain ⟨cs, h1, h2, _, h3⟩ := combine_full (op := (· + ·)) hd hf ho
    obtain ⟨ds, h4, h5, _, h6⟩ := combine_full (op := (· - ·)) hd hf ho
    refine ⟨cs, ds, ?_, ?_, fun r e ns a b hh ha hb => ⟨h3 r e ns a b hh ha hb, h6 r e ns a b hh ha hb⟩⟩
    · unfold Inst.add; dsimp only; rw [h1, Option.bind_some, h2]
    · unfold Inst.sub; dsimp only; rw [h4, Option.bind_some, h5]
  · rintro h f rfl
    obtain ⟨cs, h1, h2, _, h3⟩ := combine_full (op := (· + ·)) hd hf ho
    exact ⟨cs, by unfold Inst.add; dsimp only; rw [h1, Option.bind_some, h2], h3⟩

lemma combine_mismatch {op : ℚ → ℚ → ℚ} {I : Inst} {o : Operand} {r e : ℕ} {ns : List ℕ} {a b : List ℚ} (hh : Has I.gm r e ns)
    (ha : I.item r e = some a) (hb : o.item r e = some b) (hne : a.length ≠ b.length) (h1 : a.length ≠ 1)
    (h2 : b.length ≠ 1) : I.combine op o = none := by
  rcases hc : I.combine op o with _ | cs
  · rfl
  · obtain ⟨v, hv⟩ := (overAll_ex (g := I.gm)
      (f := fun r p => (I.item r p.1).bind fun a => (o.item r p.1).bind fun b => npOp op a b)).1 ⟨cs, hc⟩ r e ns hh
    dsimp only at hv
    rw [ha, hb, Option.bind_some, Option.bind_some] at hv
    unfold npOp at hv
    rw [if_neg hne] at hv
    split at hv
    · simp at h1
    · simp at h2
    · cases hv

/-- What a cochain is not added to: a vector over all dofs of the mesh, and anything that has in some element of the form
another number of values, unless one of the two numbers is one. -/
theorem add_refused {I : Inst} : (∀ h V, I.add (.gathered h V) = none ∧ I.sub (.gathered h V) = none) ∧
    ∀ (o : Operand) r e ns a b, Has I.gm r e ns → I.item r e = some a → o.item r e = some b → a.length ≠ b.length →
      a.length ≠ 1 → b.length ≠ 1 → I.add o = none ∧ I.sub o = none := by
  refine ⟨fun h V => ⟨rfl, rfl⟩, fun o r e ns a b hh ha hb hne h1 h2 => ?_⟩
  have hp := combine_mismatch (op := (· + ·)) hh ha hb hne h1 h2
  have hm := combine_mismatch (op := (· - ·)) hh ha hb hne h1 h2
  constructor
  · unfold Inst.add
    split
    · rw [hp]; simp
    · rw [hp]; simp
    · rw [hp]; simp
    · rfl
  · unfold Inst.sub
    split
    · rw [hm]; simp
    · rfl

/-- Two values and three. -/
example : Has [[(0, [0, 1])]] 0 0 [0, 1] ∧ (Inst.mk [[(0, [0, 1])]] (.dict [[(0, [1, 2])]])).item 0 0 = some [1, 2] ∧
    (Operand.inst ⟨[[(0, [0, 1, 2])]], .dict [[(0, [1, 2, 3])]]⟩).item 0 0 = some [1, 2, 3] :=
  ⟨⟨_, rfl, by simp⟩, by decide +kernel, by decide +kernel⟩

/-- A multiple of a cochain: every value is multiplied. -/
theorem scale_spec {I : Inst} (hd : Distinct I.gm) (c : ℚ) :
    ((∃ cs, I.scale c = some cs) ↔ Full I) ∧ ∀ cs, I.scale c = some cs → ∀ r e ns v, Has I.gm r e ns →
      I.item r e = some v → vecItem I.gm cs r e = some (v.map fun x => c * x) := by
  obtain ⟨cs, hcs⟩ := (overAll_ex (g := I.gm) (f := fun r p => (I.item r p.1).map fun v => v.map fun x => c * x)).2 (by
    intro r e ns hh
    obtain ⟨v, hv⟩ := has_item hh
    exact ⟨_, by dsimp only; rw [hv]; rfl⟩)
  have hok := newVec_ok hd hcs
  unfold Inst.scale
  rw [hcs, Option.bind_some]
  constructor
  · constructor
    · rintro ⟨cs', h⟩
      have := newVec_eq h
      subst this
      intro r e ns hh
      obtain ⟨v, hv⟩ := has_item hh
      have := hok.1 h r e ns (v.map fun x => c * x) hh (by dsimp only; rw [hv]; rfl)
      exact ⟨v, hv, by simpa using this⟩
    · intro hf
      refine ⟨cs, hok.2 ?_⟩
      intro r e ns v hh hv
      obtain ⟨w, hw, hl⟩ := hf r e ns hh
      dsimp only at hv
      rw [hw] at hv
      cases hv
      simpa using hl
  · intro cs' h r e ns v hh hv
    have := newVec_eq h
    subst this
    unfold vecItem
    rw [item_overAll hd hcs hh]
    dsimp only
    rw [hv]; rfl

/-- Adding to a cochain: with a cochain vector of the same numbering every value is added to; with a global vector the value
of the number of the dof is added. A cochain that agrees with itself then still does. Cochain vectors and global vectors of
another numbering with the same numbers of local dofs are refused, and so are global vectors without numbering that have
another length, cochains and local vectors. -/
theorem iadd_spec {I : Inst} (hd : Distinct I.gm) (hf : Full I) :
    (∀ f, (∀ r e ns, Has I.gm r e ns → (f e).length = ns.length) → ∃ J, I.iadd (.cvec I.gm f) = some J ∧ J.gm = I.gm ∧
      ∀ r e ns a, Has I.gm r e ns → I.item r e = some a → J.item r e = some (List.zipWith (· + ·) a (f e))) ∧
    (∀ h V, h = none ∨ h = some I.gm → V.length = I.gm.num → ∃ J, I.iadd (.gathered h V) = some J ∧ J.gm = I.gm ∧
      (∀ r e ns a, Has I.gm r e ns → I.item r e = some a →
        J.item r e = some (List.zipWith (· + ·) a (ns.map fun n => V.getD n 0))) ∧
      ∀ F, Agrees I F → Agrees J fun n => F n + V.getD n 0) ∧
    (∀ h, Distinct h → h.length = I.gm.length →
      (∀ r e ns ns', Has h r e ns → Has I.gm r e ns' → ns.length = ns'.length) →
      ¬ (∀ r e ns, Has h r e ns ↔ Has I.gm r e ns) → ∀ f V, I.iadd (.cvec h f) = none ∧ I.add (.cvec h f) = none ∧
        I.iadd (.gathered (some h) V) = none) ∧
    (∀ V, V.length ≠ I.gm.num → I.iadd (.gathered none V) = none) ∧
    (∀ J, I.iadd (.inst J) = none) ∧ ∀ h f, I.iadd (.vec h f) = none := by
  have hlen : ∀ r e ns ns', Has I.gm r e ns → Has I.gm r e ns' → ns.length = ns'.length := by
    intro r e ns ns' h1 h2
    rw [(has_unique hd h1 h2).2]
  have heq : eqAll I.gm I.gm = some true := (eqAll_iff hd hd rfl hlen).2 fun _ _ _ => Iff.rfl
  refine ⟨?_, ?_, ?_, ?_, fun _ => rfl, fun _ _ => rfl⟩
  · intro f hfl
    have hit : ∀ r e ns, Has I.gm r e ns → (Operand.cvec I.gm f).item r e = some (f e) := by
      intro r e ns hh
      obtain ⟨d, h1, h2⟩ := has_keys hh
      unfold Operand.item Inst.item
      dsimp only
      rw [h1, Option.bind_some, if_pos h2]
    obtain ⟨cs, h1, _, h2, h3⟩ := combine_full (op := (· + ·)) hd hf (o := .cvec I.gm f)
      (fun r e ns hh => ⟨f e, hit r e ns hh, hfl r e ns hh⟩)
    refine ⟨⟨I.gm, .dict cs⟩, ?_, rfl, ?_⟩
    · unfold Inst.iadd
      dsimp only
      rw [if_pos heq, h1, Option.bind_some, h2]
    · intro r e ns a hh ha
      exact h3 r e ns a (f e) hh ha (hit r e ns hh)
  · intro h V hh hV
    have val : ∀ r e ns a, Has I.gm r e ns → I.item r e = some a →
        ((I.item r e).bind fun a => (pickM V ns).bind fun b => npOp (· + ·) a b) =
          some (List.zipWith (· + ·) a (ns.map fun n => V.getD n 0)) ∧
        (List.zipWith (· + ·) a (ns.map fun n => V.getD n 0)).length = ns.length := by
      intro r e ns a hh ha
      obtain ⟨a', ha', hl⟩ := hf r e ns hh
      rw [ha] at ha'; cases ha'
      rw [ha, Option.bind_some, pickM_ok (fun n hn => by rw [hV]; exact has_lt hh hn), Option.bind_some]
      unfold npOp
      rw [if_pos (by rw [hl, List.length_map])]
      exact ⟨rfl, by rw [List.length_zipWith, hl, List.length_map, min_self]⟩
    obtain ⟨cs, hcs⟩ := (overAll_ex (g := I.gm)
        (f := fun r p => (I.item r p.1).bind fun a => (pickM V p.2).bind fun b => npOp (· + ·) a b)).2 (by
      intro r e ns hh
      obtain ⟨a, ha, _⟩ := hf r e ns hh
      exact ⟨_, (val r e ns a hh ha).1⟩)
    have hrec := receive_overAll hd hcs (by
      intro r e ns v hh hv
      obtain ⟨a, ha, _⟩ := hf r e ns hh
      obtain ⟨h1, h2⟩ := val r e ns a hh ha
      dsimp only at hv
      rw [h1] at hv; cases hv
      exact h2)
    have hJ : ∀ r e ns a, Has I.gm r e ns → I.item r e = some a →
        (Inst.mk I.gm (.dict cs)).item r e = some (List.zipWith (· + ·) a (ns.map fun n => V.getD n 0)) := by
      intro r e ns a hh ha
      rw [item_overAll hd hcs hh]
      exact (val r e ns a hh ha).1
    refine ⟨⟨I.gm, .dict cs⟩, ?_, rfl, hJ, ?_⟩
    · unfold Inst.iadd
      dsimp only
      rw [if_pos, hcs, Option.bind_some, hrec]
      rcases hh with rfl | rfl
      · simpa using hV
      · simpa using heq
    · intro F hF r e ns hh
      rw [hJ r e ns _ hh (hF r e ns hh), List.zipWith_map_left, List.zipWith_map_right, List.zipWith_self]
  · intro h hdh hl hlen' hne f V
    have hno : eqAll h I.gm ≠ some true := fun he => hne ((eqAll_iff hdh hd hl hlen').1 he)
    refine ⟨?_, ?_, ?_⟩
    · unfold Inst.iadd; dsimp only; rw [if_neg hno]
    · unfold Inst.add; dsimp only; rw [if_neg hno]
    · unfold Inst.iadd; dsimp only; rw [if_neg (by simpa using hno)]
  · intro V hV
    unfold Inst.iadd
    dsimp only
    rw [if_neg (by simpa using hV)]

/-- A cochain on the mesh with two elements, and what comes out. -/
example : Distinct gm3 ∧ ((Inst.mk gm3 (.dict [[(4, [5, 6])], [(7, [6, 8])]])).iadd (.gathered none [1, 2, 3])).bind
      (fun J => J.item 1 7) = some [8, 11] ∧
    ((Inst.mk gm3 (.dict [[(4, [5, 6])], [(7, [6, 8])]])).sub (.inst ⟨gm3, .call fun e => if e = 2 then [] else [1, 3]⟩)) =
      some [[(4, [4, 3]), (2, [])], [(7, [5, 5])]] := by
  refine ⟨by unfold Distinct; decide +kernel, by decide +kernel⟩

/-- The sum of cochains of different forms is not refused: a form with one value in an element is added to every value of a
form with two. The global dofs the values belong to are not looked at either: cochains on two numberings are added. -/
theorem add_other_form_refuted :
    (Inst.mk [[(0, [0, 1])]] (.dict [[(0, [1, 2])]])).add (.inst ⟨[[(0, [0])]], .dict [[(0, [10])]]⟩) = some [[(0, [11, 12])]] ∧
    (Inst.mk [[(0, [0, 1])]] (.dict [[(0, [1, 2])]])).add (.inst ⟨[[(0, [1, 0])]], .dict [[(0, [10, 20])]]⟩) =
      some [[(0, [11, 22])]] ∧
    ((Inst.mk [[(0, [0, 1])]] (.dict [[(0, [1, 2])]])).iadd (.cvec [[(0, [1, 0])]] fun _ => [10, 20])).isNone = true := by
  decide +kernel

end Phyem.Instant
