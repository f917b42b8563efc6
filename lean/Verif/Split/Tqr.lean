import Verif.Split.Space
import Mathlib.Analysis.Calculus.Deriv.Comp
import Mathlib.Analysis.Calculus.Deriv.Add
import Mathlib.Analysis.Calculus.Deriv.Mul

/-!
# Jacobian matrices of quarters, and regions of triangles and quadrilaterals
-/

namespace Phyem.Split

open Phyem

/-! ### Jacobian matrices -/

/-- Specification: `J` is the Jacobian matrix of `m`. -/
def IsJac (m : ℝ → ℝ → Pt ℝ) (J : ℝ → ℝ → Pt ℝ × Pt ℝ) : Prop := ∀ r s,
  HasDerivAt (fun t => (m t s).1) (J r s).1.1 r ∧ HasDerivAt (fun t => (m r t).1) (J r s).1.2 s ∧
    HasDerivAt (fun t => (m t s).2) (J r s).2.1 r ∧ HasDerivAt (fun t => (m r t).2) (J r s).2.2 s

lemma half_deriv {g : ℝ → ℝ} {g' x : ℝ} (i : Bool)
    (h : HasDerivAt g g' (if i then (x + 1) / 2 else (x + 1) / 2 - 1)) :
    HasDerivAt (fun t => g (if i then (t + 1) / 2 else (t + 1) / 2 - 1)) (g' * (1 / 2)) x := by
  have h1 : HasDerivAt (fun t : ℝ => (t + 1) / 2) (1 / 2) x := ((hasDerivAt_id x).add_const 1).div_const 2
  cases i
  · simp only [Bool.false_eq_true, if_false] at h ⊢
    exact h.comp x (h1.sub_const 1)
  · simp only [if_true] at h ⊢
    exact h.comp x h1

/-- **Jacobian matrices of quarters.** If the given Jacobian matrix of a curvilinear quad is the one of its mapping, then so it is for its four
new elements. -/
theorem quarter_jacobian {e : Elem ℝ ℕ} {m : ℝ → ℝ → Pt ℝ} {J : ℝ → ℝ → Pt ℝ × Pt ℝ} (he : e.shape = .ucq m J) (hJ : IsJac m J)
    {l : List (Elem ℝ Key)} (h : split e = some l) : ∀ c ∈ l, ∃ m' J', c.shape = .ucq m' J' ∧ IsJac m' J' := by
  have main : ∀ i j, IsJac (quarterMap m i j) (quarterJ J i j) := by
    intro i j r s
    obtain ⟨h1, h2, h3, h4⟩ := hJ (if i then (r + 1) / 2 else (r + 1) / 2 - 1) (if j then (s + 1) / 2 else (s + 1) / 2 - 1)
    exact ⟨half_deriv i h1, half_deriv j h2, half_deriv i h3, half_deriv j h4⟩
  obtain ⟨s, map⟩ := e
  cases he
  unfold split at h
  dsimp only at h
  split at h
  · rename_i hh; cases hh
  · rename_i hh; cases hh
  · rename_i hh; cases hh
  · rename_i hh
    cases h; cases hh
    simp only [splitUcq, List.mem_cons, List.not_mem_nil, or_false]
    rintro c (rfl | rfl | rfl | rfl) <;> exact ⟨_, _, rfl, main _ _⟩
  · rename_i hh; cases hh
  · rename_i hh; cases hh
  · cases h

example : IsJac (fun r s => (r * s, s)) (fun r s => ((s, r), (0, 1))) := by
  intro r s
  refine ⟨?_, ?_, hasDerivAt_const _ _, hasDerivAt_id _⟩
  · simpa using (hasDerivAt_id r).mul_const s
  · simpa using (hasDerivAt_id s).const_mul r

section
variable {R : Type} [Field R]

/-! ### Regions of triangles and quadrilaterals -/

/-- Specification: the corners of the new elements of the elements of a list, before they get numbers. -/
def Used1 (d : Dict Idx (Elem R ℕ)) (k : Key) : Prop := Used [d] k

lemma tqrTs_unfold {d d' : Dict Idx (Elem R ℕ)} (h : tqrTs d = some d') :
    (∀ p ∈ d, inSpace p.2.shape = false) ∧
    ∃ K, splitRank d = some K ∧ d' = K.map fun p => (p.1, p.2.num fun k => ((keysOf K).foldl Config.intern []).idxOf k) := by
  unfold tqrTs at h
  split at h
  · rename_i hall
    obtain ⟨K, hK, rfl⟩ := Option.map_eq_some_iff.1 h
    refine ⟨?_, K, hK, rfl⟩
    intro p hp
    have := List.all_eq_true.1 hall p hp
    cases hs : p.2.shape <;> rw [hs] at this <;> simp_all [inSpace]
  · cases h

/-- **Splitting of regions.** With indices that are different as texts, the new elements are those of the same rules and have different
indices; two corners get the same number exactly if they are the same; and the numbers that occur are those from zero to some number. -/
theorem tqr_spec {d d' : Dict Idx (Elem R ℕ)} (hd : Distinct [d]) (h : tqrTs d = some d') :
    Distinct [d'] ∧ ∃ num : Key → ℕ, (∀ k k', Used [d] k → Used [d] k' → num k = num k' → k = k') ∧
      (∃ L, List.Forall₂ (fun e l => split e = some l) (elems [d]) L ∧ elems [d'] = L.flatten.map (Elem.num num)) ∧
      ∀ n, (∃ e ∈ elems [d'], n ∈ e.map) → ∀ n' ≤ n, ∃ e ∈ elems [d'], n' ∈ e.map := by
  obtain ⟨-, K, hK, rfl⟩ := tqrTs_unfold h
  have hd1 : (d.map fun p => text p.1).Nodup := by simpa [Distinct] using hd
  obtain ⟨L, hL, e⟩ := splitRank_eq hd1 hK
  have hs : List.Forall₂ (fun e l => split e = some l) (d.map Prod.snd) (L.map fun b => b.map Prod.snd) :=
    forall₂_flatten (f := Prod.snd) (g := fun e l => split e = some l) (fun a b hab => (kids_eq hab).1) hL
  have hel : ∀ {κ : Type} (d : Dict Idx (Elem R κ)), elems [d] = d.map Prod.snd := fun d => by simp [elems]
  obtain ⟨n1, -, n3⟩ := Config.foldl_intern (keysOf K) [] List.nodup_nil
  have hmem : ∀ k, Used [d] k → k ∈ (keysOf K).foldl Config.intern [] := by
    rintro k ⟨x, hx, l, hl, c, hc, hk⟩
    rw [hel] at hx
    obtain ⟨b, hb, hxb⟩ := forall₂_mem_left hs hx
    rw [hl] at hxb
    cases hxb
    obtain ⟨b', hb', rfl⟩ := List.mem_map.1 hb
    obtain ⟨q, hq, rfl⟩ := List.mem_map.1 hc
    rw [n3]
    right
    rw [e]
    exact List.mem_flatMap.2 ⟨q, List.mem_flatten.2 ⟨b', hb', hq⟩, hk⟩
  refine ⟨?_, _, fun k k' hk _ hkk => (List.idxOf_inj (hmem k hk)).1 hkk, ⟨_, by rw [hel]; exact hs, ?_⟩, ?_⟩
  · have := names_nodup d hd1
    rw [← kids_names hL, ← e] at this
    simpa [Distinct, Function.comp_def] using this
  · rw [hel, List.map_map]
    conv_lhs => rw [e]
    simp only [List.map_flatten, List.map_map, Function.comp_def]
    rw [← e]
  · rw [hel]
    rintro n ⟨x, hx, hn⟩ n' hn'
    rw [List.map_map] at hx
    obtain ⟨q, hq, rfl⟩ := List.mem_map.1 hx
    simp only [Function.comp_apply, Elem.num] at hn
    obtain ⟨k, hk, rfl⟩ := List.mem_map.1 hn
    have hkm : k ∈ (keysOf K).foldl Config.intern [] := (n3 k).2 (Or.inr (List.mem_flatMap.2 ⟨q, hq, hk⟩))
    have hlt := lt_of_le_of_lt hn' (List.idxOf_lt_length_iff.2 hkm)
    have hk' := (n3 _).1 (List.getElem_mem hlt)
    rcases hk' with hk' | hk'
    · cases hk'
    · obtain ⟨q', hq', hkq⟩ := List.mem_flatMap.1 hk'
      refine ⟨_, List.mem_map.2 ⟨_, List.mem_map.2 ⟨q', hq', rfl⟩, rfl⟩, ?_⟩
      exact List.mem_map.2 ⟨_, hkq, n1.idxOf_getElem _ _⟩

/-- **The same as `ts`.** Splitting regions and splitting the mesh of the regions give the same elements under the same indices, and the same
corners coincide. -/
theorem tqr_same {d d1 d2 : Dict Idx (Elem R ℕ)} (hd : Distinct [d]) (h1 : ts [d] = some [d1]) (h2 : tqrTs d = some d2) :
    d1.map (fun p => (p.1, p.2.shape, p.2.map.length)) = d2.map (fun p => (p.1, p.2.shape, p.2.map.length)) ∧
      ∀ (i j : ℕ) (a b a' b' : ℕ), (keysOf d1)[i]? = some a → (keysOf d1)[j]? = some b → (keysOf d2)[i]? = some a' →
        (keysOf d2)[j]? = some b' → (a = b ↔ a' = b') := by
  obtain ⟨K1, f, hK1, hf, e1⟩ := ts_unfold h1
  obtain ⟨-, K, hK, rfl⟩ := tqrTs_unfold h2
  cases hK1 with
  | cons hk hr =>
    cases hr
    rw [hK] at hk
    cases hk
    simp only [List.map_cons, List.map_nil, List.cons.injEq, and_true] at e1
    subst e1
    obtain ⟨-, -, n3⟩ := Config.foldl_intern (keysOf K) [] List.nodup_nil
    obtain ⟨-, inj, -⟩ := numbering_spec hf
    have hko : ∀ g : Key → ℕ, keysOf (K.map fun p => (p.1, p.2.num g)) = (keysOf K).map g := by
      intro g
      simp [keysOf, List.flatMap_map, List.map_flatMap, Elem.num]
    refine ⟨by simp [Elem.num, Function.comp_def], ?_⟩
    intro i j a b a' b' ha hb ha' hb'
    rw [hko, List.getElem?_map, Option.map_eq_some_iff] at ha hb ha' hb'
    obtain ⟨k, hk, rfl⟩ := ha
    obtain ⟨k', hk', rfl⟩ := hb
    obtain ⟨k2, hk2, rfl⟩ := ha'
    obtain ⟨k2', hk2', rfl⟩ := hb'
    rw [hk] at hk2
    rw [hk'] at hk2'
    cases hk2
    cases hk2'
    have m1 := List.mem_of_getElem? hk
    have m2 := List.mem_of_getElem? hk'
    constructor
    · intro hh
      rw [inj k (by simpa using m1) k' (by simpa using m2) hh]
    · intro hh
      rw [(List.idxOf_inj ((n3 k).2 (Or.inr m1))).1 hh]

/-- The places of the nodes of the regions. -/
def cooAt (coo : Dict Idx (Pt R)) (n : ℕ) : Pt R := (coo.map Prod.snd).getD n (0, 0)

lemma place_getElem {K : Type} [DecidableEq K] {l : List K} (h : l.Nodup) (i : ℕ) (hi : i < l.length) : place l l[i] = i :=
  h.idxOf_getElem i hi

lemma cooAt_idxOf {coo : Dict Idx (Pt R)} (hn : (Dict.keys coo).Nodup) {v : Idx} {p : Pt R} (h : Dict.get coo v = some p) :
    cooAt coo (place (Dict.keys coo) v) = p := by
  have hm := Dict.get_mem coo v p h
  obtain ⟨i, hi, hip⟩ := List.getElem_of_mem hm
  have hk : (Dict.keys coo)[i]'(by simpa [Dict.keys] using hi) = v := by simp [Dict.keys, hip]
  have : place (Dict.keys coo) v = i := by rw [← hk]; exact place_getElem hn _ _
  unfold cooAt
  rw [this, List.getD_eq_getElem?_getD, List.getElem?_map, List.getElem?_eq_getElem hi, hip]
  rfl

lemma mapM_get {coo : Dict Idx (Pt R)} : ∀ {rm : List Idx}, (∀ v ∈ rm, (Dict.get coo v).isSome) →
    ∃ para, rm.mapM (fun v => Dict.get coo v) = some para ∧ para.length = rm.length := by
  intro rm
  induction rm with
  | nil => intro _; exact ⟨[], rfl, rfl⟩
  | cons v rm ih =>
    intro h
    obtain ⟨para, hp, hl⟩ := ih fun w hw => h w (List.mem_cons_of_mem _ hw)
    obtain ⟨q, hq⟩ := Option.isSome_iff_exists.1 (h v List.mem_cons_self)
    exact ⟨q :: para, by rw [List.mapM_cons, hq, hp]; rfl, by simp [hl]⟩

lemma para_at {coo : Dict Idx (Pt R)} (hn : (Dict.keys coo).Nodup) {rm : List Idx} {para : List (Pt R)}
    (h : rm.mapM (fun v => Dict.get coo v) = some para) :
    para = (rm.map (place (Dict.keys coo))).map (cooAt coo) := by
  have := (mapM_eq_some _ _ _).1 h
  clear h
  induction this with
  | nil => rfl
  | cons h1 _ ih => rw [ih, List.map_cons, List.map_cons, cooAt_idxOf hn h1]

/-- **Regions that are accepted.** If the regions pass the check, then the mesh of level zero exists and has the regions as elements, with the
given types, and their vertices at the given places. -/
theorem tqr_init {types : Dict Idx (Option Bool)} {vmap : Dict Idx (List Idx)} {coo : Dict Idx (Pt R)} (hn : (Dict.keys coo).Nodup)
    (h : tqrCheck types vmap coo = true) :
    ∃ d, tqrInit types vmap coo = some d ∧ Dict.keys d = Dict.keys types ∧
      ∀ p ∈ d, Good p.2 ∧ Placed (cooAt coo) p.2 ∧ inSpace p.2.shape = false := by
  unfold tqrInit
  induction types with
  | nil => exact ⟨[], rfl, rfl, by simp⟩
  | cons p types ih =>
    unfold tqrCheck at h
    rw [List.all_cons, Bool.and_eq_true] at h
    obtain ⟨d, hd, hk, hp⟩ := ih h.2
    have h1 := h.1
    cases hv : Dict.get vmap p.1 with
    | none => rw [hv] at h1; cases h1
    | some rm =>
      rw [hv] at h1
      dsimp only at h1
      rw [Bool.and_eq_true] at h1
      obtain ⟨para, hpa, hlen⟩ := mapM_get (coo := coo) (rm := rm) (fun v hvm => List.all_eq_true.1 h1.2 v hvm)
      have hat := para_at hn hpa
      cases ht : p.2 with
      | none => rw [ht] at h1; cases h1.1
      | some b =>
        rw [ht] at h1
        cases b with
        | true =>
          have h3 : rm.length = 3 := by simpa using h1.1
          obtain ⟨A, B, C, rfl⟩ := len3 (hlen.trans h3)
          refine ⟨(p.1, ⟨.tri A B C, rm.map (place (Dict.keys coo))⟩) :: d, ?_, ?_, ?_⟩
          · rw [List.mapM_cons, hv, hd]
            simp only [Option.bind_some, hpa, ht]
            rfl
          · simp only [Dict.keys, List.map_cons] at hk ⊢; rw [hk]
          · intro q hq
            rcases List.mem_cons.1 hq with rfl | hq
            · exact ⟨⟨trivial, by simp [arity, h3]⟩, by unfold Placed corners; dsimp only; rw [← hat], rfl⟩
            · exact hp q hq
        | false =>
          have h3 : rm.length = 4 := by simpa using h1.1
          obtain ⟨A, B, C, D, rfl⟩ := len4 (hlen.trans h3)
          refine ⟨(p.1, ⟨.quad A B C D, rm.map (place (Dict.keys coo))⟩) :: d, ?_, ?_, ?_⟩
          · rw [List.mapM_cons, hv, hd]
            simp only [Option.bind_some, hpa, ht]
            rfl
          · simp only [Dict.keys, List.map_cons] at hk ⊢; rw [hk]
          · intro q hq
            rcases List.mem_cons.1 hq with rfl | hq
            · exact ⟨⟨trivial, by simp [arity, h3]⟩, by unfold Placed corners; dsimp only; rw [← hat], rfl⟩
            · exact hp q hq

/-- **Coordinates of split regions.** After any number of splits, every number of a node has one place. -/
theorem tqr_placed {d d' : Dict Idx (Elem R ℕ)} (hd : Distinct [d]) (x : ℕ → Pt R) (hx : ∀ p ∈ d, Placed x p.2) (t : ℕ)
    (h : tqrParse t d = some d') : ∃ x' : ℕ → Pt R, ∀ p ∈ d', Placed x' p.2 := by
  classical
  induction t generalizing d x with
  | zero => cases h; exact ⟨x, hx⟩
  | succ t ih =>
    obtain ⟨d1, h1, h2⟩ := Option.bind_eq_some_iff.1 h
    obtain ⟨hd1, num, inj, ⟨L, hL, e⟩, -⟩ := tqr_spec hd h1
    let x' : ℕ → Pt R := fun n => if hk : ∃ k, Used [d] k ∧ num k = n then average x hk.choose else x n
    have hx' : ∀ k, Used [d] k → x' (num k) = average x k := by
      intro k hk
      have hex : ∃ k', Used [d] k' ∧ num k' = num k := ⟨k, hk, rfl⟩
      have : x' (num k) = average x hex.choose := dif_pos hex
      rw [this, inj _ _ hex.choose_spec.1 hk hex.choose_spec.2]
    refine ih hd1 x' ?_ h2
    intro q hq
    have hq' : q.2 ∈ elems [d1] := by
      unfold elems
      simp only [List.flatten_cons, List.flatten_nil, List.append_nil]
      exact List.mem_map.2 ⟨q, hq, rfl⟩
    obtain ⟨p, hp, l, hl, c, hc, hqc⟩ := kids_mem hL e hq'
    have hpd : Placed x p := by
      unfold elems at hp
      simp only [List.flatten_cons, List.flatten_nil, List.append_nil] at hp
      obtain ⟨q', hq', rfl⟩ := List.mem_map.1 hp
      exact hx q' hq'
    rw [hqc]
    unfold Placed Elem.num
    dsimp only
    rw [split_placed hpd hl c hc, List.map_map]
    congr 1
    apply List.map_congr_left
    intro k hk
    exact (hx' k ⟨p, hp, l, hl, c, hc, hk⟩).symm

end

/-- Two regions: a triangle and a quadrilateral. -/
example : tqrCheck (R := ℚ) [(.inr ['t'], some true), (.inr ['q'], some false)]
    [(.inr ['t'], [.inl 4, .inl 9, .inl 2]), (.inr ['q'], [.inl 2, .inl 9, .inl 7, .inl 1])]
    [(.inl 1, (0, 2)), (.inl 2, (0, 1)), (.inl 4, (0, 0)), (.inl 7, (1, 1)), (.inl 9, (1, 0))] = true := by decide +kernel

example : ((tqrInit (R := ℚ) [(.inr ['t'], some true), (.inr ['q'], some false)]
    [(.inr ['t'], [.inl 4, .inl 9, .inl 2]), (.inr ['q'], [.inl 2, .inl 9, .inl 7, .inl 1])]
    [(.inl 1, (0, 2)), (.inl 2, (0, 1)), (.inl 4, (0, 0)), (.inl 7, (1, 1)), (.inl 9, (1, 0))]).bind fun d =>
      (tqrParse 1 d).map fun d' => d'.map fun p => p.2.map) =
    some [[0, 1, 2, 3], [4, 5, 2, 1], [6, 3, 2, 5], [6, 5, 7, 8], [5, 4, 9, 7], [7, 9, 10, 11], [8, 7, 11, 12]] := by
  decide +kernel

end Phyem.Split
