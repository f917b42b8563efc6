import Verif.Slice.Props
import Verif.Great.Neighbors
import Verif.Great.Boundary

/-!
# Faces of the periodic slice: their nodes, neighbours and the absence of a boundary
-/

namespace Phyem.Slice

open Phyem.Dict Phyem.PoolGM

variable {layout : Layout} {x0 x1 y0 y1 t : ℚ} {levels : ℤ} {kx ky kz : ℕ} {m : Dict ℕ Elem}

section
variable {lo len : Fin 3 → ℚ} {K c c' : Fin 3 → ℕ}

/-- Two faces across one axis are the same, by the indices of the elements. -/
def Idx (K c c' : Fin 3 → ℕ) (a : Fin 3) (s s' : Bool) : Prop :=
  (∀ b, b ≠ a → c b ≡ c' b [MOD K b]) ∧ c a + bit s ≡ c' a + bit s' [MOD K a]

lemma sameFace_iff (hK : ∀ a, 0 < K a) (hl : ∀ a, 0 < len a) (a a' : Fin 3) (s s' : Bool) :
    SameFace len (el lo len K c) a s (el lo len K c') a' s' ↔ a = a' ∧ Idx K c c' a s s' := by
  unfold SameFace
  simp only [congruent_iff hK hl]
  refine and_congr_right fun _ => ⟨fun h => ⟨fun b hb => ?_, ?_⟩, fun h D b => ?_⟩
  · have := h (fun _ => false) b
    rw [Function.update_of_ne hb, Function.update_of_ne hb] at this
    simpa [bit] using this
  · have := h (fun _ => false) a
    rwa [Function.update_self, Function.update_self] at this
  · by_cases hb : b = a
    · subst hb
      rw [Function.update_self, Function.update_self]
      exact h.2
    · rw [Function.update_of_ne hb, Function.update_of_ne hb]
      exact (h.1 b hb).add_right _

lemma mem_faceNodes {x : Elem} {a : Fin 3} {s : Bool} {n : ℕ} :
    n ∈ faceNodes x a s ↔ ∃ D : Fin 3 → Bool, D a = s ∧ n = node x D := by
  have e : ∀ D : Fin 3 → Bool, D = ![D 0, D 1, D 2] := fun D => by funext b; fin_cases b <;> rfl
  fin_cases a <;> simp only [faceNodes, List.mem_cons, List.not_mem_nil, or_false] <;> constructor
  · rintro (rfl | rfl | rfl | rfl) <;> exact ⟨_, rfl, rfl⟩
  · rintro ⟨D, rfl, rfl⟩
    rw [e D]
    cases D 1 <;> cases D 2 <;> simp
  · rintro (rfl | rfl | rfl | rfl) <;> exact ⟨_, rfl, rfl⟩
  · rintro ⟨D, rfl, rfl⟩
    rw [e D]
    cases D 0 <;> cases D 2 <;> simp
  · rintro (rfl | rfl | rfl | rfl) <;> exact ⟨_, rfl, rfl⟩
  · rintro ⟨D, rfl, rfl⟩
    rw [e D]
    cases D 0 <;> cases D 1 <;> simp

lemma faceNodes_eq_of (hK : ∀ a, 0 < K a) {a : Fin 3} {s s' : Bool} (h : Idx K c c' a s s') :
    faceNodes (el lo len K c) a s = faceNodes (el lo len K c') a s' := by
  have key : ∀ D D' : Fin 3 → Bool, D a = s → D' a = s' → (∀ b, b ≠ a → D b = D' b) →
      node (el lo len K c) D = node (el lo len K c') D' := by
    intro D D' h1 h2 h3
    rw [node_el, node_el, nd_inj hK]
    intro b
    by_cases hb : b = a
    · subst hb; rw [h1, h2]; exact h.2
    · rw [h3 b hb]; exact (h.1 b hb).add_right _
  fin_cases a <;> simp only [faceNodes, List.cons.injEq, and_true] <;> refine ⟨?_, ?_, ?_, ?_⟩ <;>
    refine key _ _ rfl rfl fun b hb => ?_ <;> fin_cases b <;> first | exact absurd rfl hb | rfl

lemma perm_faces (hK : ∀ a, 2 < K a) (hc : ∀ a, c a < K a) (hc' : ∀ a, c' a < K a) {a a' : Fin 3} {s s' : Bool}
    (h : (faceNodes (el lo len K c) a s).Perm (faceNodes (el lo len K c') a' s')) : a = a' ∧ Idx K c c' a s s' := by
  have hK0 : ∀ a, 0 < K a := fun a => by have := hK a; omega
  have fwd : ∀ D : Fin 3 → Bool, D a = s → ∃ D' : Fin 3 → Bool, D' a' = s' ∧ ∀ b, c b + bit (D b) ≡ c' b + bit (D' b) [MOD K b] := by
    intro D hD
    obtain ⟨D', hD', e⟩ := mem_faceNodes.1 (h.mem_iff.1 (mem_faceNodes.2 ⟨D, hD, rfl⟩))
    rw [node_el, node_el, nd_inj hK0] at e
    exact ⟨D', hD', e⟩
  have bwd : ∀ D' : Fin 3 → Bool, D' a' = s' → ∃ D : Fin 3 → Bool, D a = s ∧ ∀ b, c b + bit (D b) ≡ c' b + bit (D' b) [MOD K b] := by
    intro D' hD'
    obtain ⟨D, hD, e⟩ := mem_faceNodes.1 (h.mem_iff.2 (mem_faceNodes.2 ⟨D', hD', rfl⟩))
    rw [node_el, node_el, nd_inj hK0] at e
    exact ⟨D, hD, fun b => (e b).symm⟩
  have haa : a = a' := by
    by_contra hne
    obtain ⟨D1, h1, e1⟩ := fwd (Function.update (fun _ => false) a s) (Function.update_self ..)
    obtain ⟨D2, h2, e2⟩ := fwd (Function.update (fun _ => true) a s) (Function.update_self ..)
    have u := e1 a'
    have v := e2 a'
    rw [Function.update_of_ne (Ne.symm hne), h1] at u
    rw [Function.update_of_ne (Ne.symm hne), h2] at v
    have := modEq_step (by simpa [bit] using u) (by simpa [bit] using v)
    have := hK a'
    omega
  subst haa
  refine ⟨rfl, fun b hb => ?_, ?_⟩
  · obtain ⟨D1, -, e1⟩ := fwd (Function.update (fun _ => false) a s) (Function.update_self ..)
    obtain ⟨D2, -, e2⟩ := bwd (Function.update (fun _ => false) a s') (Function.update_self ..)
    have u := e1 b
    have v := e2 b
    rw [Function.update_of_ne hb] at u v
    simp only [bit, Bool.false_eq_true, if_false, Nat.add_zero] at u v
    cases h1 : D1 b
    · simpa [h1] using u
    · cases h2 : D2 b
      · simpa [h2] using v
      · simp only [h1, h2, if_true] at u v
        exfalso
        have w : c b + 2 ≡ c b + 0 [MOD K b] := by
          have := v.add_right 1
          exact this.trans u.symm
        have := Nat.le_of_dvd (by norm_num) ((Nat.modEq_zero_iff_dvd).1 (Nat.ModEq.add_left_cancel' _ w))
        have := hK b
        omega
  · obtain ⟨D1, h1, e1⟩ := fwd (Function.update (fun _ => false) a s) (Function.update_self ..)
    have u := e1 a
    rwa [Function.update_self, h1] at u

/-- The element across a face. -/
def next (K c : Fin 3 → ℕ) (a : Fin 3) (s : Bool) : Fin 3 → ℕ :=
  Function.update c a (if s then (c a + 1) % K a else (c a + (K a - 1)) % K a)

lemma next_lt (hK : ∀ a, 0 < K a) (hc : ∀ a, c a < K a) (a : Fin 3) (s : Bool) : ∀ b, next K c a s b < K b := by
  intro b
  unfold next
  by_cases hb : b = a
  · subst hb
    rw [Function.update_self]
    split_ifs <;> exact Nat.mod_lt _ (hK b)
  · rw [Function.update_of_ne hb]; exact hc b

lemma idx_next (hK : ∀ a, 0 < K a) (a : Fin 3) (s : Bool) : Idx K c (next K c a s) a s (!s) := by
  refine ⟨fun b hb => by rw [next, Function.update_of_ne hb], ?_⟩
  rw [next, Function.update_self]
  have := hK a
  cases s
  · simp only [bit, Bool.false_eq_true, if_false, Bool.not_false, if_true, Nat.add_zero]
    have h : (c a + (K a - 1)) % K a ≡ c a + (K a - 1) [MOD K a] := Nat.mod_modEq ..
    have h2 := h.add_right 1
    rw [Nat.add_assoc, Nat.sub_add_cancel this] at h2
    exact (h2.trans (by simp [Nat.ModEq])).symm
  · simp only [bit, Bool.not_true, Bool.false_eq_true, if_false, if_true, Nat.add_zero]
    exact (Nat.mod_modEq ..).symm

lemma idx_unique (hc : ∀ a, c a < K a) (hc' : ∀ a, c' a < K a) {a : Fin 3} {s s' : Bool} (hK : ∀ a, 0 < K a)
    (h : Idx K c c' a s s') : (s' = s ∧ c' = c) ∨ (s' = !s ∧ c' = next K c a s) := by
  have eqn : ∀ {u v : ℕ} {b : Fin 3}, u < K b → v < K b → u ≡ v [MOD K b] → u = v := fun hu hv e =>
    Nat.ModEq.eq_of_lt_of_lt e hu hv
  by_cases hs : s' = s
  · subst hs
    refine .inl ⟨rfl, funext fun b => ?_⟩
    by_cases hb : b = a
    · subst hb
      exact (eqn (hc b) (hc' b) (Nat.ModEq.add_right_cancel' _ h.2)).symm
    · exact (eqn (hc b) (hc' b) (h.1 b hb)).symm
  · have hs' : s' = !s := by cases s <;> cases s' <;> first | rfl | exact absurd rfl hs
    subst hs'
    refine .inr ⟨rfl, funext fun b => ?_⟩
    have hn := idx_next (c := c) hK a s
    have hlt := next_lt hK hc a s
    by_cases hb : b = a
    · subst hb
      exact eqn (hc' b) (hlt b) (Nat.ModEq.add_right_cancel' _ (h.2.symm.trans hn.2))
    · exact eqn (hc' b) (hlt b) ((h.1 b hb).symm.trans (hn.1 b hb))

end

/-- Two faces have the same nodes in the same order exactly when they are the same face of the periodic domain, if at
most one of the numbers of elements is one. -/
theorem face_nodes_iff (h : Accepted layout x0 x1 y0 y1 t levels kx ky kz)
    (hm : slice layout x0 x1 y0 y1 t levels = some m)
    (h1 : (1 < kx ∨ 1 < ky) ∧ (1 < kx ∨ 1 < kz) ∧ (1 < ky ∨ 1 < kz)) {e e' : ℕ} {x x' : Elem} (hx : (e, x) ∈ m)
    (hx' : (e', x') ∈ m) (a a' : Fin 3) (s s' : Bool) :
    faceNodes x a s = faceNodes x' a' s' ↔ SameFace ![x1 - x0, y1 - y0, t] x a s x' a' s' := by
  have hK := count_pos h
  obtain ⟨c, -, -, rfl⟩ := (mem_slice h hm).1 hx
  obtain ⟨c', -, -, rfl⟩ := (mem_slice h hm).1 hx'
  rw [sameFace_iff hK (length_pos h)]
  constructor
  · intro hn
    have key : ∀ D D' : Fin 3 → Bool, node (el ![x0, y0, -t / 2] ![x1 - x0, y1 - y0, t] ![kx, ky, kz] c) D =
        node (el ![x0, y0, -t / 2] ![x1 - x0, y1 - y0, t] ![kx, ky, kz] c') D' →
        ∀ b, c b + bit (D b) ≡ c' b + bit (D' b) [MOD ![kx, ky, kz] b] := by
      intro D D' hD
      rwa [node_el, node_el, nd_inj hK] at hD
    have one : ∀ (b : Fin 3) (u v : ℕ), u ≡ v [MOD ![kx, ky, kz] b] → u + 1 ≡ v [MOD ![kx, ky, kz] b] →
        ![kx, ky, kz] b = 1 := fun b u v => modEq_step
    have o0 : ∀ u v : ℕ, u ≡ v [MOD kx] → u + 1 ≡ v [MOD kx] → kx = 1 := fun u v => modEq_step
    have o1 : ∀ u v : ℕ, u ≡ v [MOD ky] → u + 1 ≡ v [MOD ky] → ky = 1 := fun u v => modEq_step
    have o2 : ∀ u v : ℕ, u ≡ v [MOD kz] → u + 1 ≡ v [MOD kz] → kz = 1 := fun u v => modEq_step
    fin_cases a <;> fin_cases a' <;> simp only [faceNodes, List.cons.injEq, and_true] at hn <;>
      obtain ⟨n1, n2, n3, n4⟩ := hn <;> replace n1 := key _ _ n1 <;> replace n2 := key _ _ n2 <;>
      replace n3 := key _ _ n3
    · exact ⟨rfl, fun b hb => by
        have := n1 b
        fin_cases b
        · exact absurd rfl hb
        · exact this
        · exact this, n1 0⟩
    · exfalso
      have p0 := o0 _ _ (n1 0).symm (n2 0).symm
      have p1 := o1 _ _ (n1 1) (n2 1)
      omega
    · exfalso
      have p0 := o0 _ _ (n1 0).symm (n2 0).symm
      have p1 := o1 _ _ (n1 1) (n2 1)
      omega
    · exfalso
      have p0 := o0 _ _ (n1 0) (n2 0)
      have p1 := o1 _ _ (n1 1).symm (n2 1).symm
      omega
    · exact ⟨rfl, fun b hb => by
        have := n1 b
        fin_cases b
        · exact this
        · exact absurd rfl hb
        · exact this, n1 1⟩
    · exfalso
      have p0 := o1 _ _ (n1 1).symm (n3 1).symm
      have p1 := o2 _ _ (n1 2) (n3 2)
      omega
    · exfalso
      have p0 := o0 _ _ (n1 0) (n2 0)
      have p1 := o1 _ _ (n1 1).symm (n2 1).symm
      omega
    · exfalso
      have p0 := o1 _ _ (n1 1) (n3 1)
      have p1 := o2 _ _ (n1 2).symm (n3 2).symm
      omega
    · exact ⟨rfl, fun b hb => by
        have := n1 b
        fin_cases b
        · exact this
        · exact this
        · exact absurd rfl hb, n1 2⟩
  · rintro ⟨rfl, hi⟩
    exact faceNodes_eq_of hK hi

lemma keys_great (m : Dict ℕ Elem) : keys (great m) = keys m := by
  simp [keys, great, Function.comp_def]

lemma get_great (m : Dict ℕ Elem) (e : ℕ) : get (great m) e = (get m e).map fun x =>
    .hex x.hex.m0 x.hex.m1 x.hex.m2 x.hex.m3 x.hex.m4 x.hex.m5 x.hex.m6 x.hex.m7 := by
  induction m with
  | nil => rfl
  | cons p m ih =>
    unfold great at ih ⊢
    simp only [List.map_cons, Dict.get]
    split_ifs
    · rfl
    · exact ih

lemma faceAt_great {m : Dict ℕ Elem} {e f : ℕ} {n : List ℕ} : Great.FaceAt (great m) (e, f) n ↔
    ∃ x a s, get m e = some x ∧ f = faceId a s ∧ n = faceNodes x a s := by
  unfold Great.FaceAt
  simp only [get_great, Option.map_eq_some_iff]
  constructor
  · rintro ⟨s, ⟨x, hx, rfl⟩, side, hs, rfl⟩
    match f, hs with
    | 0, hs => obtain rfl := Option.some.inj hs; exact ⟨x, 0, false, hx, rfl, rfl⟩
    | 1, hs => obtain rfl := Option.some.inj hs; exact ⟨x, 0, true, hx, rfl, rfl⟩
    | 2, hs => obtain rfl := Option.some.inj hs; exact ⟨x, 1, false, hx, rfl, rfl⟩
    | 3, hs => obtain rfl := Option.some.inj hs; exact ⟨x, 1, true, hx, rfl, rfl⟩
    | 4, hs => obtain rfl := Option.some.inj hs; exact ⟨x, 2, false, hx, rfl, rfl⟩
    | 5, hs => obtain rfl := Option.some.inj hs; exact ⟨x, 2, true, hx, rfl, rfl⟩
    | f + 6, hs => simp [Great.sides] at hs
  · rintro ⟨x, a, s, hx, rfl, rfl⟩
    refine ⟨_, ⟨x, hx, rfl⟩, (a.val, s), ?_, ?_⟩
    · fin_cases a <;> cases s <;> rfl
    · fin_cases a <;> cases s <;> rfl

lemma faceId_inj {a a' : Fin 3} {s s' : Bool} (h : faceId a s = faceId a' s') : a = a' ∧ s = s' := by
  unfold faceId at h
  fin_cases a <;> fin_cases a' <;> cases s <;> cases s' <;> simp at h ⊢

lemma get_slice (h : Accepted layout x0 x1 y0 y1 t levels kx ky kz) (hm : slice layout x0 x1 y0 y1 t levels = some m)
    {e : ℕ} {x : Elem} : get m e = some x ↔ (e, x) ∈ m := by
  have hn : (keys m).Nodup := by rw [(elements_spec h hm).1]; exact List.nodup_range
  exact ⟨get_mem _ _ _, get_of_mem _ hn _ _⟩

lemma ix_inj {K c c' : Fin 3 → ℕ} (hc : ∀ a, c a < K a) (hc' : ∀ a, c' a < K a) (h : ix K c = ix K c') : c = c' := by
  unfold ix at h
  have e : ∀ d : Fin 3 → ℕ, d 0 + d 1 * K 0 + d 2 * K 0 * K 1 = d 0 + K 0 * (d 1 + K 1 * d 2) := fun d => by ring
  rw [e, e] at h
  obtain ⟨h0, h⟩ := digits (hc 0) (hc' 0) h
  obtain ⟨h1, h2⟩ := digits (hc 1) (hc' 1) h
  funext a
  fin_cases a
  · exact h0
  · exact h1
  · exact h2

/-- The mesh has no boundary faces: every face of every element is a face of another element or another face of the
same element. -/
theorem no_boundary (h : Accepted layout x0 x1 y0 y1 t levels kx ky kz)
    (hm : slice layout x0 x1 y0 y1 t levels = some m) : Great.boundaryFaces (great m) (keys m) = some [] := by
  have hK := count_pos h
  have hn : (keys m).Nodup := by rw [(elements_spec h hm).1]; exact List.nodup_range
  obtain ⟨bf, hbf, hmem, -⟩ := Great.boundary_faces_right (great m) (keys m) hn (fun i hi => by rwa [keys_great])
  rw [hbf]
  congr 1
  refine List.eq_nil_iff_forall_not_mem.2 fun ⟨⟨e, f⟩, n⟩ hp => ?_
  obtain ⟨-, hf, hno⟩ := (hmem _ _).1 hp
  obtain ⟨x, a, s, hx, rfl, rfl⟩ := faceAt_great.1 hf
  obtain ⟨c, hc, rfl, rfl⟩ := (mem_slice h hm).1 ((get_slice h hm).1 hx)
  have hx' : get m (ix ![kx, ky, kz] (next ![kx, ky, kz] c a s)) =
      some (el ![x0, y0, -t / 2] ![x1 - x0, y1 - y0, t] ![kx, ky, kz] (next ![kx, ky, kz] c a s)) :=
    (get_slice h hm).2 ((mem_slice h hm).2 ⟨_, next_lt hK hc a s, rfl, rfl⟩)
  refine hno (ix ![kx, ky, kz] (next ![kx, ky, kz] c a s), faceId a (!s)) ?_ ⟨?_, _, _, hf,
    faceAt_great.2 ⟨_, a, !s, hx', rfl, rfl⟩, ?_⟩
  · exact (get_isSome _ _).1 (by rw [hx']; rfl)
  · intro he
    have := (faceId_inj (Prod.ext_iff.1 he).2).2
    cases s <;> cases this
  · rw [faceNodes_eq_of hK (idx_next hK a s)]

/-- With three or more elements along each axis, the neighbour of an element at a face is the element of which that
face is a face, too, in the periodic domain. There is one at every face. -/
theorem neighbors_spec (h : Accepted layout x0 x1 y0 y1 t levels kx ky kz)
    (hm : slice layout x0 x1 y0 y1 t levels = some m) (hx3 : 3 ≤ kx) (hy3 : 3 ≤ ky) (hz3 : 3 ≤ kz) :
    ∃ nb, Great.neighbors (great m) = some nb ∧ keys nb = keys m ∧
      ∀ e x, (e, x) ∈ m → ∃ row, get nb e = some row ∧ row.length = 6 ∧ ∀ a s, ∃ e' x',
        row[faceId a s]? = some (some e') ∧ (e', x') ∈ m ∧ e' ≠ e ∧
        ∀ e'' x'', (e'', x'') ∈ m → ∀ a' s', (SameFace ![x1 - x0, y1 - y0, t] x a s x'' a' s' ↔
          (e'' = e ∧ a' = a ∧ s' = s) ∨ (e'' = e' ∧ a' = a ∧ s' = !s)) := by
  have hK := count_pos h
  have hK3 : ∀ a, 2 < ![kx, ky, kz] a := by intro a; fin_cases a; exacts [hx3, hy3, hz3]
  have hn : (keys m).Nodup := by rw [(elements_spec h hm).1]; exact List.nodup_range
  have hn' : (keys (great m)).Nodup := by rwa [keys_great]
  obtain ⟨nb, hnb, hk, hlen⟩ := Great.neighbors_total (great m) hn'
  refine ⟨nb, hnb, by rw [hk, keys_great], fun e x hx => ?_⟩
  have hg : get m e = some x := (get_slice h hm).2 hx
  obtain ⟨row, hrow⟩ : ∃ row, get nb e = some row :=
    Option.isSome_iff_exists.1 ((get_isSome _ _).2 (by rw [hk, keys_great]; exact (get_isSome _ _).1 (by rw [hg]; rfl)))
  have hlen' : row.length = 6 := by
    rw [hlen e _ row (by rw [get_great, hg]; rfl) hrow]; rfl
  refine ⟨row, hrow, hlen', fun a s => ?_⟩
  obtain ⟨c, hc, rfl, rfl⟩ := (mem_slice h hm).1 hx
  have hx' : (ix ![kx, ky, kz] (next ![kx, ky, kz] c a s),
      el ![x0, y0, -t / 2] ![x1 - x0, y1 - y0, t] ![kx, ky, kz] (next ![kx, ky, kz] c a s)) ∈ m :=
    (mem_slice h hm).2 ⟨_, next_lt hK hc a s, rfl, rfl⟩
  have hfid : faceId a s < row.length := by
    rw [hlen']; unfold faceId; have := a.isLt; split_ifs <;> omega
  have hface : Great.FaceAt (great m) (ix ![kx, ky, kz] c, faceId a s)
      (faceNodes (el ![x0, y0, -t / 2] ![x1 - x0, y1 - y0, t] ![kx, ky, kz] c) a s) :=
    faceAt_great.2 ⟨_, a, s, hg, rfl, rfl⟩
  refine ⟨_, _, ?_, hx', ?_, ?_⟩
  · obtain ⟨v, hv⟩ : ∃ v, row[faceId a s]? = some v := ⟨_, List.getElem?_eq_getElem hfid⟩
    rw [hv]
    congr 1
    refine (Great.neighbors_right (great m) hn' nb hnb _ _ row v hrow hv _).2
      ⟨(_, faceId a (!s)), rfl, ⟨?_, _, _, hface, faceAt_great.2 ⟨_, a, !s, (get_slice h hm).2 hx', rfl, rfl⟩, ?_⟩, ?_⟩
    · intro he
      have := (faceId_inj (Prod.ext_iff.1 he).2).2
      cases s <;> cases this
    · rw [faceNodes_eq_of hK (idx_next hK a s)]
    · rintro ⟨e', f'⟩ ⟨hne, n, n', hf, hf', hperm⟩
      obtain ⟨x1', a1, s1, hg1, ef, rfl⟩ := faceAt_great.1 hf
      obtain ⟨rfl, rfl⟩ := faceId_inj ef
      rw [hg] at hg1
      obtain rfl := Option.some.inj hg1
      obtain ⟨x2, a2, s2, hg2, rfl, rfl⟩ := faceAt_great.1 hf'
      obtain ⟨c2, hc2, rfl, rfl⟩ := (mem_slice h hm).1 ((get_slice h hm).1 hg2)
      obtain ⟨rfl, hi⟩ := perm_faces hK3 hc hc2 hperm
      rcases idx_unique hc hc2 hK hi with ⟨rfl, rfl⟩ | ⟨rfl, rfl⟩
      · exact absurd rfl hne
      · rfl
  · intro he
    have := ix_inj (next_lt hK hc a s) hc he
    have := congrFun this a
    rw [next, Function.update_self] at this
    have h3 := hK3 a
    have hca := hc a
    split_ifs at this
    · by_cases hl : c a + 1 < ![kx, ky, kz] a
      · rw [Nat.mod_eq_of_lt hl] at this; omega
      · rw [show c a + 1 = ![kx, ky, kz] a by omega, Nat.mod_self] at this; omega
    · rcases Nat.eq_zero_or_pos (c a) with h0 | h0
      · rw [h0, Nat.zero_add, Nat.mod_eq_of_lt (by omega)] at this; omega
      · rw [show c a + (![kx, ky, kz] a - 1) = c a - 1 + ![kx, ky, kz] a by omega, Nat.add_mod_right,
          Nat.mod_eq_of_lt (by omega)] at this; omega
  · intro e'' x'' hx'' a' s'
    obtain ⟨c2, hc2, rfl, rfl⟩ := (mem_slice h hm).1 hx''
    rw [sameFace_iff hK (length_pos h)]
    constructor
    · rintro ⟨rfl, hi⟩
      rcases idx_unique hc hc2 hK hi with ⟨rfl, rfl⟩ | ⟨rfl, rfl⟩
      · exact .inl ⟨rfl, rfl, rfl⟩
      · exact .inr ⟨rfl, rfl, rfl⟩
    · rintro (⟨he, rfl, rfl⟩ | ⟨he, rfl, rfl⟩)
      · obtain rfl := ix_inj hc2 hc he
        exact ⟨rfl, fun _ _ => rfl, rfl⟩
      · obtain rfl := ix_inj hc2 (next_lt hK hc _ _) he
        exact ⟨rfl, idx_next hK _ _⟩

example : ∃ m, slice (.one 3) 0 1 0 1 1 3 = some m ∧
    ((Great.neighbors (great m)).bind fun nb => get nb 0) =
      some [some 2, some 1, some 6, some 3, some 18, some 9] := by
  have h : Accepted (.one 3) 0 1 0 1 1 3 3 3 3 := by
    refine ⟨rfl, rfl, ?_, ?_, ?_, ?_, ?_, ?_⟩ <;> norm_num
  obtain ⟨m, hm⟩ := slice_iff.2 ⟨_, _, _, h⟩
  refine ⟨m, hm, ?_⟩
  obtain rfl : (slice (.one 3) 0 1 0 1 1 3).getD [] = m := by rw [hm]; rfl
  decide +kernel

/-- With the default two levels, the table of neighbours is empty at the faces along the thickness: the mesh has no
boundary there, and four faces have the same nodes. -/
theorem default_levels_refuted :
    (sliceDefault (.one 3) 0 1 0 1 1).bind (fun m => (Great.neighbors (great m)).bind fun nb => get nb 0) =
      some [none, none, none, none, some 9, some 9] := by decide +kernel

/-- With one element along two of the axes, faces across different axes have the same nodes in the same order. -/
theorem one_column_refuted :
    (slice (.one 1) 0 1 0 1 1 3).bind (fun m => (get m 0).map fun x => (faceNodes x 0 false, faceNodes x 1 false)) =
      some ([0, 0, 1, 1], [0, 0, 1, 1]) := by decide +kernel

end Phyem.Slice
