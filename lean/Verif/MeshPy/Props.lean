import Verif.MeshPy.Model
import Mathlib.Tactic.Linarith
import Mathlib.Tactic.LinearCombination
import Mathlib.Tactic.FieldSimp
import Mathlib.Tactic.Ring
import Mathlib.Data.List.Nodup

/-!
# What is taken over from `meshpy`
-/

namespace Phyem.MeshPy

open Phyem.Dict

/-! ### The outline -/

/-- **C184.** The facets go once around: there are as many as points, each point is the beginning of one and the end of one, and each facet begins where
the one before it ends. -/
theorem outline_closed (n : ℕ) : (roundTrip n).length = n ∧ (roundTrip n).map Prod.fst = List.range n ∧
    ((roundTrip n).map Prod.snd).Perm (List.range n) ∧ ∀ i e f, (roundTrip n)[i]? = some e → (roundTrip n)[(i + 1) % n]? = some f → e.2 = f.1 := by
  have hl : (roundTrip n).length = n := by simp [roundTrip]
  refine ⟨hl, by simp [roundTrip, Function.comp_def], ?_, ?_⟩
  · cases n with
    | zero => simp [roundTrip]
    | succ n =>
      have : (roundTrip (n + 1)).map Prod.snd = (List.range n).map (· + 1) ++ [0] := by
        rw [roundTrip, List.map_map, List.range_succ, List.map_append]
        congr 1
        · refine List.map_congr_left fun i hi => ?_
          rw [List.mem_range] at hi
          exact Nat.mod_eq_of_lt (by omega)
        · simp
      rw [this, List.range_succ_eq_map]
      exact List.perm_append_singleton 0 _
  · intro i e f he hf
    have key : ∀ k g, (roundTrip n)[k]? = some g → g = (k, (k + 1) % n) := by
      intro k g hg
      have hk : k < n := by
        have := (List.getElem?_eq_some_iff.1 hg).1
        rwa [hl] at this
      unfold roundTrip at hg
      rw [List.getElem?_map, List.getElem?_range hk] at hg
      exact (Option.some.inj hg).symm
    rw [key _ _ he, key _ _ hf]

/-! ### The numbers of the points -/

/-- What the numbers are, in terms of the places that have one. -/
structure Numbered (s : Dict Key ℕ × List (ℝ × ℝ)) : Prop where
  distinct : (s.2.map key).Nodup
  number : ∀ k n, get s.1 k = some n ↔ (s.2.map key)[n]? = some k

lemma number_step {s : Dict Key ℕ × List (ℝ × ℝ)} (h : Numbered s) (P : ℝ × ℝ) : Numbered (number s P) := by
  unfold number
  split_ifs with hs
  · exact h
  · have hn : key P ∉ s.2.map key := by
      intro hm
      obtain ⟨n, hn, e⟩ := List.getElem_of_mem hm
      have := (h.number (key P) n).2 (by rw [List.getElem?_eq_getElem hn, e])
      rw [this] at hs
      exact hs rfl
    refine ⟨?_, fun k n => ?_⟩
    · rw [List.map_append, List.nodup_append]
      exact ⟨h.distinct, by simp, fun a ha b hb => by
        simp only [List.map_cons, List.map_nil, List.mem_singleton] at hb
        rintro rfl
        exact hn (hb ▸ ha)⟩
    · simp only [get_put, List.map_append, List.map_cons, List.map_nil]
      split_ifs with he
      · rw [he, List.getElem?_append]
        constructor
        · intro e
          obtain rfl := Option.some.inj e
          simp
        · intro e
          split_ifs at e with hlt
          · exact absurd (List.mem_of_getElem? e) hn
          · rw [List.length_map] at hlt e
            have : n - s.2.length < 1 := by
              have := (List.getElem?_eq_some_iff.1 e).1
              simpa using this
            congr 1
            omega
      · rw [h.number, List.getElem?_append]
        split_ifs with hlt
        · rfl
        · constructor
          · intro e
            exact absurd (List.getElem?_eq_some_iff.1 e).1 hlt
          · intro e
            exfalso
            have := List.mem_of_getElem? e
            rw [List.mem_singleton] at this
            exact he this

lemma number_get {s : Dict Key ℕ × List (ℝ × ℝ)} (h : Numbered s) (P : ℝ × ℝ) : key P ∈ (number s P).2.map key := by
  unfold number
  split_ifs with hs
  · obtain ⟨n, hn⟩ := Option.isSome_iff_exists.1 hs
    exact List.mem_of_getElem? ((h.number _ _).1 hn)
  · simp

lemma number_mono {s : Dict Key ℕ × List (ℝ × ℝ)} (P : ℝ × ℝ) : ∃ r, (number s P).2 = s.2 ++ r ∧ r.Sublist [P] := by
  unfold number
  split_ifs
  · exact ⟨[], by simp, by simp⟩
  · exact ⟨[P], rfl, List.Sublist.refl _⟩

lemma fold_spec : ∀ (pts : List (ℝ × ℝ)) (s : Dict Key ℕ × List (ℝ × ℝ)), Numbered s → Numbered (pts.foldl number s) ∧
    (∀ k ∈ s.2.map key, k ∈ (pts.foldl number s).2.map key) ∧ (∀ P ∈ pts, key P ∈ (pts.foldl number s).2.map key) ∧
    ∃ r, (pts.foldl number s).2 = s.2 ++ r ∧ r.Sublist pts
  | [], s, h => ⟨h, fun _ hk => hk, by simp, [], by simp, by simp⟩
  | P :: pts, s, h => by
    obtain ⟨h1, h2, h3, r, h4, h5⟩ := fold_spec pts (number s P) (number_step h P)
    obtain ⟨r', e, hr'⟩ := number_mono (s := s) P
    refine ⟨h1, fun k hk => h2 k ?_, fun Q hQ => ?_, r' ++ r, ?_, ?_⟩
    · rw [e, List.map_append]; exact List.mem_append_left _ hk
    · rcases List.mem_cons.1 hQ with rfl | hQ
      · exact h2 _ (number_get h Q)
      · exact h3 Q hQ
    · rw [List.foldl_cons, h4, e, List.append_assoc]
    · exact hr'.append h5

lemma numbering_spec (pts : List (ℝ × ℝ)) : Numbered (numbering pts) ∧ (∀ P ∈ pts, key P ∈ (numbering pts).2.map key) ∧ (numbering pts).2.Sublist pts := by
  obtain ⟨h1, _, h3, r, h4, h5⟩ := fold_spec pts ([], []) ⟨by simp, by simp [Dict.get]⟩
  exact ⟨h1, h3, by unfold numbering; rw [h4]; simpa using h5⟩

/-- Equal texts are of points that are near to each other. -/
lemma near_of_key {P Q : ℝ × ℝ} (h : key P = key Q) : |P.1 - Q.1| ≤ 1e-9 ∧ |P.2 - Q.2| ≤ 1e-9 := by
  have aux : ∀ {x y : ℝ}, nine x = nine y → |x - y| ≤ 1e-9 := by
    intro x y h
    have hr : round (x * 10 ^ 9) = round (y * 10 ^ 9) := (Prod.mk.inj h).2
    have h1 := abs_le.1 (abs_sub_round (x * 10 ^ 9))
    have h2 := abs_le.1 (abs_sub_round (y * 10 ^ 9))
    rw [hr] at h1
    rw [abs_le]
    constructor
    · norm_num at h1 h2 ⊢; linarith [h1.1, h2.2]
    · norm_num at h1 h2 ⊢; linarith [h1.2, h2.1]
  exact ⟨aux (Prod.mk.inj h).1, aux (Prod.mk.inj h).2⟩

/-! ### The triangles -/

/-- Twice the area of a triangle, with a sign. -/
def area2 (A B C : ℝ × ℝ) : ℝ := (B.1 - A.1) * (C.2 - A.2) - (B.2 - A.2) * (C.1 - A.1)

lemma dist_sq (p q : ℝ × ℝ) : dist p q ^ 2 = (p.1 - q.1) ^ 2 + (p.2 - q.2) ^ 2 := by
  unfold dist
  rw [Real.sq_sqrt (by positivity)]

lemma dist_nonneg (p q : ℝ × ℝ) : 0 ≤ dist p q := Real.sqrt_nonneg _

lemma proper_iff {a b c s : ℝ} (hb : 0 ≤ b) (hc : 0 ≤ c) (h : (b ^ 2 + c ^ 2 - a ^ 2) ^ 2 = 4 * b ^ 2 * c ^ 2 - 4 * s ^ 2) :
    proper (cosine a b c) = true ↔ s ≠ 0 := by
  unfold cosine
  split_ifs with h0
  · have hbc : b * c = 0 := by linarith
    have h1 : 4 * s ^ 2 ≤ 0 := by
      have : 4 * b ^ 2 * c ^ 2 = 4 * (b * c) ^ 2 := by ring
      rw [this, hbc] at h
      nlinarith [sq_nonneg (b ^ 2 + c ^ 2 - a ^ 2)]
    have h2 : s = 0 := by
      have := sq_nonneg s
      exact pow_eq_zero_iff (two_ne_zero) |>.1 (by linarith)
    simp [proper, h2]
  · have hpos : 0 < 2 * b * c := lt_of_le_of_ne (by positivity) (Ne.symm h0)
    have e : -1 < (b ^ 2 + c ^ 2 - a ^ 2) / (2 * b * c) ∧ (b ^ 2 + c ^ 2 - a ^ 2) / (2 * b * c) < 1 ↔ s ≠ 0 := by
      rw [← abs_lt, abs_div, abs_of_pos hpos, div_lt_one hpos, ← sq_lt_sq₀ (abs_nonneg _) hpos.le, sq_abs, h]
      constructor
      · rintro hlt rfl
        have : (2 * b * c) ^ 2 = 4 * b ^ 2 * c ^ 2 := by ring
        rw [this] at hlt
        linarith
      · intro hs
        have : 0 < s ^ 2 := by positivity
        have e : (2 * b * c) ^ 2 = 4 * b ^ 2 * c ^ 2 := by ring
        rw [e]
        linarith
    simp only [proper, Option.elim_some, decide_eq_true_eq]
    exact e

/-- **C184.** A triangle is taken over exactly if its area is not zero. -/
theorem taken_iff (A B C : ℝ × ℝ) : taken A B C = true ↔ area2 A B C ≠ 0 := by
  have ha := dist_sq B C
  have hb := dist_sq A C
  have hc := dist_sq A B
  unfold taken
  dsimp only
  rw [Bool.and_eq_true, Bool.and_eq_true, proper_iff (s := area2 A B C) (dist_nonneg _ _) (dist_nonneg _ _),
    proper_iff (s := area2 A B C) (dist_nonneg _ _) (dist_nonneg _ _), proper_iff (s := area2 A B C) (dist_nonneg _ _) (dist_nonneg _ _)]
  · tauto
  all_goals
    rw [ha, hb, hc]
    unfold area2
    ring

/-- What is taken over, in terms of the places of the corners: exactly the triangles with an area, in order. -/
def Match (pts coo : List (ℝ × ℝ)) (t : List ℕ) (c : ℕ × ℕ × ℕ) : Prop :=
  ∃ i j k A B C A' B' C', t = [i, j, k] ∧ pts[i]? = some A ∧ pts[j]? = some B ∧ pts[k]? = some C ∧ area2 A B C ≠ 0 ∧
    coo[c.1]? = some A' ∧ coo[c.2.1]? = some B' ∧ coo[c.2.2]? = some C' ∧ key A' = key A ∧ key B' = key B ∧ key C' = key C

/-- A triangle of `meshpy` without an area. -/
def Thin (pts : List (ℝ × ℝ)) (t : List ℕ) : Prop :=
  ∃ i j k A B C, t = [i, j, k] ∧ pts[i]? = some A ∧ pts[j]? = some B ∧ pts[k]? = some C ∧ area2 A B C = 0

/-- A triangle between points of the mesh. -/
def Between (n : ℕ) (t : List ℕ) : Prop := ∃ i j k, t = [i, j, k] ∧ i < n ∧ j < n ∧ k < n

lemma place {pts : List (ℝ × ℝ)} {A : ℝ × ℝ} (hA : A ∈ pts) :
    ∃ a A', get (numbering pts).1 (key A) = some a ∧ (numbering pts).2[a]? = some A' ∧ key A' = key A := by
  obtain ⟨h1, h2, _⟩ := numbering_spec pts
  obtain ⟨a, ha, e⟩ := List.getElem_of_mem (h2 A hA)
  have h3 : ((numbering pts).2.map key)[a]? = some (key A) := by rw [List.getElem?_eq_getElem ha, e]
  have h4 := (h1.number (key A) a).2 h3
  rw [List.getElem?_map] at h3
  obtain ⟨A', hA', e'⟩ := Option.map_eq_some_iff.1 h3
  exact ⟨a, A', h4, hA', e'⟩

lemma triangle_spec (pts : List (ℝ × ℝ)) (t : List ℕ) (h : Between pts.length t) :
    (Thin pts t ∧ triangle pts (numbering pts).1 t = some none) ∨
      ∃ c, Match pts (numbering pts).2 t c ∧ triangle pts (numbering pts).1 t = some (some c) := by
  obtain ⟨i, j, k, rfl, hi, hj, hk⟩ := h
  have gi := List.getElem?_eq_getElem hi
  have gj := List.getElem?_eq_getElem hj
  have gk := List.getElem?_eq_getElem hk
  by_cases ht : taken pts[i] pts[j] pts[k] = true
  · right
    obtain ⟨a, A', a1, a2, a3⟩ := place (List.getElem_mem hi)
    obtain ⟨b, B', b1, b2, b3⟩ := place (List.getElem_mem hj)
    obtain ⟨c, C', c1, c2, c3⟩ := place (List.getElem_mem hk)
    refine ⟨(a, b, c), ⟨i, j, k, _, _, _, A', B', C', rfl, gi, gj, gk, (taken_iff ..).1 ht, a2, b2, c2, a3, b3, c3⟩, ?_⟩
    simp only [triangle, gi, gj, gk, Option.bind_some, if_pos ht, a1, b1, c1, Option.map_some]
  · left
    refine ⟨⟨i, j, k, _, _, _, rfl, gi, gj, gk, ?_⟩, ?_⟩
    · by_contra hne
      exact ht ((taken_iff ..).2 hne)
    · simp only [triangle, gi, gj, gk, Option.bind_some, if_neg ht]

lemma triangle_fail (pts : List (ℝ × ℝ)) (ren : Dict Key ℕ) (t : List ℕ) (h : ¬ Between pts.length t) : triangle pts ren t = none := by
  unfold triangle
  split
  · rename_i i j k
    have : ¬ (i < pts.length ∧ j < pts.length ∧ k < pts.length) := fun hh => h ⟨i, j, k, rfl, hh⟩
    by_cases hi : i < pts.length
    · by_cases hj : j < pts.length
      · have hk : ¬ k < pts.length := fun hk => this ⟨hi, hj, hk⟩
        rw [List.getElem?_eq_none (not_lt.1 hk), List.getElem?_eq_getElem hi, List.getElem?_eq_getElem hj]; rfl
      · rw [List.getElem?_eq_none (not_lt.1 hj), List.getElem?_eq_getElem hi]; rfl
    · rw [List.getElem?_eq_none (not_lt.1 hi)]; rfl
  · rfl

/-- **C184.** What is taken over. It is an error exactly if some element is no triangle between points of the mesh. Otherwise the nodes are points of
the mesh with different texts, every point of the mesh has the text of a node, and the elements are, in their order, the triangles with an area, whose
corners have the texts of their nodes. -/
theorem parse_spec (pts : List (ℝ × ℝ)) (tris : List (List ℕ)) :
    ((parse pts tris).isSome = true ↔ ∀ t ∈ tris, Between pts.length t) ∧
      ∀ coo conn, parse pts tris = some (coo, conn) → coo.Sublist pts ∧ (coo.map key).Nodup ∧ (∀ P ∈ pts, key P ∈ coo.map key) ∧
        ∃ keep : List (List ℕ), keep.Sublist tris ∧ List.Forall₂ (Match pts coo) keep conn ∧ (∀ t ∈ tris, t ∉ keep → Thin pts t) := by
  have main : ∀ tris : List (List ℕ), (∀ t ∈ tris, Between pts.length t) → ∃ l, tris.mapM (triangle pts (numbering pts).1) = some l ∧
      ∃ keep : List (List ℕ), keep.Sublist tris ∧ List.Forall₂ (Match pts (numbering pts).2) keep (l.filterMap id) ∧
        (∀ t ∈ tris, t ∉ keep → Thin pts t) := by
    intro tris
    induction tris with
    | nil => exact fun _ => ⟨[], rfl, [], by simp, List.Forall₂.nil, by simp⟩
    | cons t ts ih =>
      intro h
      obtain ⟨l, hl, keep, k1, k2, k3⟩ := ih fun x hx => h x (List.mem_cons_of_mem _ hx)
      rcases triangle_spec pts t (h t (by simp)) with ⟨h1, h2⟩ | ⟨c, h1, h2⟩
      · refine ⟨none :: l, by rw [List.mapM_cons, h2, hl]; rfl, keep, k1.cons t, by simpa using k2, fun x hx hk => ?_⟩
        rcases List.mem_cons.1 hx with rfl | hx
        · exact h1
        · exact k3 x hx hk
      · refine ⟨some c :: l, by rw [List.mapM_cons, h2, hl]; rfl, t :: keep, k1.cons_cons t, by simpa using List.Forall₂.cons h1 k2, fun x hx hk => ?_⟩
        rcases List.mem_cons.1 hx with rfl | hx
        · exact absurd (by simp) hk
        · exact k3 x hx fun hm => hk (List.mem_cons_of_mem _ hm)
  have fails : ∀ tris : List (List ℕ), (∃ t ∈ tris, ¬ Between pts.length t) → tris.mapM (triangle pts (numbering pts).1) = none := by
    intro tris
    induction tris with
    | nil => rintro ⟨t, ht, _⟩; simp at ht
    | cons t ts ih =>
      rintro ⟨x, hx, hb⟩
      rw [List.mapM_cons]
      rcases List.mem_cons.1 hx with rfl | hx
      · rw [triangle_fail _ _ _ hb]; rfl
      · rw [ih ⟨x, hx, hb⟩]
        cases triangle pts (numbering pts).1 t <;> rfl
  obtain ⟨n1, n2, n3⟩ := numbering_spec pts
  by_cases h : ∀ t ∈ tris, Between pts.length t
  · obtain ⟨l, hl, keep, k1, k2, k3⟩ := main tris h
    have e : parse pts tris = some ((numbering pts).2, l.filterMap id) := by unfold parse; rw [hl]; rfl
    refine ⟨⟨fun _ => h, fun _ => by rw [e]; rfl⟩, fun coo conn hc => ?_⟩
    rw [e] at hc
    obtain ⟨rfl, rfl⟩ := Prod.mk.inj (Option.some.inj hc)
    exact ⟨n3, n1.distinct, n2, keep, k1, k2, k3⟩
  · have e : parse pts tris = none := by
      unfold parse
      push Not at h
      rw [fails tris h]; rfl
    refine ⟨by rw [e]; simpa using h, fun coo conn hc => by rw [e] at hc; cases hc⟩

/-- **C184.** The nodes of the elements are where the corners of the triangles are, up to `1e-9` in each coordinate. -/
theorem corners_near {pts coo : List (ℝ × ℝ)} {t : List ℕ} {c : ℕ × ℕ × ℕ} (h : Match pts coo t c) :
    ∃ i j k A B C A' B' C', t = [i, j, k] ∧ pts[i]? = some A ∧ pts[j]? = some B ∧ pts[k]? = some C ∧
      coo[c.1]? = some A' ∧ coo[c.2.1]? = some B' ∧ coo[c.2.2]? = some C' ∧ (|A'.1 - A.1| ≤ 1e-9 ∧ |A'.2 - A.2| ≤ 1e-9) ∧
      (|B'.1 - B.1| ≤ 1e-9 ∧ |B'.2 - B.2| ≤ 1e-9) ∧ |C'.1 - C.1| ≤ 1e-9 ∧ |C'.2 - C.2| ≤ 1e-9 := by
  obtain ⟨i, j, k, A, B, C, A', B', C', ht, hA, hB, hC, _, hA', hB', hC', a, b, c⟩ := h
  exact ⟨i, j, k, A, B, C, A', B', C', ht, hA, hB, hC, hA', hB', hC', near_of_key a, near_of_key b, near_of_key c⟩

/-- The points of a mesh are apart: two of them differ by more than `1e-9` in a coordinate. -/
def Apart (pts : List (ℝ × ℝ)) : Prop := pts.Pairwise fun P Q => 1e-9 < |P.1 - Q.1| ∨ 1e-9 < |P.2 - Q.2|

lemma apart_keys {pts : List (ℝ × ℝ)} (h : Apart pts) : (pts.map key).Nodup := by
  rw [List.Nodup, List.pairwise_map]
  refine h.imp fun {P Q} hPQ e => ?_
  obtain ⟨h1, h2⟩ := near_of_key e
  rcases hPQ with hPQ | hPQ <;> linarith

/-- **C184.** If the points of the mesh are apart, nothing is renumbered: the nodes are the points, and the elements are the triangles with an area. -/
theorem parse_apart {pts : List (ℝ × ℝ)} (hp : Apart pts) {tris : List (List ℕ)} {coo : List (ℝ × ℝ)} {conn : List (ℕ × ℕ × ℕ)}
    (h : parse pts tris = some (coo, conn)) : coo = pts ∧
      ∃ keep : List (List ℕ), keep.Sublist tris ∧ keep = conn.map (fun c => [c.1, c.2.1, c.2.2]) ∧ ∀ t ∈ tris, t ∉ keep → Thin pts t := by
  obtain ⟨h1, _, h3, keep, k1, k2, k3⟩ := (parse_spec pts tris).2 coo conn h
  have hn := apart_keys hp
  have hcoo : coo = pts := by
    refine h1.eq_of_length_le ?_
    have hsub : (pts.map key).Subperm (coo.map key) := List.subperm_of_subset hn fun k hk => by
      obtain ⟨P, hP, rfl⟩ := List.mem_map.1 hk
      exact h3 P hP
    simpa using hsub.length_le
  subst hcoo
  refine ⟨rfl, keep, k1, ?_, k3⟩
  have same : ∀ {i a : ℕ} {A A' : ℝ × ℝ}, coo[i]? = some A → coo[a]? = some A' → key A' = key A → i = a := by
    intro i a A A' hi ha e
    obtain ⟨hi', ei⟩ := List.getElem?_eq_some_iff.1 hi
    obtain ⟨ha', ea⟩ := List.getElem?_eq_some_iff.1 ha
    have : (coo.map key)[i]'(by simpa using hi') = (coo.map key)[a]'(by simpa using ha') := by
      rw [List.getElem_map, List.getElem_map, ei, ea, e]
    exact (List.Nodup.getElem_inj_iff hn).1 this
  clear h h1 h3 k1 k3
  induction k2 with
  | nil => rfl
  | cons hm _ ih =>
    obtain ⟨i, j, k, A, B, C, A', B', C', ht, hA, hB, hC, _, hA', hB', hC', a, b, c⟩ := hm
    rw [List.map_cons, ← ih, ht, same hA hA' a, same hB hB' b, same hC hC' c]

end Phyem.MeshPy
