import Verif.Great.Reverse
import Mathlib.Tactic.Linarith
import Mathlib.Tactic.NormNum
import Mathlib.Tactic.Ring
import Mathlib.Tactic.FieldSimp
import Mathlib.Tactic.LinearCombination

/-!
C84: after the reversal the two elements at a face agree about the direction of its dof.
-/

namespace Phyem.Great

open Phyem.Dict

/-- `-1` at a place that is reversed, `1` elsewhere. -/
def flip (places : List Position) (p : Position) : ℚ := if p ∈ places then -1 else 1

theorem foldlM_places (kind : ℕ → Kind) (value : Position → ℚ) (l : List (List ℕ × List Position))
    (g : List ℕ × List Position → List Position) (h : ∀ x ∈ l, mismatchAt kind value x.2 = some (g x)) :
    ∀ acc, l.foldlM (fun places x => (mismatchAt kind value x.2).map fun new => places ++ new) acc =
      some (acc ++ l.flatMap g) := by
  induction l with
  | nil => intro acc; simp
  | cons x l ih =>
    intro acc
    rw [List.foldlM_cons, h x (by simp)]
    simp only [Option.map_some]
    have := ih (fun y hy => h y (by simp [hy])) (acc ++ g x)
    simp only [List.flatMap_cons, ← List.append_assoc]
    exact this

theorem isclose_self (a : ℚ) : isclose a a = true := by
  unfold isclose
  simp only [sub_self, abs_zero, decide_eq_true_eq]
  have := abs_nonneg a
  linarith

theorem isclose_neg (a : ℚ) (h : 1 / 100000000 < |a|) : isclose a (-a) = false := by
  unfold isclose
  simp only [decide_eq_false_iff_not, not_le, abs_neg]
  have : |a - -a| = 2 * |a| := by
    rw [sub_neg_eq_add, ← two_mul, abs_mul]; norm_num
  rw [this]
  linarith

/-- `priority … ≠ none` in the theorems below: the element is neither a rectangle nor a quadrilateral of a structured mesh; the dofs of
these keep their signs. -/
theorem priority_none (k : Kind) : priority k = none ↔ k = .rectangle ∨ k = .msepyQuad := by
  cases k <;> simp [priority]

/-- What the loop does at one face. -/
theorem mismatchAt_spec (kind : ℕ → Kind) (value : Position → ℚ) (p q : Position) (hne : p ≠ q)
    (hopp : value p = value q ∨ value p = -value q) (hbig : 1 / 100000000 < |value p|)
    (hprio : value p ≠ value q → priority (kind p.1) ≠ none ∨ priority (kind q.1) ≠ none) :
    ∃ places, mismatchAt kind value [p, q] = some places ∧ places.Nodup ∧
      (∀ x ∈ places, (x = p ∨ x = q) ∧ priority (kind x.1) ≠ none) ∧
      flip places p * value p = flip places q * value q := by
  have h0 : value p ≠ 0 := by
    intro h; rw [h, abs_zero] at hbig; norm_num at hbig
  rcases hopp with h | h
  · refine ⟨[], ?_, List.nodup_nil, by simp, by simp [flip, h]⟩
    simp only [mismatchAt, h, isclose_self, if_true]
  · have hdiff : value p ≠ value q := by
      intro h'
      apply h0
      linarith
    have hq : value q = -value p := by linarith
    have hf : isclose (value p) (value q) = false := by rw [hq]; exact isclose_neg _ hbig
    have ht : isclose (value p) (-value q) = true := by rw [← h]; exact isclose_self _
    have hP : priority (kind p.1) ≠ none → ∃ places, some [p] = some places ∧ places.Nodup ∧
        (∀ x ∈ places, (x = p ∨ x = q) ∧ priority (kind x.1) ≠ none) ∧
        flip places p * value p = flip places q * value q := fun hp =>
      ⟨[p], rfl, by simp, by simpa using hp, by simp [flip, Ne.symm hne, hq]⟩
    have hQ : priority (kind q.1) ≠ none → ∃ places, some [q] = some places ∧ places.Nodup ∧
        (∀ x ∈ places, (x = p ∨ x = q) ∧ priority (kind x.1) ≠ none) ∧
        flip places p * value p = flip places q * value q := fun hp =>
      ⟨[q], rfl, by simp, by simpa using hp, by simp [flip, hne, hq]⟩
    simp only [mismatchAt, hf, ht, if_true, Bool.false_eq_true, if_false]
    cases hp : priority (kind p.1) with
    | none =>
      cases hq' : priority (kind q.1) with
      | none =>
        rcases hprio hdiff with h1 | h1
        · exact absurd hp h1
        · exact absurd hq' h1
      | some b => exact hQ (by rw [hq']; simp)
    | some a =>
      cases hq' : priority (kind q.1) with
      | none => exact hP (by rw [hp]; simp)
      | some b =>
        simp only
        split_ifs
        · exact hP (by rw [hp]; simp)
        · exact hQ (by rw [hq']; simp)

/-- Where no face has more than two positions, the two dofs of every shared face have for the test field the same
value or opposite ones, not tiny, and one of two elements that disagree is of a type that can be reversed: the code
finds places such that the two sides agree after reversal. It reverses only dofs of elements that can be reversed, on
shared faces, and none twice. -/
theorem mismatch_right (mesh : Mesh) (kind : ℕ → Kind) (value : Position → ℚ) (hn : (keys mesh).Nodup)
    (h2 : ∀ p q q', Meet mesh p q → Meet mesh p q' → q = q')
    (hopp : ∀ p q, Meet mesh p q → value p = value q ∨ value p = -value q)
    (hbig : ∀ p q, Meet mesh p q → 1 / 100000000 < |value p|)
    (hprio : ∀ p q, Meet mesh p q → value p ≠ value q →
      priority (kind p.1) ≠ none ∨ priority (kind q.1) ≠ none) :
    ∃ places, mismatch mesh kind value = some places ∧ places.Nodup ∧
      (∀ p ∈ places, priority (kind p.1) ≠ none ∧ ∃ q, Meet mesh p q) ∧
      ∀ p q, Meet mesh p q → flip places p * value p = flip places q * value q := by
  have meet_of : ∀ k ps, (k, ps) ∈ pool mesh → ∀ p q, p ∈ ps → q ∈ ps → p ≠ q → Meet mesh p q := by
    intro k ps hps p q hp hq hne
    obtain ⟨n, hn1, hn2⟩ := (mem_entry mesh hn k ps hps p).1 hp
    obtain ⟨n', hn1', hn2'⟩ := (mem_entry mesh hn k ps hps q).1 hq
    exact ⟨hne, n, n', hn1, hn1', (sorted_eq_iff _ _).1 (hn2.trans hn2'.symm)⟩
  have hone : ∀ x ∈ pool mesh, ∃ places, mismatchAt kind value x.2 = some places ∧ places.Nodup ∧
      (∀ y ∈ places, y ∈ x.2 ∧ priority (kind y.1) ≠ none ∧ ∃ q, Meet mesh y q) ∧
      ∀ p q, p ∈ x.2 → q ∈ x.2 → p ≠ q → flip places p * value p = flip places q * value q := by
    rintro ⟨k, ps⟩ hx
    have hne := ((mem_pool mesh k ps).1 hx).1
    have hnd := nodup_entry mesh hn k ps hx
    match ps, hne, hnd, hx with
    | [p], _, _, hx =>
      refine ⟨[], rfl, List.nodup_nil, by simp, ?_⟩
      intro a b ha hb hab
      simp only [List.mem_singleton] at ha hb
      exact absurd (ha.trans hb.symm) hab
    | [p, q], _, hnd, hx =>
      have hpq : p ≠ q := by simpa using hnd
      have hm := meet_of k _ hx p q (by simp) (by simp) hpq
      have hm' := meet_of k _ hx q p (by simp) (by simp) hpq.symm
      obtain ⟨places, h1, h1', h3, h4⟩ := mismatchAt_spec kind value p q hpq (hopp p q hm) (hbig p q hm) (hprio p q hm)
      refine ⟨places, h1, h1', ?_, ?_⟩
      · intro y hy
        obtain ⟨hor, hpr⟩ := h3 y hy
        rcases hor with rfl | rfl
        · exact ⟨by simp, hpr, q, hm⟩
        · exact ⟨by simp, hpr, p, hm'⟩
      · intro a b ha hb hab
        simp only [List.mem_cons, List.not_mem_nil, or_false] at ha hb
        rcases ha with rfl | rfl <;> rcases hb with rfl | rfl
        · exact absurd rfl hab
        · exact h4
        · exact h4.symm
        · exact absurd rfl hab
    | p :: q :: r :: ps, _, hnd, hx =>
      exfalso
      have hpq : p ≠ q := by rintro rfl; simp at hnd
      have hpr : p ≠ r := by rintro rfl; simp at hnd
      have hqr : q ≠ r := by rintro rfl; simp at hnd
      exact hqr (h2 p q r (meet_of k _ hx p q (by simp) (by simp) hpq) (meet_of k _ hx p r (by simp) (by simp) hpr))
  choose! g hg1 hg2 hg3 hg4 using hone
  have hfold := foldlM_places kind value (pool mesh) g hg1 []
  rw [List.nil_append] at hfold
  refine ⟨_, hfold, ?_, ?_, ?_⟩
  · have hpn : (pool mesh).Nodup := List.Nodup.of_map Prod.fst (nodup_collectAll _)
    refine List.nodup_flatMap.2 ⟨hg2, ?_⟩
    refine List.Pairwise.imp_of_mem ?_ hpn
    intro x y hx hy hxy
    rw [Function.onFun, List.disjoint_left]
    intro p hp hp'
    obtain ⟨e1, e2⟩ := entry_unique mesh hn x.1 y.1 x.2 y.2 hx hy p (hg3 x hx p hp).1 (hg3 y hy p hp').1
    exact hxy (Prod.ext e1 e2)
  · intro p hp
    obtain ⟨x, hx, hpx⟩ := List.mem_flatMap.1 hp
    exact (hg3 x hx p hpx).2
  · rintro p q ⟨hne, n, n', hf, hf', hperm⟩
    obtain ⟨ps, hps, hpin⟩ := exists_entry mesh hn p n hf
    have hqin : q ∈ ps := (mem_entry mesh hn _ ps hps q).2 ⟨n', hf', ((sorted_eq_iff _ _).2 hperm).symm⟩
    have hloc : ∀ y ∈ ps, flip ((pool mesh).flatMap g) y = flip (g (sorted n, ps)) y := by
      intro y hy
      unfold flip
      congr 1
      apply propext
      constructor
      · intro h
        obtain ⟨x, hx, hyx⟩ := List.mem_flatMap.1 h
        obtain ⟨e1, e2⟩ := entry_unique mesh hn x.1 (sorted n) x.2 ps hx hps y (hg3 x hx y hyx).1 hy
        have : x = (sorted n, ps) := Prod.ext e1 e2
        rwa [this] at hyx
      · intro h
        exact List.mem_flatMap.2 ⟨_, hps, h⟩
    rw [hloc p hpin, hloc q hqin]
    exact hg4 (sorted n, ps) hps p q hpin hqin hne

/-- A face with more than two positions is an error. -/
theorem mismatch_three (mesh : Mesh) (kind : ℕ → Kind) (value : Position → ℚ) (hn : (keys mesh).Nodup)
    (p q q' : Position) (h : Meet mesh p q) (h' : Meet mesh p q') (hne : q ≠ q') :
    mismatch mesh kind value = none := by
  obtain ⟨hpq, n, m, hf, hfq, hperm⟩ := h
  obtain ⟨hpq', n', m', hf', hfq', hperm'⟩ := h'
  obtain rfl := hf.unique hf'
  obtain ⟨ps, hps, hpin⟩ := exists_entry mesh hn p n hf
  have hqin : q ∈ ps := (mem_entry mesh hn _ ps hps q).2 ⟨m, hfq, ((sorted_eq_iff _ _).2 hperm).symm⟩
  have hqin' : q' ∈ ps := (mem_entry mesh hn _ ps hps q').2 ⟨m', hfq', ((sorted_eq_iff _ _).2 hperm').symm⟩
  have hbad : mismatchAt kind value ps = none := by
    match ps, hpin, hqin, hqin' with
    | [a], h1, h2, h3 =>
      simp only [List.mem_singleton] at h1 h2 h3
      exact absurd (h1.trans h2.symm) hpq
    | [a, b], h1, h2, h3 =>
      simp only [List.mem_cons, List.not_mem_nil, or_false] at h1 h2 h3
      exfalso
      rcases h1 with rfl | rfl <;> rcases h2 with rfl | rfl <;> rcases h3 with rfl | rfl <;> simp_all
    | a :: b :: c :: l, _, _, _ => rfl
  unfold mismatch
  have key : ∀ (l : List (List ℕ × List Position)), (sorted n, ps) ∈ l → ∀ acc,
      l.foldlM (fun places x => (mismatchAt kind value x.2).map fun new => places ++ new) acc = none := by
    intro l
    induction l with
    | nil => intro h; simp at h
    | cons x l ih =>
      intro hx acc
      rw [List.foldlM_cons]
      rcases List.mem_cons.1 hx with rfl | hx
      · rw [hbad]; rfl
      · cases hm : mismatchAt kind value x.2 with
        | none => rfl
        | some new => exact ih hx _
  exact key _ hps []

theorem nodesAt_eq (mesh : Mesh) (p : Position) (n : List ℕ) : nodesAt mesh p = some n ↔ FaceAt mesh p n := by
  rw [faceAt_iff]
  unfold nodesAt
  rw [Option.bind_eq_some_iff]

/-- The two elements at a face have its nodes in the same places, up to a shift. -/
def SamePlaces (mesh : Mesh) (coo : ℕ → ℕ → ℚ × ℚ) : Prop :=
  ∀ p q n, Meet mesh p q → FaceAt mesh p n → ∀ a ∈ n, ∀ b ∈ n,
    (coo p.1 b).1 - (coo p.1 a).1 = (coo q.1 b).1 - (coo q.1 a).1 ∧
    (coo p.1 b).2 - (coo p.1 a).2 = (coo q.1 b).2 - (coo q.1 a).2

/-- On two sides of a face its vector is the same or the opposite. -/
theorem chord_pm (mesh : Mesh) (coo : ℕ → ℕ → ℚ × ℚ) (hsame : SamePlaces mesh coo) (p q : Position)
    (hm : Meet mesh p q) (n n' : List ℕ) (hf : FaceAt mesh p n) (hf' : FaceAt mesh q n') :
    chord coo p.1 n = chord coo q.1 n' ∨
      chord coo p.1 n = (-(chord coo q.1 n').1, -(chord coo q.1 n').2) := by
  obtain ⟨-, m, m', hm1, hm2, hperm⟩ := id hm
  obtain rfl := hm1.unique hf
  obtain rfl := hm2.unique hf'
  by_cases hl : m.length = 2
  · have hl' : m'.length = 2 := by rw [← hperm.length_eq, hl]
    match m, m', hl, hl' with
    | [a, b], [c, d], _, _ =>
      obtain ⟨e1, e2⟩ := hsame p q _ hm hf a (by simp) b (by simp)
      have hcd : ([a, b] = [c, d]) ∨ ([a, b] = [d, c]) := by
        have ha : a ∈ [c, d] := hperm.mem_iff.1 (by simp)
        simp only [List.mem_cons, List.not_mem_nil, or_false] at ha
        rcases ha with rfl | rfl
        · have := (List.perm_cons a).1 hperm
          rw [List.perm_singleton] at this
          left; rw [this]
        · have := (List.perm_cons a).1 (hperm.trans (List.Perm.swap a c []))
          rw [List.perm_singleton] at this
          right; rw [this]
      rcases hcd with h | h
      · simp only [List.cons.injEq, and_true] at h
        obtain ⟨rfl, rfl⟩ := h
        left
        simp only [chord, e1, e2]
      · simp only [List.cons.injEq, and_true] at h
        obtain ⟨rfl, rfl⟩ := h
        right
        simp only [chord, e1, e2, neg_sub]
  · left
    have hl' : m'.length ≠ 2 := by rw [← hperm.length_eq]; exact hl
    have hz : ∀ (e : ℕ) (l : List ℕ), l.length ≠ 2 → chord coo e l = (0, 0) := by
      intro e l hl
      match l, hl with
      | [], _ => rfl
      | [_], _ => rfl
      | [_, _], h => exact absurd rfl h
      | _ :: _ :: _ :: _, _ => rfl
    rw [hz _ _ hl, hz _ _ hl']

/-- From the test field to all fields: the values at `p` and `q` are the same multiple of values that differ by the
same sign for all fields. -/
theorem agree_of_test (s x x' y y' a b : ℚ) (hs : s = 1 ∨ s = -1) (h : x = s * x') (hy : y = s * y')
    (hx : x ≠ 0) (he : a * x = b * x') : a * y = b * y' := by
  rcases hs with rfl | rfl
  · have hx' : x' ≠ 0 := by rintro rfl; apply hx; rw [h]; ring
    have : a = b := by
      have : a * x' = b * x' := by rw [← he, h]; ring
      exact mul_right_cancel₀ hx' this
    rw [hy, this]; ring
  · have hx' : x' ≠ 0 := by rintro rfl; apply hx; rw [h]; ring
    have : -a = b := by
      have : -a * x' = b * x' := by rw [← he, h]; ring
      exact mul_right_cancel₀ hx' this
    rw [hy, ← this]; ring

/-- Inner 1-forms: the two elements at a face agree about every constant field after the reversal, when the faces are
straight and the circulation of the test field is nowhere tiny. -/
theorem inner_agrees (mesh : Mesh) (kind : ℕ → Kind) (coo : ℕ → ℕ → ℚ × ℚ) (u : ℚ × ℚ) (hn : (keys mesh).Nodup)
    (h2 : ∀ p q q', Meet mesh p q → Meet mesh p q' → q = q') (hsame : SamePlaces mesh coo)
    (hbig : ∀ p q, Meet mesh p q → 1 / 100000000 < |innerValue mesh coo u p|)
    (hprio : ∀ p q, Meet mesh p q → priority (kind p.1) ≠ none ∨ priority (kind q.1) ≠ none ∨
      nodesAt mesh p = nodesAt mesh q) :
    ∃ places, mismatch mesh kind (innerValue mesh coo u) = some places ∧ places.Nodup ∧
      (∀ p ∈ places, priority (kind p.1) ≠ none ∧ ∃ q, Meet mesh p q) ∧
      ∀ p q, Meet mesh p q → ∀ w,
        flip places p * innerValue mesh coo w p = flip places q * innerValue mesh coo w q := by
  have key : ∀ p q, Meet mesh p q → ∃ s : ℚ, (s = 1 ∨ s = -1) ∧
      ∀ w, innerValue mesh coo w p = s * innerValue mesh coo w q := by
    intro p q hm
    obtain ⟨-, n, n', hf, hf', -⟩ := id hm
    rcases chord_pm mesh coo hsame p q hm n n' hf hf' with h | h
    · refine ⟨1, .inl rfl, fun w => ?_⟩
      simp only [innerValue, (nodesAt_eq _ _ _).2 hf, (nodesAt_eq _ _ _).2 hf', h]
      ring
    · refine ⟨-1, .inr rfl, fun w => ?_⟩
      simp only [innerValue, (nodesAt_eq _ _ _).2 hf, (nodesAt_eq _ _ _).2 hf', h]
      ring
  obtain ⟨places, r1, r2, r3, r4⟩ := mismatch_right mesh kind (innerValue mesh coo u) hn h2
    (by
      intro p q hm
      obtain ⟨s, hs, h⟩ := key p q hm
      rcases hs with rfl | rfl
      · left; rw [h]; ring
      · right; rw [h]; ring) hbig
    (by
      intro p q hm hne
      rcases hprio p q hm with h | h | h
      · exact .inl h
      · exact .inr h
      · exfalso
        apply hne
        obtain ⟨-, n, n', hf, hf', -⟩ := id hm
        have e1 := (nodesAt_eq _ _ _).2 hf
        have e2 := (nodesAt_eq _ _ _).2 hf'
        have : n = n' := Option.some.inj (e1.symm.trans (h.trans e2))
        subst this
        simp only [innerValue, e1, e2]
        have hch : chord coo p.1 n = chord coo q.1 n := by
          match n, hf with
          | [a, b], hf =>
            obtain ⟨c1, c2⟩ := hsame p q _ hm hf a (by simp) b (by simp)
            simp only [chord, c1, c2]
          | [], _ => rfl
          | [_], _ => rfl
          | _ :: _ :: _ :: _, _ => rfl
        rw [hch])
  refine ⟨places, r1, r2, r3, fun p q hm w => ?_⟩
  obtain ⟨s, hs, h⟩ := key p q hm
  have h0 : innerValue mesh coo u p ≠ 0 := by
    intro h0
    have := hbig p q hm
    rw [h0, abs_zero] at this
    norm_num at this
  exact agree_of_test s _ _ _ _ _ _ hs (h u) (h w) h0 (r4 p q hm)

/-- Outer 1-forms. -/
theorem outer_agrees (mesh : Mesh) (kind : ℕ → Kind) (coo : ℕ → ℕ → ℚ × ℚ) (u : ℚ × ℚ) (hn : (keys mesh).Nodup)
    (h2 : ∀ p q q', Meet mesh p q → Meet mesh p q' → q = q') (hsame : SamePlaces mesh coo)
    (hbig : ∀ p q, Meet mesh p q → 1 / 100000000 < |outerValue mesh coo u p|)
    (hprio : ∀ p q, Meet mesh p q → outerValue mesh coo u p ≠ outerValue mesh coo u q →
      priority (kind p.1) ≠ none ∨ priority (kind q.1) ≠ none) :
    ∃ places, mismatch mesh kind (outerValue mesh coo u) = some places ∧ places.Nodup ∧
      (∀ p ∈ places, priority (kind p.1) ≠ none ∧ ∃ q, Meet mesh p q) ∧
      ∀ p q, Meet mesh p q → ∀ w,
        flip places p * outerValue mesh coo w p = flip places q * outerValue mesh coo w q := by
  have key : ∀ p q, Meet mesh p q → ∃ s : ℚ, (s = 1 ∨ s = -1) ∧
      ∀ w, outerValue mesh coo w p = s * outerValue mesh coo w q := by
    intro p q hm
    obtain ⟨-, n, n', hf, hf', -⟩ := id hm
    obtain ⟨t, ht, -⟩ := id hf
    obtain ⟨t', ht', -⟩ := id hf'
    have e1 := (nodesAt_eq _ _ _).2 hf
    have e2 := (nodesAt_eq _ _ _).2 hf'
    rcases chord_pm mesh coo hsame p q hm n n' hf hf' with h | h
    · by_cases hx : isX t p.2 = isX t' q.2
      · refine ⟨1, .inl rfl, fun w => ?_⟩
        simp only [outerValue, ht, ht', e1, e2, h, hx]
        ring
      · refine ⟨-1, .inr rfl, fun w => ?_⟩
        simp only [outerValue, ht, ht', e1, e2, h]
        cases hx1 : isX t p.2 <;> cases hx2 : isX t' q.2 <;> simp_all
    · by_cases hx : isX t p.2 = isX t' q.2
      · refine ⟨-1, .inr rfl, fun w => ?_⟩
        simp only [outerValue, ht, ht', e1, e2, h, hx]
        split_ifs <;> ring
      · refine ⟨1, .inl rfl, fun w => ?_⟩
        simp only [outerValue, ht, ht', e1, e2, h]
        cases hx1 : isX t p.2 <;> cases hx2 : isX t' q.2
        · simp_all
        · simp; ring
        · simp; ring
        · simp_all
  obtain ⟨places, r1, r2, r3, r4⟩ := mismatch_right mesh kind (outerValue mesh coo u) hn h2
    (by
      intro p q hm
      obtain ⟨s, hs, h⟩ := key p q hm
      rcases hs with rfl | rfl
      · left; rw [h]; ring
      · right; rw [h]; ring) hbig hprio
  refine ⟨places, r1, r2, r3, fun p q hm w => ?_⟩
  obtain ⟨s, hs, h⟩ := key p q hm
  have h0 : outerValue mesh coo u p ≠ 0 := by
    intro h0
    have := hbig p q hm
    rw [h0, abs_zero] at this
    norm_num at this
  exact agree_of_test s _ _ _ _ _ _ hs (h u) (h w) h0 (r4 p q hm)

theorem meet_iff (mesh : Mesh) (hn : (keys mesh).Nodup) (p q : Position) :
    Meet mesh p q ↔ ∃ x ∈ positions mesh, ∃ y ∈ positions mesh, x.2 = p ∧ y.2 = q ∧ p ≠ q ∧ x.1.Perm y.1 := by
  constructor
  · rintro ⟨hne, n, n', hf, hf', hp⟩
    exact ⟨(n, p), (mem_positions mesh hn n p).2 hf, (n', q), (mem_positions mesh hn n' q).2 hf', rfl, rfl, hne, hp⟩
  · rintro ⟨⟨n, p⟩, hx, ⟨n', q⟩, hy, rfl, rfl, hne, hp⟩
    exact ⟨hne, n, n', (mem_positions mesh hn n p).1 hx, (mem_positions mesh hn n' q).1 hy, hp⟩

/-- Two triangles and a rectangle side by side, and where their nodes are. -/
def strip : Mesh := [(0, .tri 0 1 2), (1, .tri 2 1 3), (2, .quad 3 2 5 6)]

/-- The types of these elements. -/
def stripKind : ℕ → Kind
  | 0 => .msepyTriangle
  | 1 => .vtu5
  | _ => .rectangle

/-- The places of the nodes. -/
def stripCoo (x y : ℚ) : ℕ → ℕ → ℚ × ℚ := fun _ n =>
  match n with
  | 0 => (x, 0)
  | 1 => (0, 0)
  | 2 => (x, y)
  | 3 => (0, y)
  | 5 => (0, 2 * y)
  | _ => (x, 2 * y)

theorem strip_nodup : (keys strip).Nodup := by decide

theorem strip_two : ∀ p q q', Meet strip p q → Meet strip p q' → q = q' := by
  intro p q q' h h'
  rw [meet_iff strip strip_nodup] at h h'
  obtain ⟨x, hx, y, hy, rfl, rfl, hne, hp⟩ := h
  obtain ⟨x', hx', z, hz, he, rfl, hne', hp'⟩ := h'
  revert x y x' z
  decide +kernel

theorem strip_same (x y : ℚ) : SamePlaces strip (stripCoo x y) := fun _ _ _ _ _ _ _ _ _ => ⟨rfl, rfl⟩

/-- The hypotheses are met on the strip with elements as wide as high, and a dof is reversed. -/
example : (∀ p q, Meet strip p q → 1 / 100000000 < |innerValue strip (stripCoo 1 1) testField p|) ∧
    (∀ p q, Meet strip p q → priority (stripKind p.1) ≠ none ∨ priority (stripKind q.1) ≠ none ∨
      nodesAt strip p = nodesAt strip q) ∧
    mismatch strip stripKind (innerValue strip (stripCoo 1 1) testField) = some [(1, 0), (1, 2)] := by
  refine ⟨?_, ?_, by decide +kernel⟩
  · intro p q h
    rw [meet_iff strip strip_nodup] at h
    obtain ⟨x, hx, y, hy, rfl, rfl, hne, hp⟩ := h
    revert x y
    decide +kernel
  · intro p q h
    rw [meet_iff strip strip_nodup] at h
    obtain ⟨x, hx, y, hy, rfl, rfl, hne, hp⟩ := h
    revert x y
    decide +kernel

example : (∀ p q, Meet strip p q → 1 / 100000000 < |outerValue strip (stripCoo 1 1) testField p|) ∧
    (∀ p q, Meet strip p q → outerValue strip (stripCoo 1 1) testField p ≠ outerValue strip (stripCoo 1 1) testField q →
      priority (stripKind p.1) ≠ none ∨ priority (stripKind q.1) ≠ none) ∧
    mismatch strip stripKind (outerValue strip (stripCoo 1 1) testField) = some [(1, 2)] := by
  refine ⟨?_, ?_, by decide +kernel⟩
  · intro p q h
    rw [meet_iff strip strip_nodup] at h
    obtain ⟨x, hx, y, hy, rfl, rfl, hne, hp⟩ := h
    revert x y
    decide +kernel
  · intro p q h
    rw [meet_iff strip strip_nodup] at h
    obtain ⟨x, hx, y, hy, rfl, rfl, hne, hp⟩ := h
    revert x y
    decide +kernel

/-- The test field of a periodic mesh has no circulation along a face in the direction `(1, 2)`: on elements twice as
high as wide the two triangles do not agree about their common dof. -/
theorem inner_agrees_refuted :
    ¬ ∀ (mesh : Mesh) (kind : ℕ → Kind) (coo : ℕ → ℕ → ℚ × ℚ), (keys mesh).Nodup →
      (∀ p q q', Meet mesh p q → Meet mesh p q' → q = q') → SamePlaces mesh coo →
      (∀ p q, Meet mesh p q → priority (kind p.1) ≠ none ∨ priority (kind q.1) ≠ none ∨
        nodesAt mesh p = nodesAt mesh q) →
      ∀ places, mismatch mesh kind (innerValue mesh coo testField) = some places →
      ∀ p q, Meet mesh p q → ∀ w,
        flip places p * innerValue mesh coo w p = flip places q * innerValue mesh coo w q := by
  intro h
  have := h strip stripKind (stripCoo 1 2) strip_nodup strip_two (strip_same 1 2) (by
    intro p q h
    rw [meet_iff strip strip_nodup] at h
    obtain ⟨x, hx, y, hy, rfl, rfl, hne, hp⟩ := h
    revert x y
    decide +kernel) [(1, 2)] (by decide +kernel) (0, 1) (1, 0)
    ⟨by decide, [1, 2], [2, 1], ⟨_, rfl, _, rfl, rfl⟩, ⟨_, rfl, _, rfl, rfl⟩, List.Perm.swap _ _ _⟩ (1, 0)
  revert this
  decide +kernel

/-- It has no flux across a face in the direction `(2, -1)` either. -/
theorem outer_agrees_refuted :
    ¬ ∀ (mesh : Mesh) (kind : ℕ → Kind) (coo : ℕ → ℕ → ℚ × ℚ), (keys mesh).Nodup →
      (∀ p q q', Meet mesh p q → Meet mesh p q' → q = q') → SamePlaces mesh coo →
      (∀ p q, Meet mesh p q → priority (kind p.1) ≠ none ∨ priority (kind q.1) ≠ none) →
      ∀ places, mismatch mesh kind (outerValue mesh coo testField) = some places →
      ∀ p q, Meet mesh p q → ∀ w,
        flip places p * outerValue mesh coo w p = flip places q * outerValue mesh coo w q := by
  intro h
  have hnd : (keys ([(0, .tri 0 1 2), (1, .tri 1 2 3)] : Mesh)).Nodup := by decide
  have := h [(0, .tri 0 1 2), (1, .tri 1 2 3)] (fun _ => .vtu5) (stripCoo 2 (-1)) hnd (by
    intro p q q' h h'
    rw [meet_iff _ hnd] at h h'
    obtain ⟨x, hx, y, hy, rfl, rfl, hne, hp⟩ := h
    obtain ⟨x', hx', z, hz, he, rfl, hne', hp'⟩ := h'
    revert x y x' z
    decide +kernel) (fun _ _ _ _ _ _ _ _ _ => ⟨rfl, rfl⟩) (by
    intro p q _
    exact .inl (by simp [priority])) [] (by decide +kernel) (0, 1) (1, 0)
    ⟨by decide, [1, 2], [1, 2], ⟨_, rfl, _, rfl, rfl⟩, ⟨_, rfl, _, rfl, rfl⟩, .refl _⟩ (1, 0)
  revert this
  decide +kernel

end Phyem.Great
