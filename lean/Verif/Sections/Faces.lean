import Verif.Sections.Lemmas

/-!
C124: which faces a boundary section has.
-/

namespace Phyem.Sections

open Phyem.Great Phyem.Dict
open Classical

/-- What the tests of a request and of its opposite say. -/
lemma test_opposite (rnd : ℝ → ℝ) (inc opp : Including) (h : inc.opposite = some opp) :
    (test rnd inc = none ∧ test rnd opp = none) ∨
      ∃ t, test rnd inc = some t ∧ test rnd opp = some fun f => (t f).map fun b => !b := by
  cases inc <;> simp only [Including.opposite, Option.some.injEq, reduceCtorEq] at h <;> subst h
  case ounv ex vs =>
    right
    refine ⟨_, rfl, ?_⟩
    simp only [test, Option.some.injEq]
    funext f
    cases hasOunv rnd vs f <;> cases ex <;> simp
  case lines ex ps =>
    simp only [test]
    cases ps.mapM fun p => twoPoints p.1 p.2 with
    | none => left; simp
    | some ls =>
      right
      refine ⟨_, rfl, ?_⟩
      simp only [Option.map_some, Option.some.injEq]
      funext f
      cases faceOnAny (ls.map fun l P => some (onLine l P)) f <;> cases ex <;> simp
  case polygons ex ps =>
    right
    refine ⟨_, rfl, ?_⟩
    simp only [test, Option.some.injEq]
    funext f
    cases faceOnAny (ps.map fun p P => inPolygon p P) f <;> cases ex <;> simp
  case curves ex cs =>
    right
    refine ⟨_, rfl, ?_⟩
    simp only [test, Option.some.injEq]
    funext f
    cases faceOnAny (cs.map fun c P => onCurve c P) f <;> cases ex <;> simp
  case segments ex ps =>
    simp only [test]
    cases ps.mapM fun p => twoPoints p.1 p.2 with
    | none => left; simp
    | some ls =>
      right
      refine ⟨_, rfl, ?_⟩
      simp only [Option.map_some, Option.some.injEq]
      funext f
      cases faceOnAny (ls.map fun l P => some (onSegment l P)) f <;> cases ex <;> simp

lemma section_iff (rnd : ℝ → ℝ) (mesh : Mesh) (face : Position → Face) (all mine : List ℕ) (inc : Including)
    (hn : all.Nodup) (hin : ∀ i ∈ all, i ∈ keys mesh) (l : List Position)
    (h : section_ rnd mesh face all mine inc = some l) :
    ∃ t, test rnd inc = some t ∧ (∀ p, BoundaryFace mesh all p → p.1 ∈ mine → (t (face p)).isSome) ∧ l.Nodup ∧
      ∀ p, p ∈ l ↔ (BoundaryFace mesh all p ∧ p.1 ∈ mine) ∧ t (face p) = some true := by
  obtain ⟨ps, hps, hnd, hm⟩ := localFaces_spec mesh all mine hn hin
  unfold section_ at h
  cases ht : test rnd inc with
  | none => rw [ht] at h; simp at h
  | some t =>
    rw [ht, Option.bind_some, hps, Option.bind_some] at h
    obtain ⟨h1, rfl⟩ := keep_some _ _ _ h
    refine ⟨t, rfl, fun p hb hmine => h1 p ((hm p).2 ⟨hb, hmine⟩), hnd.filter _, fun p => ?_⟩
    rw [List.mem_filter, hm]
    refine and_congr_right fun hp => ?_
    obtain ⟨b, hb⟩ := Option.isSome_iff_exists.1 (h1 p ((hm p).2 hp))
    rw [hb]; simp

/-- The whole boundary: each boundary face of the elements of the rank, once. -/
theorem section_boundary (rnd : ℝ → ℝ) (mesh : Mesh) (face : Position → Face) (all mine : List ℕ)
    (hn : all.Nodup) (hin : ∀ i ∈ all, i ∈ keys mesh) :
    ∃ l, section_ rnd mesh face all mine .boundary = some l ∧ l.Nodup ∧
      ∀ p, p ∈ l ↔ BoundaryFace mesh all p ∧ p.1 ∈ mine := by
  obtain ⟨ps, hps, hnd, hm⟩ := localFaces_spec mesh all mine hn hin
  refine ⟨ps, ?_, hnd, hm⟩
  have : section_ rnd mesh face all mine .boundary = keep (fun _ => some true) ps := by
    unfold section_; rw [hps]; rfl
  rw [this, keep_of _ _ fun _ _ => rfl]
  simp

/-- The boundary is divided: a boundary face of the elements of the rank is in the section of a request or in that of
its opposite and not in both, no other face is in any, and no face is listed twice. Both requests fail or none. -/
theorem section_divides (rnd : ℝ → ℝ) (mesh : Mesh) (face : Position → Face) (all mine : List ℕ)
    (hn : all.Nodup) (hin : ∀ i ∈ all, i ∈ keys mesh) (inc opp : Including) (ho : inc.opposite = some opp) :
    (section_ rnd mesh face all mine inc = none ∧ section_ rnd mesh face all mine opp = none) ∨
      ∃ l l', section_ rnd mesh face all mine inc = some l ∧ section_ rnd mesh face all mine opp = some l' ∧
        (l ++ l').Nodup ∧ ∀ p, p ∈ l ++ l' ↔ BoundaryFace mesh all p ∧ p.1 ∈ mine := by
  obtain ⟨ps, hps, hnd, hm⟩ := localFaces_spec mesh all mine hn hin
  rcases test_opposite rnd inc opp ho with ⟨h1, h2⟩ | ⟨t, h1, h2⟩
  · left
    unfold section_
    rw [h1, h2]
    exact ⟨rfl, rfl⟩
  · by_cases hs : ∀ p ∈ ps, (t (face p)).isSome
    · right
      refine ⟨ps.filter fun p => (t (face p)).getD false, ps.filter fun p => ((t (face p)).map fun b => !b).getD false,
        ?_, ?_, ?_, ?_⟩
      · unfold section_; rw [h1, hps]; exact keep_of _ _ hs
      · unfold section_; rw [h2, hps]; exact keep_of _ _ fun p hp => by simpa using hs p hp
      · refine List.Nodup.append (hnd.filter _) (hnd.filter _) ?_
        intro p hp hp'
        rw [List.mem_filter] at hp hp'
        obtain ⟨b, hb⟩ := Option.isSome_iff_exists.1 (hs p hp.1)
        rw [hb] at hp hp'
        cases b <;> simp at hp hp'
      · intro p
        rw [List.mem_append, List.mem_filter, List.mem_filter, ← hm]
        constructor
        · rintro (h | h) <;> exact h.1
        · intro hp
          obtain ⟨b, hb⟩ := Option.isSome_iff_exists.1 (hs p hp)
          rw [hb]
          cases b <;> simp [hp]
    · left
      push Not at hs
      obtain ⟨p, hp, hb⟩ := hs
      have hb : t (face p) = none := by simpa using hb
      unfold section_
      rw [h1, h2, hps]
      exact ⟨(keep_none _ _).2 ⟨p, hp, hb⟩, (keep_none _ _).2 ⟨p, hp, by simp [hb]⟩⟩

/-- Ranks: each rank has those faces of the section that are faces of its own elements, in the same order. -/
theorem section_rank (rnd : ℝ → ℝ) (mesh : Mesh) (face : Position → Face) (all mine : List ℕ)
    (hn : all.Nodup) (hin : ∀ i ∈ all, i ∈ keys mesh) (inc : Including) (l : List Position)
    (h : section_ rnd mesh face all all inc = some l) :
    section_ rnd mesh face all mine inc = some (l.filter fun p => decide (p.1 ∈ mine)) := by
  obtain ⟨ps, hps, -, -⟩ := localFaces_spec mesh all all hn hin
  have hmine := localFaces_filter mesh all mine ps hps hn hin
  unfold section_ at h ⊢
  cases ht : test rnd inc with
  | none => rw [ht] at h; simp at h
  | some t =>
    rw [ht, Option.bind_some, hps, Option.bind_some] at h
    rw [Option.bind_some, hmine, Option.bind_some]
    obtain ⟨h1, rfl⟩ := keep_some _ _ _ h
    rw [keep_of _ _ fun p hp => h1 p (List.mem_filter.1 hp).1, List.filter_filter, List.filter_filter]
    congr 1
    refine List.filter_congr fun p _ => ?_
    rw [Bool.and_comm]

/-- The elements of all ranks, whichever order the code puts them in. -/
theorem globalRange_right (ranks : List (List ℕ)) (hn : ranks.flatten.Nodup) (hne : ranks.flatten ≠ []) :
    ∃ all, globalRange ranks = some all ∧ all.Perm ranks.flatten := by
  unfold globalRange
  dsimp only
  obtain ⟨lo, hlo⟩ : ∃ lo, ranks.flatten.min? = some lo :=
    Option.isSome_iff_exists.1 (by rw [List.isSome_min?_iff]; exact hne)
  obtain ⟨hi, hhi⟩ : ∃ hi, ranks.flatten.max? = some hi :=
    Option.isSome_iff_exists.1 (by rw [List.isSome_max?_iff]; exact hne)
  rw [hlo, hhi, Option.bind_some, Option.map_some]
  refine ⟨_, rfl, ?_⟩
  split_ifs with h
  · rw [List.perm_ext_iff_of_nodup (List.nodup_range') hn]
    intro a
    constructor
    · intro ha
      have := List.all_eq_true.1 h a ha
      simpa using this
    · intro ha
      rw [List.min?_eq_some_iff] at hlo
      rw [List.max?_eq_some_iff] at hhi
      have h1 := hlo.2 a ha
      have h2 := hhi.2 a ha
      rw [List.mem_range'_1]
      omega
  · exact List.Perm.refl _

/-- No elements at all: an error. -/
theorem globalRange_empty (ranks : List (List ℕ)) (h : ranks.flatten = []) : globalRange ranks = none := by
  unfold globalRange
  rw [h]
  rfl

end Phyem.Sections
