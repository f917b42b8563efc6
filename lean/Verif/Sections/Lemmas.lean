import Verif.Sections.Spec
import Verif.Great.Boundary

/-!
Facts about boundary sections.
-/

namespace Phyem.Sections

open Phyem.Great Phyem.Dict
open Classical

lemma mapM_eq_some {α β : Type} (f : α → Option β) (l : List α) (r : List β) :
    l.mapM f = some r ↔ List.Forall₂ (fun a b => f a = some b) l r := by
  induction l generalizing r with
  | nil => simp [List.mapM_nil, eq_comm]
  | cons a l ih =>
    rw [List.mapM_cons]
    constructor
    · intro h
      cases hfa : f a with
      | none => rw [hfa] at h; simp at h
      | some b =>
        rw [hfa] at h
        cases hl : l.mapM f with
        | none => rw [hl] at h; simp at h
        | some r' =>
          rw [hl] at h
          simp at h
          subst h
          exact List.Forall₂.cons hfa ((ih r').1 hl)
    · intro h
      cases h with
      | cons h1 h2 =>
        rw [h1, (ih _).2 h2]
        rfl

/-! ### The faces kept -/

lemma mapM_isSome {α β : Type} (f : α → Option β) (l : List α) : (l.mapM f).isSome ↔ ∀ a ∈ l, (f a).isSome := by
  induction l with
  | nil => simp [List.mapM_nil]
  | cons a l ih =>
    rw [List.mapM_cons]
    cases h : f a with
    | none => simp [h]
    | some b =>
      cases hl : l.mapM f with
      | none =>
        rw [hl] at ih
        have hl' : ¬ ∀ a ∈ l, (f a).isSome = true := by rw [← ih]; simp
        simp only [List.forall_mem_cons, not_and, h, Option.isSome_some, true_and]
        simpa using hl'
      | some r =>
        rw [hl] at ih
        have := ih.1 rfl
        simp only [List.forall_mem_cons, h, Option.isSome_some, true_and]
        simpa using this

lemma keep_some (t : Position → Option Bool) (ps l : List Position) (h : keep t ps = some l) :
    (∀ p ∈ ps, (t p).isSome) ∧ l = ps.filter fun p => (t p).getD false := by
  induction ps generalizing l with
  | nil => simp only [keep, Option.some.injEq] at h; subst h; simp
  | cons p ps ih =>
    unfold keep at h
    cases hp : t p with
    | none => rw [hp] at h; simp at h
    | some b =>
      rw [hp] at h
      cases hk : keep t ps with
      | none => rw [hk] at h; simp at h
      | some l' =>
        rw [hk] at h
        obtain ⟨h1, h2⟩ := ih l' hk
        simp only [Option.bind_some, Option.map_some, Option.some.injEq] at h
        subst h
        refine ⟨?_, ?_⟩
        · intro q hq
          rcases List.mem_cons.1 hq with rfl | hq
          · simp [hp]
          · exact h1 q hq
        · rw [List.filter_cons, hp, ← h2]
          cases b <;> simp

lemma keep_of (t : Position → Option Bool) (ps : List Position) (h : ∀ p ∈ ps, (t p).isSome) :
    keep t ps = some (ps.filter fun p => (t p).getD false) := by
  induction ps with
  | nil => rfl
  | cons p ps ih =>
    unfold keep
    obtain ⟨b, hb⟩ := Option.isSome_iff_exists.1 (h p List.mem_cons_self)
    rw [ih fun q hq => h q (List.mem_cons_of_mem _ hq), List.filter_cons, hb]
    cases b <;> simp

lemma keep_none (t : Position → Option Bool) (ps : List Position) :
    keep t ps = none ↔ ∃ p ∈ ps, t p = none := by
  constructor
  · intro h
    by_contra hc
    push Not at hc
    rw [keep_of t ps fun p hp => Option.isSome_iff_ne_none.2 (hc p hp)] at h
    simp at h
  · rintro ⟨p, hp, hn⟩
    cases h : keep t ps with
    | none => rfl
    | some l => have := (keep_some t ps l h).1 p hp; rw [hn] at this; simp at this

lemma localFaces_spec (mesh : Mesh) (all mine : List ℕ) (hn : all.Nodup) (hin : ∀ i ∈ all, i ∈ keys mesh) :
    ∃ ps, localFaces mesh all mine = some ps ∧ ps.Nodup ∧
      ∀ p, p ∈ ps ↔ BoundaryFace mesh all p ∧ p.1 ∈ mine := by
  obtain ⟨bf, hb, hm, hs⟩ := boundary_faces_right mesh all hn hin
  refine ⟨_, by rw [localFaces, hb]; rfl, ?_, ?_⟩
  · refine List.Nodup.filter _ (hs.nodup ?_)
    rw [List.nodup_flatMap]
    refine ⟨fun e _ => (List.nodup_range).map fun a b h => (Prod.mk.inj h).2, hn.imp ?_⟩
    intro a b hab x hx hy
    rw [List.mem_map] at hx hy
    obtain ⟨i, -, rfl⟩ := hx
    obtain ⟨j, -, e⟩ := hy
    exact hab (Prod.mk.inj e).1.symm
  · intro p
    simp only [List.mem_filter, List.mem_map, decide_eq_true_eq, BoundaryFace]
    constructor
    · rintro ⟨⟨⟨q, n⟩, hq, rfl⟩, hmine⟩
      obtain ⟨h1, h2, h3⟩ := (hm q n).1 hq
      exact ⟨⟨h1, ⟨n, h2⟩, h3⟩, hmine⟩
    · rintro ⟨⟨h1, ⟨n, h2⟩, h3⟩, hmine⟩
      exact ⟨⟨(p, n), (hm p n).2 ⟨h1, h2, h3⟩, rfl⟩, hmine⟩

lemma localFaces_filter (mesh : Mesh) (all mine : List ℕ) (ps : List Position)
    (h : localFaces mesh all all = some ps) (hn : all.Nodup) (hin : ∀ i ∈ all, i ∈ keys mesh) :
    localFaces mesh all mine = some (ps.filter fun p => decide (p.1 ∈ mine)) := by
  obtain ⟨bf, hb, hm, hs⟩ := boundary_faces_right mesh all hn hin
  rw [localFaces, hb, Option.map_some, Option.some.injEq] at h ⊢
  subst h
  congr 1
  symm
  rw [List.filter_eq_self]
  intro p hp
  rw [List.mem_map] at hp
  obtain ⟨⟨q, n⟩, hq, rfl⟩ := hp
  exact decide_eq_true ((hm q n).1 hq).1

/-! ### The loops over points and geometries -/

lemma mem_samples {t : ℝ} (h : t ∈ samples) : -1 ≤ t ∧ t ≤ 1 := by
  unfold samples at h
  rw [List.mem_map] at h
  obtain ⟨k, hk, rfl⟩ := h
  have : (k : ℝ) ≤ 12 := by exact_mod_cast Nat.le_of_lt_succ (List.mem_range.1 hk)
  constructor <;> [skip; skip] <;> have := (Nat.cast_nonneg k : (0 : ℝ) ≤ k) <;> linarith

lemma samples_ends : (-1 : ℝ) ∈ samples ∧ (1 : ℝ) ∈ samples := by
  unfold samples
  refine ⟨List.mem_map.2 ⟨0, by simp, by norm_num⟩, List.mem_map.2 ⟨12, by simp, by norm_num⟩⟩

lemma go_true (on : ℝ × ℝ → Option Bool) (face : Face) (ts : List ℝ) :
    faceOn.go on face ts = some true ↔ ∀ t ∈ ts, on (face.map t) = some true := by
  induction ts with
  | nil => simp [faceOn.go]
  | cons t ts ih =>
    rw [faceOn.go]
    cases h : on (face.map t) with
    | none => simp [h]
    | some b => cases b <;> simp [h, ih]

lemma go_isSome (on : ℝ × ℝ → Option Bool) (face : Face) (ts : List ℝ) (h : ∀ t ∈ ts, (on (face.map t)).isSome) :
    (faceOn.go on face ts).isSome := by
  induction ts with
  | nil => simp [faceOn.go]
  | cons t ts ih =>
    rw [faceOn.go]
    obtain ⟨b, hb⟩ := Option.isSome_iff_exists.1 (h t List.mem_cons_self)
    rw [hb]
    cases b
    · simp
    · simpa using ih fun q hq => h q (List.mem_cons_of_mem _ hq)

lemma faceOn_true (on : ℝ × ℝ → Option Bool) (face : Face) :
    faceOn on face = some true ↔ ∀ t ∈ samples, on (face.map t) = some true := go_true on face samples

lemma faceOnAny_true (ons : List (ℝ × ℝ → Option Bool)) (face : Face)
    (h : faceOnAny ons face = some true) : ∃ on ∈ ons, ∀ t ∈ samples, on (face.map t) = some true := by
  induction ons with
  | nil => simp [faceOnAny] at h
  | cons on ons ih =>
    unfold faceOnAny at h
    cases hf : faceOn on face with
    | none => rw [hf] at h; simp at h
    | some b =>
      rw [hf] at h
      cases b
      · obtain ⟨o, ho, hs⟩ := ih (by simpa using h)
        exact ⟨o, List.mem_cons_of_mem _ ho, hs⟩
      · exact ⟨on, List.mem_cons_self, (faceOn_true on face).1 hf⟩

lemma go_not_false (on : ℝ × ℝ → Option Bool) (face : Face) (ts : List ℝ)
    (h : ∀ t ∈ ts, on (face.map t) ≠ some false) : faceOn.go on face ts ≠ some false := by
  induction ts with
  | nil => simp [faceOn.go]
  | cons t ts ih =>
    rw [faceOn.go]
    have ht := h t List.mem_cons_self
    have ih' := ih fun q hq => h q (List.mem_cons_of_mem _ hq)
    cases hb : on (face.map t) with
    | none => simp
    | some b =>
      cases b
      · exact absurd hb ht
      · simpa using ih'

lemma faceOnAny_of (ons : List (ℝ × ℝ → Option Bool)) (face : Face) (b : Bool)
    (h : faceOnAny ons face = some b) (on : ℝ × ℝ → Option Bool) (hon : on ∈ ons)
    (hs : ∀ t ∈ samples, on (face.map t) ≠ some false) : b = true := by
  induction ons with
  | nil => simp at hon
  | cons o ons ih =>
    unfold faceOnAny at h
    cases hf : faceOn o face with
    | none => rw [hf] at h; simp at h
    | some c =>
      rw [hf] at h
      cases c
      · rcases List.mem_cons.1 hon with rfl | hon
        · exact absurd hf (go_not_false on face samples hs)
        · exact ih (by simpa using h) hon
      · simpa [eq_comm] using h

lemma faceOnAny_isSome (ons : List (ℝ × ℝ → Option Bool)) (face : Face)
    (h : ∀ on ∈ ons, ∀ t ∈ samples, (on (face.map t)).isSome) : (faceOnAny ons face).isSome := by
  induction ons with
  | nil => simp [faceOnAny]
  | cons o ons ih =>
    unfold faceOnAny
    obtain ⟨b, hb⟩ := Option.isSome_iff_exists.1 (go_isSome o face samples (h o List.mem_cons_self))
    rw [faceOn, hb]
    cases b
    · simpa using ih fun q hq => h q (List.mem_cons_of_mem _ hq)
    · simp

end Phyem.Sections
