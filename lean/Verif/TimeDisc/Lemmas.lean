import Verif.TimeDisc.Spec
import Verif.LinRepr.Props
import Verif.WeakForm.Lemmas

namespace Phyem.TimeDisc

open Phyem.LinRepr (Str Form Scalar Registry isIn replaceText formText validName findUpon)
open Phyem.WeakForm (Kind Term Eqn Wf Env str mapOpt)

theorem validName_iff (n : Str) : validName n = true ↔
    n ≠ [] ∧ ∀ c ∈ n, c ≠ '{' ∧ c ≠ '$' ∧ c ≠ '\\' ∧ c ≠ '}' := by
  simp [validName, List.all_eq_true, and_assoc]

theorem valid_at {ts n k : Str} (hn : validName n = true) (hk : validName (instName ts k) = true) :
    validName (atName ts n k) = true := by
  rw [validName_iff] at hn hk ⊢
  refine ⟨by simp [atName], ?_⟩
  intro c hc
  simp only [atName, List.mem_append, List.mem_singleton] at hc
  rcases hc with (hc | rfl) | hc
  · exact hn.2 c hc
  · decide
  · exact hk.2 c hc

theorem valid_step {ts ks ke : Str} (hs : validName (instName ts ks) = true)
    (he : validName (instName ts ke) = true) : validName (stepName ts ks ke) = true := by
  rw [validName_iff] at hs he ⊢
  refine ⟨by simp [stepName], ?_⟩
  intro c hc
  simp only [stepName, List.mem_append, List.mem_singleton] at hc
  have h1 := hs.2
  have h2 := he.2
  simp only [instName, List.mem_append, List.mem_singleton] at h1 h2
  rcases hc with ((((hc | hc) | hc) | hc) | hc) | hc
  · exact h1 c (by simp [hc])
  · exact h1 c (by simp [hc])
  · exact h1 c (by simp [hc])
  · subst hc; decide
  · exact h2 c (by simp [hc])
  · exact h1 c (by simp [hc])

theorem valid_str (m : ℕ) : validName (str m) = true := by
  rw [validName_iff]
  refine ⟨by unfold str; exact Nat.toDigits_ne_nil, ?_⟩
  intro c hc
  have := Nat.isDigit_of_mem_toDigits (by decide) (by decide) hc
  refine ⟨?_, ?_, ?_, ?_⟩ <;> (rintro rfl; revert this; decide)

theorem wf_sum {ts n : Str} (hn : validName n = true) (t0 : Str) (tis : List Str)
    (h : ∀ t ∈ t0 :: tis, validName (instName ts t) = true) : (sumForms ts n t0 tis).wf := by
  unfold sumForms
  have h0 : (Form.root (atName ts n t0)).wf := valid_at hn (h t0 (by simp))
  revert h0
  have h' : ∀ t ∈ tis, validName (instName ts t) = true := fun t ht => h t (by simp [ht])
  clear h
  generalize (Form.root (atName ts n t0)) = acc
  induction tis generalizing acc with
  | nil => intro h0; exact h0
  | cons t tis ih =>
    intro h0
    simp only [List.foldl_cons]
    exact ih (fun t ht => h' t (by simp [ht])) _ ⟨h0, valid_at hn (h' t (by simp))⟩

theorem wf_average {ts n : Str} (hn : validName n = true) (tis : List Str)
    (h : ∀ t ∈ tis, validName (instName ts t) = true) (a : Form)
    (ha : averageForm ts n tis = some a) : a.wf := by
  match tis, ha with
  | [t], ha =>
    simp only [averageForm, Option.some.injEq] at ha
    subst ha
    exact valid_at hn (h t (by simp))
  | t :: t' :: tis, ha =>
    simp only [averageForm, Option.some.injEq] at ha
    subst ha
    refine ⟨wf_sum hn t _ h, ?_⟩
    intro m hm
    simp only [Scalar.names, List.mem_singleton] at hm
    subst hm
    exact valid_str _

theorem average_single {ts n : Str} {tis : List Str} {a : Form}
    (ha : averageForm ts n tis = some a) (h : tis.length = 1) : a.isRoot = true := by
  match tis, ha with
  | [t], ha =>
    simp only [averageForm, Option.some.injEq] at ha
    subst ha
    rfl
  | t :: t' :: tis, ha => simp at h

theorem wf_subst (f : Form) (n : Str) (a : Form) (hf : f.wf) (ha : a.wf) : (f.subst n a).wf := by
  induction f with
  | root m => by_cases e : m = n <;> simp [Form.subst, e, ha]; exact hf
  | un u f ih => exact ih hf
  | bin b f g ihf ihg => exact ⟨ihf hf.1, ihg hf.2⟩
  | add f g ihf ihg => exact ⟨ihf hf.1, ihg hf.2⟩
  | sub f g ihf ihg => exact ⟨ihf hf.1, ihg hf.2⟩
  | smul c f ih => exact ⟨hf.1, ih hf.2⟩
  | sdiv f c ih => exact ⟨ih hf.1, hf.2⟩

theorem replace_text (f a : Form) (n : Str) (hn : validName n = true) (hf : f.wf)
    (h : a.isRoot = true ∨ f.onlySummand n) :
    replaceText f.lin (formText n) a.lin = (f.subst n a).lin := by
  rw [LinRepr.replaceText_eq f a n hn hf, ← LinRepr.subst_tk n a f h, ← Form.lin_eq]

/-- Filtering by position after numbering splits a list where it was joined. -/
theorem callEqn_eq {R : Type} (disc : Dict (ℕ × ℕ) (TTerm R × Sign)) (i : ℕ) (e : Eqn (TTerm R)) :
    callEqn disc i e = ⟨e.left.zipIdx.map fun p => entry disc i p.2 p.1,
      e.right.zipIdx.map fun p => entry disc i (p.2 + e.left.length) p.1⟩ := by
  unfold callEqn terms
  simp only []
  rw [List.zipIdx_append, List.map_append, List.filter_append, List.filter_append]
  have h1 : (e.left.zipIdx.map fun p => (entry disc i p.2 p.1, p.2)).filter
      (fun q => decide (q.2 < e.left.length)) = e.left.zipIdx.map fun p => (entry disc i p.2 p.1, p.2) := by
    rw [List.filter_eq_self]
    intro q hq
    simp only [List.mem_map] at hq
    obtain ⟨p, hp, rfl⟩ := hq
    have := List.mem_zipIdx' hp
    simpa using this.1
  have h2 : (e.left.zipIdx.map fun p => (entry disc i p.2 p.1, p.2)).filter
      (fun q => !decide (q.2 < e.left.length)) = [] := by
    rw [List.filter_eq_nil_iff]
    intro q hq
    simp only [List.mem_map] at hq
    obtain ⟨p, hp, rfl⟩ := hq
    have := List.mem_zipIdx' hp
    simpa using this.1
  have h3 : ((e.right.zipIdx (0 + e.left.length)).map fun p => (entry disc i p.2 p.1, p.2)).filter
      (fun q => decide (q.2 < e.left.length)) = [] := by
    rw [List.filter_eq_nil_iff]
    intro q hq
    simp only [List.mem_map] at hq
    obtain ⟨p, hp, rfl⟩ := hq
    have := List.le_snd_of_mem_zipIdx hp
    simp at this ⊢; omega
  have h4 : ((e.right.zipIdx (0 + e.left.length)).map fun p => (entry disc i p.2 p.1, p.2)).filter
      (fun q => !decide (q.2 < e.left.length)) =
      (e.right.zipIdx (0 + e.left.length)).map fun p => (entry disc i p.2 p.1, p.2) := by
    rw [List.filter_eq_self]
    intro q hq
    simp only [List.mem_map] at hq
    obtain ⟨p, hp, rfl⟩ := hq
    have := List.le_snd_of_mem_zipIdx hp
    simp at this ⊢; omega
  simp only [h1, h2, h3, h4, List.append_nil, List.nil_append, List.map_map]
  congr 1
  rw [List.zipIdx_eq_map_add]
  simp [List.map_map, Function.comp_def, Nat.add_comm]

end Phyem.TimeDisc
