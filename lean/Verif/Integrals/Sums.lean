import Verif.Integrals.Model
import Verif.Trilinear.Props
import Mathlib.Algebra.BigOperators.Group.List.Lemmas
import Mathlib.Algebra.Order.BigOperators.Group.List
import Mathlib.Data.List.Perm.Basic
import Mathlib.Tactic.Ring
import Mathlib.Tactic.Linarith

/-! # The trilinear number and integrals -/

namespace Phyem.Integrals

/-- The values of the components in an element at a point. -/
def Rec.at (r : Rec) (e l : ℕ) : List ℚ := (List.range r.comps).map fun i => r.val i e l

lemma mapM_some {α β : Type} (g : α → β) : ∀ l : List α, l.mapM (fun x => some (g x)) = some (l.map g)
  | [] => rfl
  | x :: l => by rw [List.mapM_cons, mapM_some g l]; rfl

lemma sumRanks_some (g : ℕ → ℚ) (ranks : List (List ℕ)) : sumRanks (fun e => some (g e)) ranks = some ((ranks.flatten.map g).sum) := by
  unfold sumRanks
  have : (fun es : List ℕ => (do let l ← es.mapM (fun e => some (g e)); pure l.sum : Option ℚ)) = fun es => some ((es.map g).sum) := by
    funext es
    rw [mapM_some]; rfl
  rw [this, mapM_some]
  show some _ = some _
  congr 1
  induction ranks with
  | nil => rfl
  | cons es l ih => simp [ih]

lemma mapM_none {α β : Type} (f : α → Option β) : ∀ (l : List α), (∃ x ∈ l, f x = none) → l.mapM f = none
  | [], h => by obtain ⟨x, hx, _⟩ := h; cases hx
  | y :: l, h => by
    rw [List.mapM_cons]
    rcases hy : f y with _ | v
    · rfl
    · have := mapM_none f l (by
        obtain ⟨x, hx, h1⟩ := h
        rcases List.mem_cons.1 hx with rfl | hx
        · rw [hy] at h1; cases h1
        · exact ⟨x, hx, h1⟩)
      rw [this]; rfl

lemma sumRanks_none {f : ℕ → Option ℚ} {ranks : List (List ℕ)} {e : ℕ} (he : e ∈ ranks.flatten) (hf : f e = none) : sumRanks f ranks = none := by
  obtain ⟨es, hes, he⟩ := List.mem_flatten.1 he
  unfold sumRanks
  rw [mapM_none _ ranks ⟨es, hes, by rw [mapM_none f es ⟨e, he, hf⟩]; rfl⟩]
  rfl

/-- Which forms are accepted: three vectors in space; a scalar and two vectors in the plane. -/
def Accepted (d : ℕ) (A B C : Rec) : Prop := (d = 3 ∧ A.comps = 3 ∧ B.comps = 3 ∧ C.comps = 3) ∨ (d = 2 ∧ A.comps = 1 ∧ B.comps = 2 ∧ C.comps = 2)

lemma aElem_some {d n : ℕ} {qw : ℕ → ℚ} {detJ : ℕ → ℕ → ℚ} {A B C : Rec} (h : Accepted d A B C) (e : ℕ) :
    aElem d n qw detJ A B C e = some (npSum n fun l => Trilinear.triple (A.at e l) (B.at e l) (C.at e l) * qw l * detJ e l) := by
  unfold aElem
  rcases h with ⟨rfl, ha, hb, hc⟩ | ⟨rfl, ha, hb, hc⟩
  · rw [if_pos (by rw [ha, hb, hc])]
    congr 2
    funext l
    unfold Rec.at
    rw [ha, hb, hc]
    simp only [List.range_succ, List.range_zero, List.nil_append, List.map_append, List.map_cons, List.map_nil, List.cons_append]
    rw [Trilinear.triple_333]
    ring
  · rw [if_neg (by simp), if_pos (by rw [ha, hb, hc])]
    congr 2
    funext l
    unfold Rec.at
    rw [ha, hb, hc]
    simp only [List.range_succ, List.range_zero, List.nil_append, List.map_append, List.map_cons, List.map_nil, List.cons_append]
    rw [Trilinear.triple_122]
    ring

/-- `a(A, B, C)` is the quadrature of `(A × B) · C` over the elements of all ranks; forms with other numbers of components are refused, if there is
any element. -/
theorem a_spec {d n : ℕ} {qw : ℕ → ℚ} {detJ : ℕ → ℕ → ℚ} {A B C : Rec} {ranks : List (List ℕ)} :
    (Accepted d A B C → a d n qw detJ A B C ranks = some ((ranks.flatten.map fun e =>
      ((List.range n).map fun l => Trilinear.triple (A.at e l) (B.at e l) (C.at e l) * qw l * detJ e l).sum).sum)) ∧
    (¬Accepted d A B C → ranks.flatten ≠ [] → a d n qw detJ A B C ranks = none) := by
  constructor
  · intro h
    have hd : d = 2 ∨ d = 3 := by rcases h with ⟨h, _⟩ | ⟨h, _⟩ <;> simp [h]
    unfold a
    rw [if_pos hd, show aElem d n qw detJ A B C = fun e => some _ from funext (aElem_some h), sumRanks_some]
    rfl
  · intro h hne
    unfold a
    split_ifs with hd
    · obtain ⟨e, he⟩ := List.exists_mem_of_ne_nil _ hne
      apply sumRanks_none he
      unfold aElem
      rw [if_neg, if_neg]
      · intro h1
        simp only [Prod.mk.injEq] at h1
        exact h (Or.inr h1)
      · intro h1
        simp only [Prod.mk.injEq] at h1
        exact h (Or.inl h1)
    · rfl

/-- Three vectors in space, at one point. -/
def exRec (x y z : ℚ) : Rec := ⟨3, fun i _ _ => if i = 0 then x else if i = 1 then y else z⟩

example : Accepted 3 (exRec 1 0 0) (exRec 0 1 0) (exRec 0 0 1) ∧
    a 3 2 (fun _ => 1) (fun _ _ => 3) (exRec 1 0 0) (exRec 0 1 0) (exRec 0 0 1) [[4, 7], [5]] = some 18 :=
  ⟨Or.inl ⟨rfl, rfl, rfl, rfl⟩, by decide +kernel⟩

lemma triple_skew (A B C : List ℚ) : Trilinear.triple A B C = -Trilinear.triple A C B := by
  unfold Trilinear.triple
  simp only [cross_apply, Matrix.vec3_dotProduct]
  simp only [Matrix.cons_val]
  ring

/-- It changes its sign with the last two forms, whatever the quadrature, and so it is zero for equal ones. -/
theorem a_skew {d n : ℕ} {qw : ℕ → ℚ} {detJ : ℕ → ℕ → ℚ} {A B C : Rec} {ranks : List (List ℕ)} (h : Accepted d A B C) :
    (∃ x, a d n qw detJ A B C ranks = some x ∧ a d n qw detJ A C B ranks = some (-x)) ∧ a d n qw detJ A B B ranks = some 0 := by
  have h1 : Accepted d A C B := by
    rcases h with ⟨hd, ha, hb, hc⟩ | ⟨hd, ha, hb, hc⟩
    · exact Or.inl ⟨hd, ha, hc, hb⟩
    · exact Or.inr ⟨hd, ha, hc, hb⟩
  have h2 : Accepted d A B B := by
    rcases h with ⟨hd, ha, hb, hc⟩ | ⟨hd, ha, hb, hc⟩
    · exact Or.inl ⟨hd, ha, hb, hb⟩
    · exact Or.inr ⟨hd, ha, hb, hb⟩
  refine ⟨⟨_, a_spec.1 h, ?_⟩, ?_⟩
  · rw [a_spec.1 h1]
    congr 1
    rw [Trilinear.sum_neg]
    congr 1
    apply List.map_congr_left
    intro e _
    rw [Trilinear.sum_neg]
    congr 1
    apply List.map_congr_left
    intro l _
    rw [triple_skew (A.at e l) (C.at e l)]
    ring
  · rw [a_spec.1 h2]
    congr 1
    apply List.sum_eq_zero
    intro x hx
    obtain ⟨e, _, rfl⟩ := List.mem_map.1 hx
    apply List.sum_eq_zero
    intro x hx
    obtain ⟨l, _, rfl⟩ := List.mem_map.1 hx
    have := triple_skew (A.at e l) (B.at e l) (B.at e l)
    rw [show Trilinear.triple (A.at e l) (B.at e l) (B.at e l) = 0 by linarith]
    ring

/-- How the elements are distributed over ranks, and their order, does not matter. -/
theorem a_ranks {d n : ℕ} {qw : ℕ → ℚ} {detJ : ℕ → ℕ → ℚ} {A B C : Rec} {ranks ranks' : List (List ℕ)} (h : Accepted d A B C)
    (hp : ranks.flatten.Perm ranks'.flatten) : a d n qw detJ A B C ranks = a d n qw detJ A B C ranks' := by
  rw [a_spec.1 h, a_spec.1 h, (hp.map _).sum_eq]

example : ([[4, 7], [5]] : List (List ℕ)).flatten.Perm ([[], [7, 5, 4]] : List (List ℕ)).flatten := by decide

/-- The number of an element is the contraction of the three-dimensional array of the nonlinear term `(A × B, C)` with the cochains, if the fields are
reconstructed with the matrices of the array. -/
theorem a_is_term {d n nA nB nC : ℕ} {qw : ℕ → ℚ} {detJ : ℕ → ℕ → ℚ} {A B C : Rec} (h : Accepted d A B C) {e : ℕ}
    (pt : ℕ → Trilinear.Pt ℚ) (x y z : ℕ → ℚ)
    (hf : Trilinear.Fits A.comps B.comps C.comps nA nB nC ((List.range n).map pt))
    (hA : ∀ l < n, A.at e l = Trilinear.field (pt l).a x) (hB : ∀ l < n, B.at e l = Trilinear.field (pt l).b y)
    (hC : ∀ l < n, C.at e l = Trilinear.field (pt l).c z) (hm : ∀ l < n, (pt l).m = qw l * detJ e l) :
    ∃ D, Trilinear.cross d A.comps B.comps C.comps ((List.range n).map pt) = some D ∧
      a d n qw detJ A B C [[e]] = some (Trilinear.full nA nB nC D x y z) := by
  have hD : ∃ D, Trilinear.cross d A.comps B.comps C.comps ((List.range n).map pt) = some D := by
    rcases h with ⟨rfl, ha, hb, hc⟩ | ⟨rfl, ha, hb, hc⟩
    · rw [ha, hb, hc]; exact ⟨_, rfl⟩
    · rw [ha, hb, hc]; exact ⟨_, rfl⟩
  obtain ⟨D, hD⟩ := hD
  refine ⟨D, hD, ?_⟩
  rw [a_spec.1 h, Trilinear.cross_is_integral hf hD, Trilinear.quad, List.map_map]
  simp only [List.flatten_cons, List.flatten_nil, List.append_nil, List.map_cons, List.map_nil, List.sum_cons, List.sum_nil, add_zero]
  congr 2
  apply List.map_congr_left
  intro l hl
  have hl := List.mem_range.1 hl
  simp only [Function.comp]
  rw [hA l hl, hB l hl, hC l hl, hm l hl]
  ring

end Phyem.Integrals
