import Verif.DynSys.Spec
import Mathlib.Algebra.BigOperators.Ring.Finset
import Mathlib.Algebra.BigOperators.Group.Finset.Sigma
import Mathlib.Tactic.Ring
import Mathlib.Tactic.Linarith

/-!
Products and sums of local matrices; the heap.
-/

namespace Phyem.DynSys

open Phyem OpCache

section Algebra
variable {K : Type} [Field K]

lemma mul_assoc' (A B D : LM K) :
    ((A.mul B).bind fun X => X.mul D) = (B.mul D).bind fun Y => A.mul Y := by
  unfold LM.mul
  by_cases h1 : A.cols = B.rows <;> by_cases h2 : B.cols = D.rows <;> simp [h1, h2]
  funext r c
  simp_rw [Finset.sum_mul, Finset.mul_sum]
  rw [Finset.sum_comm]
  refine Finset.sum_congr rfl fun k _ => Finset.sum_congr rfl fun l _ => by ring

lemma mulVec_assoc (A B : LM K) (u : LV K) :
    ((A.mul B).bind fun X => X.mulVec u) = (B.mulVec u).bind fun y => A.mulVec y := by
  unfold LM.mul LM.mulVec
  by_cases h1 : A.cols = B.rows <;> by_cases h2 : B.cols = u.len <;> simp [h1, h2]
  funext r
  simp_rw [Finset.sum_mul, Finset.mul_sum]
  rw [Finset.sum_comm]
  refine Finset.sum_congr rfl fun k _ => Finset.sum_congr rfl fun l _ => by ring

lemma add_assoc' (A B D : LM K) :
    ((A.add B).bind fun X => X.add D) = (B.add D).bind fun Y => A.add Y := by
  unfold LM.add
  by_cases h1 : A.rows = B.rows ∧ A.cols = B.cols <;> by_cases h2 : B.rows = D.rows ∧ B.cols = D.cols
  · rw [if_pos h1, if_pos h2]
    change (if A.rows = D.rows ∧ A.cols = D.cols then _ else none) =
      if A.rows = B.rows ∧ A.cols = B.cols then _ else none
    rw [if_pos h1, if_pos ⟨h1.1.trans h2.1, h1.2.trans h2.2⟩]
    simp [add_assoc]
  · rw [if_pos h1, if_neg h2]
    exact if_neg fun h => h2 ⟨h1.1.symm.trans h.1, h1.2.symm.trans h.2⟩
  · rw [if_neg h1, if_pos h2]
    exact (if_neg h1).symm
  · rw [if_neg h1, if_neg h2]
    rfl

lemma vadd_assoc (A B D : LV K) :
    ((A.add B).bind fun X => X.add D) = (B.add D).bind fun Y => A.add Y := by
  unfold LV.add
  by_cases h1 : A.len = B.len <;> by_cases h2 : B.len = D.len
  · simp [h1, h2, add_assoc]
  · simp [h1, h2]
  · rw [if_neg h1, if_pos h2]
    exact (if_neg h1).symm
  · rw [if_neg h1, if_neg h2]
    rfl

lemma chain_cons (A : Option (LM K)) {l : List (Option (LM K))} (hl : l ≠ []) :
    chain (A :: l) = A.bind fun A => (chain l).bind fun B => A.mul B := by
  cases l with
  | nil => exact absurd rfl hl
  | cons b l => rfl

lemma chain_append {l l' : List (Option (LM K))} (hl : l ≠ []) (hl' : l' ≠ []) :
    chain (l ++ l') = (chain l).bind fun A => (chain l').bind fun B => A.mul B := by
  induction l with
  | nil => exact absurd rfl hl
  | cons a l ih =>
    by_cases h : l = []
    · subst h
      rw [List.singleton_append, chain_cons _ hl']
      rfl
    · rw [List.cons_append, chain_cons _ (by simp [h]), ih h, chain_cons _ h]
      cases a with
      | none => rfl
      | some A =>
        cases chain l with
        | none => rfl
        | some B =>
          cases chain l' with
          | none => change none = (A.mul B).bind _; cases A.mul B <;> rfl
          | some D => exact (mul_assoc' A B D).symm

lemma total_cons (A : Option (LM K)) {l : List (Option (LM K))} (hl : l ≠ []) :
    total (A :: l) = A.bind fun A => (total l).bind fun B => A.add B := by
  cases l with
  | nil => exact absurd rfl hl
  | cons b l => rfl

/-- The sum of the first two terms may be taken first. -/
lemma total_two (A B : Option (LM K)) (l : List (Option (LM K))) :
    total ((A.bind fun A => B.bind fun B => A.add B) :: l) = total (A :: B :: l) := by
  by_cases h : l = []
  · subst h
    rfl
  · rw [total_cons _ h, total_cons _ (by simp), total_cons _ h]
    cases A with
    | none => rfl
    | some A =>
      cases B with
      | none => rfl
      | some B =>
        cases total l with
        | none => change (A.add B).bind _ = none; cases A.add B <;> rfl
        | some D => exact add_assoc' A B D

lemma vtotal_cons (A : Option (LV K)) {l : List (Option (LV K))} (hl : l ≠ []) :
    vtotal (A :: l) = A.bind fun A => (vtotal l).bind fun B => A.add B := by
  cases l with
  | nil => exact absurd rfl hl
  | cons b l => rfl

lemma vtotal_two (A B : Option (LV K)) (l : List (Option (LV K))) :
    vtotal ((A.bind fun A => B.bind fun B => A.add B) :: l) = vtotal (A :: B :: l) := by
  by_cases h : l = []
  · subst h
    rfl
  · rw [vtotal_cons _ h, vtotal_cons _ (by simp), vtotal_cons _ h]
    cases A with
    | none => rfl
    | some A =>
      cases B with
      | none => rfl
      | some B =>
        cases vtotal l with
        | none => change (A.add B).bind _ = none; cases A.add B <;> rfl
        | some D => exact vadd_assoc A B D

variable {T τ C : Type}

lemma vecChain_cons (w : World T τ C K) (cf : List (Config C)) (bc : Option (List (ℕ × List BC))) (t : T)
    (e : ℕ) (a : Arr T τ K) {l : List (Arr T τ K)} (hl : l ≠ []) :
    vecChain w cf bc t e (a :: l) =
      (compMat w t a e).bind fun A => (vecChain w cf bc t e l).bind fun u => A.mulVec u := by
  cases l with
  | nil => exact absurd rfl hl
  | cons b l => rfl

lemma vecChain_append (w : World T τ C K) (cf : List (Config C)) (bc : Option (List (ℕ × List BC)))
    (t : T) (e : ℕ) {l l' : List (Arr T τ K)} (hl : l ≠ []) (hl' : l' ≠ []) :
    vecChain w cf bc t e (l ++ l') =
      (chain (l.map fun a => compMat w t a e)).bind fun A =>
        (vecChain w cf bc t e l').bind fun u => A.mulVec u := by
  induction l with
  | nil => exact absurd rfl hl
  | cons a l ih =>
    by_cases h : l = []
    · subst h
      rw [List.singleton_append, vecChain_cons _ _ _ _ _ _ hl']
      rfl
    · rw [List.cons_append, vecChain_cons _ _ _ _ _ _ (by simp [h]), ih h, List.map_cons,
        chain_cons _ (by simpa using h)]
      cases compMat w t a e with
      | none => rfl
      | some A =>
        cases chain (l.map fun a => compMat w t a e) with
        | none => rfl
        | some B =>
          cases vecChain w cf bc t e l' with
          | none => change none = (A.mul B).bind _; cases A.mul B <;> rfl
          | some D => exact (mulVec_assoc A B D).symm

lemma chainGm_cons (a : Option (ℕ × ℕ)) {l : List (Option (ℕ × ℕ))} (hl : l ≠ []) :
    chainGm (a :: l) = a.bind fun p => (chainGm l).map fun q => (p.1, q.2) := by
  cases l with
  | nil => exact absurd rfl hl
  | cons b l => rfl

lemma chainGm_append {l l' : List (Option (ℕ × ℕ))} {p q : ℕ × ℕ} (h : chainGm l = some p)
    (h' : chainGm l' = some q) : chainGm (l ++ l') = some (p.1, q.2) := by
  have hl' : l' ≠ [] := by rintro rfl; cases h'
  induction l generalizing p with
  | nil => cases h
  | cons a l ih =>
    by_cases hl : l = []
    · subst hl
      have h : a = some p := h
      rw [List.singleton_append, chainGm_cons _ hl', h, h']
      rfl
    · rw [chainGm_cons _ hl] at h
      rw [List.cons_append, chainGm_cons _ (by simp [hl])]
      cases a with
      | none => cases h
      | some a =>
        cases hc : chainGm l with
        | none => rw [hc] at h; cases h
        | some r =>
          rw [hc] at h
          obtain rfl := Option.some.inj h
          rw [ih hc]
          rfl

lemma vecGm_append (w : World T τ C K) (t : T) {l l' : List (Arr T τ K)} {p : ℕ × ℕ}
    (h : chainGm (l.map (compGm w t)) = some p) (hl' : l' ≠ []) : vecGm w t (l ++ l') = some p.1 := by
  cases l with
  | nil => cases h
  | cons a l =>
    obtain ⟨b, r, hb⟩ : ∃ b r, l ++ l' = b :: r := by
      cases h : l ++ l' with
      | nil => simp_all
      | cons b r => exact ⟨b, r, rfl⟩
    rw [List.cons_append, hb]
    change (compGm w t a).map Prod.fst = _
    by_cases hl : l = []
    · subst hl
      have h : compGm w t a = some p := h
      rw [h]
      rfl
    · rw [List.map_cons, chainGm_cons _ (by simpa using hl)] at h
      cases ha : compGm w t a with
      | none => rw [ha] at h; cases h
      | some q =>
        rw [ha] at h
        cases hc : chainGm (l.map (compGm w t)) with
        | none => rw [hc] at h; cases h
        | some r =>
          rw [hc] at h
          obtain rfl := Option.some.inj h
          rfl

end Algebra

/-! ### The heap -/

section Heap
variable {K : Type}

abbrev Hp (K : Type) := List (Op (LM K) × Dict ℕ (LM K))

/-- `j` is an operand of the `i`-th object. -/
def Uses (h : Hp K) (i j : ℕ) : Prop :=
  ∃ kind args f c, h[i]? = some (.derived kind args f, c) ∧ j ∈ args

/-- Operands are older. -/
def Wf (h : Hp K) : Prop := ∀ i j, Uses h i j → j < i

lemma value_agree {h h' : Hp K} (S : ℕ → Prop) (hS : ∀ i, S i → h[i]? = h'[i]?)
    (hc : ∀ i j, S i → Uses h i j → S j) :
    ∀ n i e, S i → value h n i e = value h' n i e := by
  intro n
  induction n with
  | zero => intro i e _; rfl
  | succ n ih =>
    intro i e hi
    simp only [value]
    rw [← hS i hi]
    cases ho : h[i]? with
    | none => rfl
    | some o =>
      obtain ⟨op, c⟩ := o
      cases op with
      | leaf d k => rfl
      | derived kind args f =>
        have : args.map (fun j => value h n j e) = args.map fun j => value h' n j e := by
          apply List.map_congr_left
          intro j hj
          exact ih j e (hc i j hi ⟨kind, args, f, c, ho, hj⟩)
        simp only [this]

lemma value_enough {h : Hp K} (hw : Wf h) :
    ∀ n n' i e, i < n → i < n' → value h n i e = value h n' i e := by
  intro n
  induction n with
  | zero => intro n' i e hi; omega
  | succ n ih =>
    intro n' i e hi hi'
    obtain ⟨n', rfl⟩ : ∃ m, n' = m + 1 := ⟨n' - 1, by omega⟩
    simp only [value]
    cases ho : h[i]? with
    | none => rfl
    | some o =>
      obtain ⟨op, c⟩ := o
      cases op with
      | leaf d k => rfl
      | derived kind args f =>
        have : args.map (fun j => value h n j e) = args.map fun j => value h n' j e := by
          apply List.map_congr_left
          intro j hj
          have hlt := hw i j ⟨kind, args, f, c, ho, hj⟩
          exact ih n' j e (by omega) (by omega)
        simp only [this]

/-- Objects below `L` mean the same on two heaps that agree there. -/
lemma read_agree {h h' : Hp K} (L : ℕ) (hS : ∀ i < L, h[i]? = h'[i]?) (hw : Wf h) (i e : ℕ) (hi : i < L) :
    readM h i e = readM h' i e :=
  value_agree (fun i => i < L) hS (fun i j hi hu => lt_trans (hw i j hu) hi) _ _ _ hi

/-- No object has `k` as an operand. -/
def Unused (k : ℕ) (h : Hp K) : Prop := ∀ i, ¬ Uses h i k

/-- `h'` has objects after those of `h`, whose operands are below `L0` or new. -/
structure Ext (L0 : ℕ) (h h' : Hp K) : Prop where
  pre : h <+: h'
  seg : ∀ i j, h.length ≤ i → Uses h' i j → j < L0 ∨ h.length ≤ j

lemma getElem?_prefix {α : Type} {h h' : List α} (hp : h <+: h') {i : ℕ} (hi : i < h.length) :
    h'[i]? = h[i]? := by
  obtain ⟨r, rfl⟩ := hp
  exact List.getElem?_append_left hi

lemma Ext.refl (L0 : ℕ) (h : Hp K) : Ext L0 h h :=
  ⟨List.prefix_refl _, fun i j hi hu => by
    obtain ⟨_, _, _, _, ho, _⟩ := hu
    rw [List.getElem?_eq_none hi] at ho
    cases ho⟩

lemma uses_prefix {h h' : Hp K} (hp : h <+: h') {i j : ℕ} (hi : i < h.length) :
    Uses h' i j ↔ Uses h i j := by
  unfold Uses
  rw [getElem?_prefix hp hi]

lemma Ext.trans {L0 : ℕ} {h h' h'' : Hp K} (a : Ext L0 h h') (b : Ext L0 h' h'') : Ext L0 h h'' := by
  refine ⟨a.pre.trans b.pre, fun i j hi hu => ?_⟩
  by_cases hi' : i < h'.length
  · exact a.seg i j hi ((uses_prefix b.pre hi').mp hu)
  · have := a.pre.length_le
    rcases b.seg i j (by omega) hu with h1 | h1
    · exact .inl h1
    · exact .inr (by omega)

lemma Ext.unused {L0 : ℕ} {h h' : Hp K} (a : Ext L0 h h') {k : ℕ} (hk : L0 ≤ k) (hk' : k < h.length)
    (hu : Unused k h) : Unused k h' := by
  intro i hi
  by_cases hl : i < h.length
  · exact hu i ((uses_prefix a.pre hl).mp hi)
  · rcases a.seg i k (by omega) hi with h1 | h1 <;> omega

lemma read_prefix {h h' : Hp K} (hp : h <+: h') (hw : Wf h) (i e : ℕ) (hi : i < h.length) :
    readM h' i e = readM h i e :=
  (read_agree h.length (fun j hj => (getElem?_prefix hp hj).symm) hw i e hi).symm

/-- An object was changed: others mean the same if it is not an operand of any. -/
lemma read_modify {h : Hp K} {k : ℕ} (hu : Unused k h) (f : Op (LM K) × Dict ℕ (LM K) → Op (LM K) × Dict ℕ (LM K))
    (i e : ℕ) (hi : i ≠ k) : readM (h.modify k f) i e = readM h i e := by
  refine (value_agree (h := h) (fun i => i ≠ k) ?_ ?_ _ _ _ hi).symm
  · intro j hj
    rw [List.getElem?_modify]
    simp [Ne.symm hj]
  · rintro i j - hj rfl
    exact hu i hj

lemma uses_modify {h : Hp K} (k : ℕ) (f : Op (LM K) × Dict ℕ (LM K) → Op (LM K) × Dict ℕ (LM K))
    (hf : ∀ o, (f o).1 = o.1) (i j : ℕ) : Uses (h.modify k f) i j ↔ Uses h i j := by
  unfold Uses
  rw [List.getElem?_modify]
  cases h[i]? with
  | none => simp
  | some o =>
    by_cases hk : k = i
    · have hfo := hf o
      rcases o with ⟨op, c⟩
      rcases hf' : f (op, c) with ⟨op', c'⟩
      rw [hf'] at hfo
      have hfo : op' = op := hfo
      subst hfo
      simp only [hk, if_true, Option.map_eq_map, Option.map_some, hf', Option.some.injEq, Prod.mk.injEq]
      constructor
      · rintro ⟨kind, args, g, _, ⟨rfl, _⟩, hj⟩
        exact ⟨kind, args, g, _, ⟨rfl, rfl⟩, hj⟩
      · rintro ⟨kind, args, g, _, ⟨rfl, _⟩, hj⟩
        exact ⟨kind, args, g, _, ⟨rfl, rfl⟩, hj⟩
    · simp [hk]

/-- A new object. -/
lemma read_push {h : Hp K} (hw : Wf h) (kind : Kind) (args : List ℕ) (f : List (LM K) → Option (LM K))
    (ha : ∀ j ∈ args, j < h.length) (e : ℕ) :
    readM (h ++ [(.derived kind args f, [])]) h.length e =
      (allSome (args.map fun j => readM h j e)).bind f := by
  have hg : (h ++ [((.derived kind args f : Op (LM K)), ([] : Dict ℕ (LM K)))])[h.length]? =
      some (.derived kind args f, []) := by simp
  unfold readM
  simp only [value, hg]
  have : args.map (fun j => value (h ++ [((.derived kind args f : Op (LM K)), ([] : Dict ℕ (LM K)))])
      h.length j e) = args.map fun j => value h (j + 1) j e := by
    apply List.map_congr_left
    intro j hj
    have hj' := ha j hj
    rw [value_enough hw (j + 1) h.length j e (by omega) hj']
    symm
    refine value_agree (fun i => i < h.length) (fun i hi => ?_) (fun i j hi hu => lt_trans (hw i j hu) hi)
      _ _ _ hj'
    exact (getElem?_prefix (List.prefix_append _ _) hi).symm
  simp only [this]
  rfl

lemma read_leaf (h : Hp K) (d : ℕ → Option (LM K)) (k : ℕ → Key) (e : ℕ) :
    readM (h ++ [(.leaf d k, [])]) h.length e = d e := by
  have hg : (h ++ [((.leaf d k : Op (LM K)), ([] : Dict ℕ (LM K)))])[h.length]? =
      some (.leaf d k, []) := by simp
  unfold readM
  simp only [value, hg]
  rfl

lemma uses_push {h : Hp K} (o : Op (LM K)) {i j : ℕ} (hu : Uses (h ++ [(o, [])]) i j) :
    Uses h i j ∨ i = h.length ∧ ∃ kind args f, o = .derived kind args f ∧ j ∈ args := by
  by_cases hi : i < h.length
  · exact .inl ((uses_prefix (List.prefix_append _ _) hi).mp hu)
  · obtain ⟨kind, args, f, c, ho, hj⟩ := hu
    have hi' : i = h.length := by
      have := (List.getElem?_eq_some_iff.mp ho).1
      simp at this
      omega
    subst hi'
    simp only [List.getElem?_concat_length, Option.some.injEq, Prod.mk.injEq] at ho
    exact .inr ⟨rfl, kind, args, f, ho.1, hj⟩

lemma wf_push {h : Hp K} (hw : Wf h) (o : Op (LM K))
    (ha : ∀ kind args f, o = .derived kind args f → ∀ j ∈ args, j < h.length) :
    Wf (h ++ [(o, [])]) := by
  intro i j hu
  rcases uses_push o hu with hu | ⟨rfl, kind, args, f, ho, hj⟩
  · exact hw i j hu
  · exact ha kind args f ho j hj

lemma ext_push {L0 : ℕ} {h : Hp K} (o : Op (LM K))
    (ha : ∀ kind args f, o = .derived kind args f → ∀ j ∈ args, j < L0) :
    Ext L0 h (h ++ [(o, [])]) := by
  refine ⟨List.prefix_append _ _, fun i j hi hu => ?_⟩
  rcases uses_push o hu with hu | ⟨rfl, kind, args, f, ho, hj⟩
  · obtain ⟨_, _, _, _, ho, _⟩ := hu
    rw [List.getElem?_eq_none hi] at ho
    cases ho
  · exact .inl (ha kind args f ho j hj)

/-- Continue an extension by an object whose operands are below `L0` or new. -/
lemma Ext.push {L0 : ℕ} {h h' : Hp K} (a : Ext L0 h h') (o : Op (LM K))
    (ha : ∀ kind args f, o = .derived kind args f → ∀ j ∈ args, j < L0 ∨ h.length ≤ j) :
    Ext L0 h (h' ++ [(o, [])]) := by
  refine ⟨a.pre.trans (List.prefix_append _ _), fun i j hi hu => ?_⟩
  rcases uses_push o hu with hu | ⟨rfl, kind, args, f, ho, hj⟩
  · exact a.seg i j hi hu
  · exact ha kind args f ho j hj

lemma unused_push {h : Hp K} (hw : Wf h) (o : Op (LM K)) 
    (ha : ∀ kind args f, o = .derived kind args f → ∀ j ∈ args, j < h.length) :
    Unused h.length (h ++ [(o, [])]) := by
  intro i hu
  have h1 := wf_push hw o ha i _ hu
  obtain ⟨_, _, _, _, ho, _⟩ := hu
  have := (List.getElem?_eq_some_iff.mp ho).1
  simp at this
  omega

end Heap

/-! ### Computations -/

namespace M
variable {σ α β : Type}

/-- Started in `s`, however the computation ends `R` holds, and if it gives a value then `Q`. -/
def Tri (m : M σ β) (s : σ) (R : σ → Prop) (Q : β → σ → Prop) : Prop :=
  R (m s).1 ∧ ∀ b, (m s).2 = some b → Q b (m s).1

lemma Tri.bind {m : M σ α} {f : α → M σ β} {s : σ} {R R' : σ → Prop} {Q : α → σ → Prop}
    {Q' : β → σ → Prop} (hm : Tri m s R Q) (hR : ∀ s', R s' → R' s')
    (hf : ∀ a s', R s' → Q a s' → Tri (f a) s' R' Q') : Tri (bind m f) s R' Q' := by
  obtain ⟨h1, h2⟩ := hm
  unfold Tri M.bind
  rcases h : m s with ⟨s1, _ | a⟩
  · rw [h] at h1
    exact ⟨hR _ h1, fun b hb => by cases hb⟩
  · rw [h] at h1 h2
    exact hf a s1 h1 (h2 a rfl)

lemma tri_pure {b : β} {s : σ} {R : σ → Prop} {Q : β → σ → Prop} (hR : R s) (hQ : Q b s) :
    Tri (pure b) s R Q := ⟨hR, fun _ h => by cases h; exact hQ⟩

lemma tri_fail {s : σ} {R : σ → Prop} {Q : β → σ → Prop} (hR : R s) : Tri fail s R Q :=
  ⟨hR, fun _ h => by cases h⟩

lemma tri_lift {o : Option β} {s : σ} {R : σ → Prop} {Q : β → σ → Prop} (hR : R s)
    (hQ : ∀ b, o = some b → Q b s) : Tri (lift o) s R Q := by
  cases o with
  | none => exact tri_fail hR
  | some b => exact tri_pure hR (hQ b rfl)

lemma Tri.mono {m : M σ β} {s : σ} {R R' : σ → Prop} {Q Q' : β → σ → Prop} (h : Tri m s R Q)
    (hR : ∀ s', R s' → R' s') (hQ : ∀ b s', R s' → Q b s' → Q' b s') : Tri m s R' Q' :=
  ⟨hR _ h.1, fun b hb => hQ b _ h.1 (h.2 b hb)⟩

end M

end Phyem.DynSys
