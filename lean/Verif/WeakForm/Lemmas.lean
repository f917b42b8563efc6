import Verif.WeakForm.Spec
import Verif.Expr.Lemmas
import Mathlib.Tactic.Ring
import Mathlib.Data.List.Perm.Basic

/-! Helper lemmas for weak formulations. -/

namespace Phyem.WeakForm

open Phyem.Expr (Str split removeSpaces)

variable {T F : Type}

theorem mapOpt_eq_some {α β : Type} (f : α → Option β) (l : List α) (r : List β) :
    mapOpt f l = some r ↔ List.Forall₂ (fun a b => f a = some b) l r := by
  induction l generalizing r with
  | nil => cases r <;> simp [mapOpt]
  | cons a l ih =>
    simp only [mapOpt, Option.bind_eq_some_iff, Option.map_eq_some_iff]
    constructor
    · rintro ⟨b, hb, bs, hbs, rfl⟩
      exact .cons hb ((ih bs).1 hbs)
    · intro h
      cases h with
      | cons h1 h2 => exact ⟨_, h1, _, (ih _).2 h2, rfl⟩

theorem mapOpt_map {α β γ : Type} (f : β → Option γ) (g : α → β) (l : List α) :
    mapOpt f (l.map g) = mapOpt (fun a => f (g a)) l := by
  induction l with
  | nil => rfl
  | cons a l ih => simp [mapOpt, ih]

theorem mapOpt_some {α : Type} (l : List α) : mapOpt some l = some l := by
  induction l with
  | nil => rfl
  | cons a l ih => simp [mapOpt, ih]

theorem mapOpt_congr {α β : Type} {f g : α → Option β} {l : List α} (h : ∀ a ∈ l, f a = g a) :
    mapOpt f l = mapOpt g l := by
  induction l with
  | nil => rfl
  | cons a l ih =>
    simp only [List.mem_cons, forall_eq_or_imp] at h
    simp [mapOpt, h.1, ih h.2]

/-! ### Rebuilding -/

theorem rebuildSide_false (k : ℕ) (new l : List (Sign × T)) : rebuildSide false k new l = l := by
  have : ∀ (m : ℕ), (l.zipIdx m).flatMap (fun p => if false = true ∧ p.2 = k then new else [p.1]) = l := by
    induction l with
    | nil => simp
    | cons a l ih => intro m; rw [List.zipIdx_cons, List.flatMap_cons, ih]; simp
  exact this 0

theorem rebuildSide_true (k : ℕ) (new l : List (Sign × T)) (h : k < l.length) :
    rebuildSide true k new l = l.take k ++ new ++ l.drop (k + 1) := by
  have hbeyond : ∀ (l : List (Sign × T)) (m k : ℕ), k < m →
      (l.zipIdx m).flatMap (fun p => if true = true ∧ p.2 = k then new else [p.1]) = l := by
    intro l
    induction l with
    | nil => simp
    | cons a l ih =>
      intro m k hk
      have : ¬ m = k := by omega
      rw [List.zipIdx_cons, List.flatMap_cons, ih _ _ (by omega)]; simp [this]
  have : ∀ (l : List (Sign × T)) (m k : ℕ), k < l.length →
      (l.zipIdx m).flatMap (fun p => if true = true ∧ p.2 = k + m then new else [p.1]) =
        l.take k ++ new ++ l.drop (k + 1) := by
    intro l
    induction l with
    | nil => simp
    | cons a l ih =>
      intro m k hk
      cases k with
      | zero =>
        rw [List.zipIdx_cons, List.flatMap_cons, hbeyond _ _ _ (by omega)]; simp
      | succ k =>
        have h1 : ¬ m = k + 1 + m := by omega
        have h2 : k + 1 + m = k + (m + 1) := by omega
        rw [List.zipIdx_cons, List.flatMap_cons, h2, ih _ _ (by simpa using hk)]
        rw [← h2]; simp [h1]
  exact this l 0 k h

theorem rebuild_length (es : List (Eqn T)) (i : ℕ) (j : Bool) (k : ℕ) (new : List (Sign × T)) :
    (rebuild es i j k new).length = es.length := by simp [rebuild]

theorem rebuild_get (es : List (Eqn T)) (i : ℕ) (j : Bool) (k : ℕ) (new : List (Sign × T)) (m : ℕ) :
    (rebuild es i j k new)[m]? = es[m]?.map fun e =>
      if m = i then ⟨rebuildSide j k new e.left, rebuildSide (!j) k new e.right⟩ else e := by
  simp only [rebuild, List.getElem?_map, List.getElem?_zipIdx, Option.map_map]
  cases es[m]? with
  | none => rfl
  | some e =>
    by_cases h : m = i
    · simp [h]
    · simp [h, rebuildSide_false]

/-! ### Building -/

theorem build_eq_some [DecidableEq F] (E : Env T F) (es : List (Eqn T)) (u : Option (List F)) (b : ℕ)
    (w : Wf T F) : build E es u b = some w ↔ w = ⟨es, u, b⟩ ∧ E.meshes (allTerms es) = true ∧
      ∀ us, u = some us → us.length = es.length ∧ ∀ x ∈ us, x ∈ (allTerms es).flatMap E.efs := by
  unfold build
  by_cases h : E.meshes (allTerms es) = false
  · rw [if_pos h]; simp [h]
  · rw [if_neg h]
    have h' : E.meshes (allTerms es) = true := by simpa using h
    cases u with
    | none => simp [h', eq_comm]
    | some us =>
      simp only [h', true_and, Option.some.injEq, forall_eq']
      by_cases hc : us.length = es.length ∧ ∀ x ∈ us, x ∈ (allTerms es).flatMap E.efs
      · rw [if_pos hc]; simp only [Option.some.injEq]
        constructor
        · rintro rfl; exact ⟨rfl, hc⟩
        · rintro ⟨rfl, _⟩; rfl
      · rw [if_neg hc]
        constructor
        · intro h; simp at h
        · rintro ⟨_, h⟩; exact absurd h hc

/-! ### Signs -/

theorem flipSide_eq (l : List (Sign × T)) : flipSide l = l.map fun p => (p.1.flip, p.2) := rfl

theorem zip_flip (ss : List Sign) (ts : List T) :
    (ss.map Sign.flip).zip ts = (ss.zip ts).map fun p => (p.1.flip, p.2) := by
  induction ss generalizing ts with
  | nil => simp
  | cons s ss ih => cases ts <;> simp [ih]

/-! ### Numbers as texts -/

theorem readInt_str (m : ℕ) : readInt (str m) = some m := by
  unfold readInt str
  rw [if_neg (by simp [Nat.toDigits_ne_nil]), Nat.ofDigitChars_ten_toDigits]

theorem str_inj {m k : ℕ} (h : str m = str k) : m = k := by
  have := readInt_str m
  rw [h, readInt_str] at this
  exact (Option.some.inj this).symm

theorem str_digit (m : ℕ) : ∀ c ∈ str m, c.isDigit = true := by
  intro c hc
  exact Nat.isDigit_of_mem_toDigits (by decide) (by decide) hc

theorem str_ne_nil (m : ℕ) : str m ≠ [] := Nat.toDigits_ne_nil

/-! ### Separated texts -/

/-- `c.join(pieces)`. -/
def joinC (c : Char) : List Str → Str
  | [] => []
  | [p] => p
  | p :: ps => p ++ c :: joinC c ps

theorem joinC_cons (c : Char) (p : Str) (ps : List Str) (h : ps ≠ []) :
    joinC c (p :: ps) = p ++ c :: joinC c ps := by
  cases ps with
  | nil => exact absurd rfl h
  | cons q qs => rfl

theorem joinC_split (c : Char) (s : Str) : joinC c (split c s) = s := by
  induction s with
  | nil => rfl
  | cons x s ih =>
    have hne := Expr.split_ne_nil c s
    by_cases h : x = c
    · rw [split, if_pos h, joinC_cons _ _ _ hne, ih, h]; rfl
    · rw [split, if_neg h]
      cases hs : split c s with
      | nil => exact absurd hs hne
      | cons p ps =>
        rw [hs] at ih
        cases ps with
        | nil => simp only [Expr.consHead, joinC] at ih ⊢; rw [ih]
        | cons q qs =>
          simp only [Expr.consHead, joinC] at ih ⊢
          rw [List.cons_append, ih]

/-- The texts between the commas. -/
def pieces (L : List ℕ) : List Str := if L = [] then [[]] else L.map str

theorem str_notMem (m : ℕ) {c : Char} (h : c.isDigit = false) : c ∉ str m := by
  intro hc
  rw [str_digit m c hc] at h
  simp at h

theorem split_written (L : List ℕ) : split ',' (written L) = pieces L := by
  induction L with
  | nil => rfl
  | cons m L ih =>
    cases L with
    | nil =>
      simp only [written, pieces, List.cons_ne_nil, if_false, List.map_cons, List.map_nil]
      exact Expr.split_notMem _ _ (str_notMem m (by decide))
    | cons k L =>
      rw [written, Expr.split_append, ih, Expr.split_notMem _ _ (str_notMem m (by decide))]
      · simp [pieces]
      · simp

theorem joinC_pieces (L : List ℕ) : joinC ',' (pieces L) = written L := by
  rw [← split_written, joinC_split]

theorem given_pieces (L : List ℕ) : given (pieces L) = L.map str := by
  unfold given pieces
  by_cases h : L = []
  · simp [h]
  · rw [if_neg h, if_neg]
    intro e
    obtain ⟨m, L, rfl⟩ := List.exists_cons_of_ne_nil h
    simp only [List.map_cons, List.cons.injEq] at e
    exact str_ne_nil m e.1

theorem given_map_str (L : List ℕ) : given (L.map str) = L.map str := by
  unfold given
  by_cases h : L = []
  · simp [h]
  · rw [if_neg]
    intro e
    obtain ⟨m, L, rfl⟩ := List.exists_cons_of_ne_nil h
    simp only [List.map_cons, List.cons.injEq] at e
    exact str_ne_nil m e.1

theorem pieces_eq_nil (L : List ℕ) : pieces L = [[]] ↔ L = [] := by
  constructor
  · intro h
    have := given_pieces L
    rw [h] at this
    simpa [given] using this.symm
  · rintro rfl; rfl

theorem rest_eq (n : ℕ) (L : List ℕ) (h : L ≠ []) :
    ((List.range n).map str).filter (fun s => decide (s ∉ pieces L)) =
      ((List.range n).filter fun m => decide (m ∉ L)).map str := by
  rw [List.filter_map]
  congr 1
  apply List.filter_congr
  intro m _
  simp only [Function.comp_apply, pieces, if_neg h]
  congr 1
  simp only [List.mem_map, eq_iff_iff, not_iff_not]
  constructor
  · rintro ⟨k, hk, e⟩; rwa [← str_inj e]
  · intro hm; exact ⟨m, hm, rfl⟩

theorem complete_pieces (n : ℕ) (L R : List ℕ) (h : L ++ R ≠ []) :
    given (complete n (pieces L) (pieces R)).1 = (meant n L R).1.map str ∧
    given (complete n (pieces L) (pieces R)).2 = (meant n L R).2.map str := by
  unfold complete meant
  simp only [pieces_eq_nil]
  by_cases hR : R = []
  · subst hR
    have hL : L ≠ [] := by simpa using h
    have hlen : (pieces L).length = L.length := by simp [pieces, hL]
    by_cases hl : L.length < n
    · simp only [hlen, hl, and_self, if_true]
      rw [rest_eq n L hL, given_pieces, given_map_str]
      exact ⟨rfl, rfl⟩
    · simp [hlen, hl, hL, given_pieces]
  · have hlen : (pieces R).length = R.length := by simp [pieces, hR]
    simp only [hR, false_and, if_false, hlen]
    by_cases hL : L = [] ∧ R.length < n
    · rw [if_pos hL, if_pos hL]
      simp only
      rw [rest_eq n R hR, given_pieces, given_map_str]
      exact ⟨rfl, rfl⟩
    · rw [if_neg hL, if_neg hL]
      exact ⟨given_pieces L, given_pieces R⟩

theorem written_chars (L : List ℕ) : ∀ c ∈ written L, c.isDigit = true ∨ c = ',' := by
  induction L with
  | nil => simp [written]
  | cons m L ih =>
    cases L with
    | nil => intro c hc; exact Or.inl (str_digit m c hc)
    | cons k L =>
      intro c hc
      rw [written] at hc
      · simp only [List.mem_append, List.mem_cons] at hc
        rcases hc with hc | hc | hc
        · exact Or.inl (str_digit m c hc)
        · exact Or.inr hc
        · exact ih c hc
      · simp

theorem written_eq_nil (L : List ℕ) : written L = [] ↔ L = [] := by
  constructor
  · intro h
    have := split_written L
    rw [h] at this
    exact (pieces_eq_nil L).1 this.symm
  · rintro rfl; rfl

theorem written_digits_ne_nil (L : List ℕ) (h : L ≠ []) :
    (written L).filter (· ≠ ',') ≠ [] := by
  obtain ⟨m, L, rfl⟩ := List.exists_cons_of_ne_nil h
  have hs := str_ne_nil m
  obtain ⟨c, t, hc⟩ := List.exists_cons_of_ne_nil hs
  have hcd : c ≠ ',' := by
    have := str_digit m c (by rw [hc]; simp)
    rintro rfl; simp at this
  have hmem : c ∈ written (m :: L) := by
    cases L with
    | nil => simp [written, hc]
    | cons k L => rw [written]; · simp [hc]
                  · simp
  intro e
  have : c ∈ (written (m :: L)).filter (· ≠ ',') := by
    rw [List.mem_filter]; exact ⟨hmem, by simpa using hcd⟩
  rw [e] at this
  simp at this

theorem notMem_written (L : List ℕ) {c : Char} (h : c.isDigit = false) (h' : c ≠ ',') :
    c ∉ written L := by
  intro hc
  rcases written_chars L c hc with hd | hd
  · rw [h] at hd; simp at hd
  · exact h' hd

/-! ### Looking terms up -/

theorem lookup_str (e : Eqn T) (m : ℕ) :
    lookup e (str m) = e.terms[m]?.map fun x => (m, x) := by
  unfold lookup Eqn.terms
  have : ∀ (l : List (Sign × T)) (a b : ℕ),
      ((l.zipIdx a).find? fun p => decide (str p.2 = str (b + a))) = l[b]?.map fun x => (x, b + a) := by
    intro l
    induction l with
    | nil => simp
    | cons x l ih =>
      intro a b
      rw [List.zipIdx_cons, List.find?_cons]
      cases b with
      | zero => simp
      | succ b =>
        have h : decide (str a = str (b + 1 + a)) = false := by
          simp only [decide_eq_false_iff_not]
          intro e
          have := str_inj e
          omega
        rw [h]
        have h2 : b + 1 + a = b + (a + 1) := by omega
        simp only
        rw [h2, ih]; simp
  have h := this (e.left ++ e.right) 0 m
  rw [Nat.add_zero] at h
  rw [h, Option.map_map]
  rfl

theorem lookup_isStr {e : Eqn T} {k : Str} {p : ℕ × Sign × T} (h : lookup e k = some p) :
    ∃ m, k = str m := by
  unfold lookup at h
  rw [Option.map_eq_some_iff] at h
  obtain ⟨q, hq, _⟩ := h
  have := List.find?_some hq
  simp only [decide_eq_true_eq] at this
  exact ⟨q.2, this.symm⟩

theorem collect_str (e : Eqn T) (toLeft : Bool) (ms : List ℕ) :
    collect e toLeft (ms.map str) = mapOpt (e.move toLeft) ms := by
  unfold collect
  rw [mapOpt_map]
  apply mapOpt_congr
  intro m _
  rw [lookup_str, Option.map_map, Eqn.move, Eqn.terms]
  by_cases h : m < e.left.length
  · rw [if_pos h, List.getElem?_append_left h]
    congr 1
    funext p
    cases toLeft <;> simp [parseIndex, h]
  · rw [if_neg h, List.getElem?_append_right (by omega)]
    congr 1
    funext p
    cases toLeft <;> simp [parseIndex, h]

theorem collect_isStr (e : Eqn T) (toLeft : Bool) (ks : List Str) (l : List (Sign × T))
    (h : collect e toLeft ks = some l) : ∃ ms : List ℕ, ks = ms.map str := by
  induction ks generalizing l with
  | nil => exact ⟨[], rfl⟩
  | cons k ks ih =>
    unfold collect at h ih
    simp only [mapOpt, Option.bind_eq_some_iff, Option.map_eq_some_iff] at h
    obtain ⟨b, ⟨p, hp, _⟩, bs, hbs, _⟩ := h
    obtain ⟨m, rfl⟩ := lookup_isStr hp
    obtain ⟨ms, rfl⟩ := ih bs hbs
    exact ⟨m :: ms, rfl⟩

theorem mapOpt_readInt (ms : List ℕ) : mapOpt readInt (ms.map str) = some ms := by
  rw [mapOpt_map]
  rw [mapOpt_congr (g := some) (fun a _ => readInt_str a), mapOpt_some]

theorem map_str_inj {L M : List ℕ} (h : L.map str = M.map str) : L = M :=
  List.map_injective_iff.2 (fun _ _ => str_inj) h

theorem sorted_check (n : ℕ) (ns : List ℕ) :
    (ns.insertionSort (· ≤ ·)).map str = (List.range n).map str ↔ ns.Perm (List.range n) := by
  constructor
  · intro h
    have := map_str_inj h
    exact this ▸ (List.perm_insertionSort (· ≤ ·) ns).symm
  · intro h
    congr 1
    have h1 : (ns.insertionSort (· ≤ ·)).Perm (List.range n) :=
      (List.perm_insertionSort (· ≤ ·) ns).trans h
    refine h1.eq_of_pairwise (le := (· ≤ ·)) (fun a b _ _ h1 h2 => Nat.le_antisymm h1 h2)
      (List.pairwise_insertionSort _ _) ?_
    exact List.pairwise_le_range

end Phyem.WeakForm
