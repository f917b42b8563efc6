import Verif.Lines.Model
import Mathlib.Tactic.Linarith

/-!
# What a function on lines gives

The value at a point is that of the function of the first line that has it, and 0 if there is none.
-/

namespace Phyem.Lines

open Phyem.Sections

/-- The value at a point: there is a line that has it and none before it has, or there is none and the value is 0. -/
def IsValue (pairs : List (Cond × Fn)) (t : ℝ) (P : ℝ × ℝ) (v : ℝ) : Prop :=
  (∃ l c f r, pairs = l ++ (c, f) :: r ∧ (∀ p ∈ l, p.1.has P = some false) ∧ c.has P = some true ∧ v = f t P.1 P.2) ∨
    ((∀ p ∈ pairs, p.1.has P = some false) ∧ v = 0)

/-- The functions that are kept. -/
def kept (pairs : List (Cond × Given)) : List (Cond × Fn) := pairs.map fun p => (p.1, p.2.fn)

lemma findFrom_skip (P : ℝ × ℝ) : ∀ (l r : List Cond) (n : ℕ), (∀ c ∈ l, c.has P = some false) → findFrom P n (l ++ r) = findFrom P (n + l.length) r
  | [], _, _, _ => by simp
  | c :: l, r, n, h => by
    rw [List.cons_append, findFrom, h c (by simp), Option.bind_some, if_neg (by simp), findFrom_skip P l r (n + 1) fun x hx => h x (by simp [hx]),
      List.length_cons]
    congr 1
    omega

lemma first {F : Type} (P : ℝ × ℝ) : ∀ pairs : List (Cond × F), (∀ p ∈ pairs, p.1.has P = some false) ∨
    ∃ l c f r, pairs = l ++ (c, f) :: r ∧ (∀ p ∈ l, p.1.has P = some false) ∧ (c.has P = some true ∨ c.has P = none)
  | [] => Or.inl (by simp)
  | (c, f) :: ps => by
    cases h : c.has P with
    | none => exact Or.inr ⟨[], c, f, ps, rfl, by simp, Or.inr h⟩
    | some b =>
      cases b with
      | true => exact Or.inr ⟨[], c, f, ps, rfl, by simp, Or.inl h⟩
      | false =>
        rcases first P ps with h' | ⟨l, c', f', r, rfl, h1, h2⟩
        · exact Or.inl fun p hp => by
            rcases List.mem_cons.1 hp with rfl | hp
            · exact h
            · exact h' p hp
        · exact Or.inr ⟨(c, f) :: l, c', f', r, rfl, fun p hp => by
            rcases List.mem_cons.1 hp with rfl | hp
            · exact h
            · exact h1 p hp, h2⟩

lemma find_none {F : Type} {P : ℝ × ℝ} {pairs : List (Cond × F)} (h : ∀ p ∈ pairs, p.1.has P = some false) :
    findFrom P 0 (pairs.map Prod.fst) = some none := by
  have := findFrom_skip P (pairs.map Prod.fst) [] 0 fun c hc => by
    obtain ⟨p, hp, rfl⟩ := List.mem_map.1 hc
    exact h p hp
  rw [List.append_nil] at this
  rw [this, findFrom]

lemma find_first {F : Type} {P : ℝ × ℝ} {l r : List (Cond × F)} {c : Cond} {f : F} (h : ∀ p ∈ l, p.1.has P = some false) :
    findFrom P 0 ((l ++ (c, f) :: r).map Prod.fst) = (c.has P).bind fun b => if b then some (some l.length) else
      findFrom P (l.length + 1) (r.map Prod.fst) := by
  rw [List.map_append, findFrom_skip P _ _ 0 fun c hc => by
    obtain ⟨p, hp, rfl⟩ := List.mem_map.1 hc
    exact h p hp]
  rw [List.map_cons, findFrom, List.length_map, Nat.zero_add]

lemma value_zero {pairs : List (Cond × Fn)} {t : ℝ} {P : ℝ × ℝ} (h : ∀ p ∈ pairs, p.1.has P = some false) : value pairs t P = some none := by
  unfold value; rw [find_none h]

lemma value_first {l r : List (Cond × Fn)} {c : Cond} {f : Fn} {t : ℝ} {P : ℝ × ℝ} (h : ∀ p ∈ l, p.1.has P = some false)
    (hc : c.has P = some true) : value (l ++ (c, f) :: r) t P = some (some (f t P.1 P.2)) := by
  unfold value; rw [find_first h, hc]; simp

lemma value_fail {l r : List (Cond × Fn)} {c : Cond} {f : Fn} {t : ℝ} {P : ℝ × ℝ} (h : ∀ p ∈ l, p.1.has P = some false)
    (hc : c.has P = none) : value (l ++ (c, f) :: r) t P = none := by
  unfold value; rw [find_first h, hc]; simp

lemma value_iff (pairs : List (Cond × Fn)) (t : ℝ) (P : ℝ × ℝ) (v : ℝ) :
    (value pairs t P).map (fun w => w.getD 0) = some v ↔ IsValue pairs t P v := by
  constructor
  · intro hv
    rcases first P pairs with h | ⟨l, c, f, r, rfl, h1, h2⟩
    · rw [value_zero h] at hv
      exact Or.inr ⟨h, (Option.some.inj hv).symm⟩
    · rcases h2 with h2 | h2
      · rw [value_first h1 h2] at hv
        exact Or.inl ⟨l, c, f, r, rfl, h1, h2, (Option.some.inj hv).symm⟩
      · rw [value_fail h1 h2] at hv
        cases hv
  · rintro (⟨l, c, f, r, rfl, h1, h2, rfl⟩ | ⟨h, rfl⟩)
    · rw [value_first h1 h2]; rfl
    · rw [value_zero h]; rfl

lemma store_zero (k : Kind) : k.store 0 = 0 := by cases k <;> simp [Kind.store]

lemma entry_iff (pairs : List (Cond × Fn)) (t : ℝ) (k : Kind) (P : ℝ × ℝ) (u : ℝ) :
    entry pairs t k P = some u ↔ ∃ v, IsValue pairs t P v ∧ u = k.store v := by
  have h : entry pairs t k P = ((value pairs t P).map fun w => w.getD 0).map k.store := by
    unfold entry
    cases h : value pairs t P with
    | none => rfl
    | some w => cases w <;> simp [store_zero]
  rw [h]
  constructor
  · intro hu
    obtain ⟨v, hv, rfl⟩ := Option.map_eq_some_iff.1 hu
    exact ⟨v, (value_iff ..).1 hv, rfl⟩
  · rintro ⟨v, hv, rfl⟩
    rw [(value_iff ..).2 hv]; rfl

/-- **C183.** A number: the value at the point. -/
theorem scalar_number (pairs : List (Cond × Given)) (t x y : ℝ) (r : Arg) :
    scalarOnLines pairs t (.num x) (.num y) = some r ↔ ∃ v, r = .num v ∧ IsValue (kept pairs) t (x, y) v := by
  simp only [scalarOnLines, call]
  constructor
  · intro h
    obtain ⟨w, hw, rfl⟩ := Option.map_eq_some_iff.1 h
    exact ⟨_, rfl, (value_iff ..).1 (by rw [kept, hw]; rfl)⟩
  · rintro ⟨v, rfl, hv⟩
    have := (value_iff ..).2 hv
    obtain ⟨w, hw, rfl⟩ := Option.map_eq_some_iff.1 this
    rw [kept] at hw
    rw [hw]; rfl

lemma mapM_rel {α β : Type} (f : α → Option β) : ∀ (l : List α) (m : List β), l.mapM f = some m ↔ List.Forall₂ (fun a b => f a = some b) l m
  | [], m => by
    rw [List.mapM_nil]
    constructor
    · intro h; obtain rfl := Option.some.inj h; exact List.Forall₂.nil
    · intro h; cases h; rfl
  | a :: l, m => by
    rw [List.mapM_cons]
    constructor
    · intro h
      cases ha : f a with
      | none => rw [ha] at h; cases h
      | some b =>
        rw [ha] at h
        cases hm : l.mapM f with
        | none => rw [hm] at h; cases h
        | some bs =>
          rw [hm] at h
          obtain rfl := Option.some.inj h
          exact List.Forall₂.cons ha ((mapM_rel f l bs).1 hm)
    · intro h
      cases h with
      | cons ha hl =>
        rw [ha, (mapM_rel f l _).2 hl]; rfl

/-- **C183.** Arrays with one dimension: they have the same length, the result has that length and the type of the entries of the first one, and its
entries are the values at the points, up to what that type keeps of them. -/
theorem scalar_array (pairs : List (Cond × Given)) (t : ℝ) (k k' : Kind) (xs ys : List ℝ) (r : Arg) :
    scalarOnLines pairs t (.arr1 k xs) (.arr1 k' ys) = some r ↔ xs.length = ys.length ∧ ∃ us, r = .arr1 k us ∧
      List.Forall₂ (fun P u => ∃ v, IsValue (kept pairs) t P v ∧ u = k.store v) (xs.zip ys) us := by
  simp only [scalarOnLines, call]
  rw [← kept]
  constructor
  · intro h
    by_cases hl : xs.length = ys.length
    · rw [if_pos hl] at h
      obtain ⟨us, hu, rfl⟩ := Option.map_eq_some_iff.1 h
      exact ⟨hl, us, rfl, ((mapM_rel ..).1 hu).imp fun P u hP => (entry_iff ..).1 hP⟩
    · rw [if_neg hl] at h; cases h
  · rintro ⟨hl, us, rfl, h⟩
    rw [if_pos hl, (mapM_rel ..).2 (h.imp fun P u hP => (entry_iff ..).2 hP)]; rfl

/-- **C183.** Arrays with two dimensions: the same, row by row. -/
theorem scalar_array2 (pairs : List (Cond × Given)) (t : ℝ) (k k' : Kind) (xs ys : List (List ℝ)) (r : Arg) :
    scalarOnLines pairs t (.arr2 k xs) (.arr2 k' ys) = some r ↔ xs.map List.length = ys.map List.length ∧ ∃ us, r = .arr2 k us ∧
      List.Forall₂ (fun row u => List.Forall₂ (fun P u => ∃ v, IsValue (kept pairs) t P v ∧ u = k.store v) (row.1.zip row.2) u) (xs.zip ys) us := by
  simp only [scalarOnLines, call]
  have key : ∀ us, ((xs.zip ys).mapM fun r : List ℝ × List ℝ => (r.1.zip r.2).mapM (entry (kept pairs) t k)) = some us ↔
      List.Forall₂ (fun row u => List.Forall₂ (fun P u => ∃ v, IsValue (kept pairs) t P v ∧ u = k.store v) (row.1.zip row.2) u) (xs.zip ys) us := by
    intro us
    rw [mapM_rel]
    simp only [mapM_rel, entry_iff]
  rw [← kept]
  constructor
  · intro h
    by_cases hl : xs.map List.length = ys.map List.length
    · rw [if_pos hl] at h
      obtain ⟨us, hu, rfl⟩ := Option.map_eq_some_iff.1 h
      exact ⟨hl, us, rfl, (key us).1 hu⟩
    · rw [if_neg hl] at h; cases h
  · rintro ⟨hl, us, rfl, h⟩
    rw [if_pos hl, (key us).2 h]; rfl

/-- **C183.** A number and an array, arrays with different numbers of dimensions and arrays with other numbers of dimensions are refused. -/
theorem scalar_refused (pairs : List (Cond × Given)) (t : ℝ) (x : ℝ) (a : Arg) (k k' : Kind) (xs : List ℝ) (ys : List (List ℝ)) :
    ((∀ y, a ≠ .num y) → scalarOnLines pairs t (.num x) a = none ∧ scalarOnLines pairs t a (.num x) = none) ∧
      scalarOnLines pairs t (.arr1 k xs) (.arr2 k' ys) = none ∧ scalarOnLines pairs t (.arr2 k' ys) (.arr1 k xs) = none ∧
      scalarOnLines pairs t .other a = none ∧ scalarOnLines pairs t a .other = none := by
  refine ⟨fun h => ?_, rfl, rfl, rfl, by cases a <;> rfl⟩
  cases a with
  | num y => exact absurd rfl (h y)
  | _ => exact ⟨rfl, rfl⟩

/-! ### Which line has a point -/

/-- The points of a line. -/
def Cond.points : Cond → Set (ℝ × ℝ)
  | .segment s => Segment s.1 s.2
  | .curve c => c.points

/-- The two ends of a segment differ, a curve is one that the constructor accepts. -/
def Cond.Good : Cond → Prop
  | .segment s => 0 < distance2 s.1 s.2
  | .curve c => c.Good

/-- Away from the line. Segment: further than about the root of its length times `1e-8`. Curve: the curve has no such `x`, or it is clearly at another
`y` there. -/
def Cond.Away : Cond → ℝ × ℝ → Prop
  | .segment s, P => ∀ Q ∈ Segment s.1 s.2, slack (distance2 s.1 s.2) * (2 * distance2 s.1 s.2 + slack (distance2 s.1 s.2)) < 4 * distance2 P Q ^ 2
  | .curve c, P => P.1 ∉ c.x.points ∨ ∃ s ∈ c.t.points, P.1 = c.xt s ∧ 1e-8 + 1e-5 * |c.yt s| < |P.2 - c.yt s|

lemma has_of (c : Cond) (hc : c.Good) {P : ℝ × ℝ} (h : P ∈ c.points) : c.has P = some true := by
  cases c with
  | segment s => exact congrArg some (onSegment_of s.1 s.2 P h)
  | curve c => exact onCurve_of c hc P h

lemma slack_nonneg (A B : ℝ × ℝ) : 0 ≤ slack (distance2 A B) := by
  have := distance2_nonneg A B
  unfold slack
  positivity

lemma has_away (c : Cond) (hc : c.Good) {P : ℝ × ℝ} (h : c.Away P) : c.has P = some false := by
  cases c with
  | segment s =>
    refine congrArg some (Bool.eq_false_iff.2 fun ht => ?_)
    obtain ⟨Q, hQ, hd⟩ := near_segment s.1 s.2 P _ (slack_nonneg s.1 s.2) hc (onSegment_sum s.1 s.2 P ht)
    have := h Q hQ
    linarith
  | curve c =>
    show onCurve c P = some false
    rcases h with h | ⟨s, hs, hx, hy⟩
    · unfold onCurve
      rw [if_neg fun hh => h ((has_iff _ _).1 hh)]
    · have hg : onCurve c (c.xt s, c.yt s) = some true := onCurve_of c hc _ ⟨s, hs, rfl⟩
      have hin : c.x.has (c.xt s) = true := by
        by_contra hn
        unfold onCurve at hg
        rw [if_neg hn] at hg
        cases hg
      unfold onCurve
      rw [hx, if_pos hin]
      dsimp only
      have hI : s ∈ Set.Icc c.t.lb c.t.ub := points_sub c.t hs
      rw [show c.tx (c.xt s) = s from Curve.Good.inverse hc s hI, if_pos ((has_iff _ _).2 hs), if_neg (not_le.2 hy)]

/-- **C183.** At a point of a line that is away from the lines before it, the value is that of the function that was given for this line. -/
theorem scalar_on_line (l r : List (Cond × Given)) (c : Cond) (g : Given) (t x y : ℝ) (hl : ∀ p ∈ l, p.1.Good) (hc : c.Good)
    (hP : (x, y) ∈ c.points) (ha : ∀ p ∈ l, p.1.Away (x, y)) :
    scalarOnLines (l ++ (c, g) :: r) t (.num x) (.num y) = some (.num (match g with
      | .wrapped f => f t x y
      | .number v => v
      | .function f => f t x y)) := by
  refine (scalar_number ..).2 ⟨_, rfl, Or.inl ⟨kept l, c, g.fn, kept r, by simp [kept], fun p hp => ?_, has_of c hc hP, ?_⟩⟩
  · obtain ⟨q, hq, rfl⟩ := List.mem_map.1 hp
    exact has_away q.1 (hl q hq) (ha q hq)
  · cases g <;> simp [Given.fn]

/-- **C183.** Away from all lines, the value is 0. -/
theorem scalar_off_lines (pairs : List (Cond × Given)) (t x y : ℝ) (hl : ∀ p ∈ pairs, p.1.Good) (ha : ∀ p ∈ pairs, p.1.Away (x, y)) :
    scalarOnLines pairs t (.num x) (.num y) = some (.num 0) := by
  refine (scalar_number ..).2 ⟨_, rfl, Or.inr ⟨fun p hp => ?_, rfl⟩⟩
  obtain ⟨q, hq, rfl⟩ := List.mem_map.1 hp
  exact has_away q.1 (hl q hq) (ha q hq)

/-! ### Vectors -/

/-- An array with the entries of the first one and the type of the entries of the second one. -/
def Arg.like : Arg → Arg → Arg
  | .arr1 _ xs, .arr1 k _ => .arr1 k xs
  | .arr2 _ xs, .arr2 k _ => .arr2 k xs
  | a, _ => a

lemma value2_eq (pairs : List (Cond × Fn × Fn)) (t : ℝ) (P : ℝ × ℝ) :
    value (pairs.map fun p => (p.1, p.2.1)) t P = (value2 pairs t P).map (Option.map Prod.fst) ∧
      value (pairs.map fun p => (p.1, p.2.2)) t P = (value2 pairs t P).map (Option.map Prod.snd) := by
  unfold value value2
  rw [List.map_map, List.map_map]
  have e1 : (Prod.fst ∘ fun p : Cond × Fn × Fn => (p.1, p.2.1)) = Prod.fst := rfl
  have e2 : (Prod.fst ∘ fun p : Cond × Fn × Fn => (p.1, p.2.2)) = Prod.fst := rfl
  rw [e1, e2]
  cases h : findFrom P 0 (pairs.map Prod.fst) with
  | none => exact ⟨rfl, rfl⟩
  | some i =>
    cases i with
    | none => exact ⟨rfl, rfl⟩
    | some i => simp only [List.getElem?_map]; cases pairs[i]? <;> simp

lemma entry2_eq (pairs : List (Cond × Fn × Fn)) (t : ℝ) (k k' : Kind) (P : ℝ × ℝ) :
    entry (pairs.map fun p => (p.1, p.2.1)) t k P = (entry2 pairs t k k' P).map Prod.fst ∧
      entry (pairs.map fun p => (p.1, p.2.2)) t k' P = (entry2 pairs t k k' P).map Prod.snd := by
  unfold entry entry2
  rw [(value2_eq pairs t P).1, (value2_eq pairs t P).2]
  cases value2 pairs t P with
  | none => exact ⟨rfl, rfl⟩
  | some v => cases v <;> exact ⟨rfl, rfl⟩

lemma mapM_proj {α β γ : Type} (g : α → Option β) (φ : β → γ) : ∀ l : List α, l.mapM (fun a => (g a).map φ) = (l.mapM g).map (List.map φ)
  | [] => rfl
  | a :: l => by
    rw [List.mapM_cons, List.mapM_cons, mapM_proj g φ l]
    cases g a with
    | none => rfl
    | some b => cases l.mapM g <;> rfl

lemma call2_eq (pairs : List (Cond × Fn × Fn)) (t : ℝ) (x y : Arg) :
    (call2 pairs t x y).map Prod.fst = call (pairs.map fun p => (p.1, p.2.1)) t x y ∧
      (call2 pairs t x y).map Prod.snd = call (pairs.map fun p => (p.1, p.2.2)) t (x.like y) y := by
  cases x with
  | num x =>
    cases y with
    | num y =>
      simp only [call2, call, Arg.like, value2_eq]
      cases value2 pairs t (x, y) with
      | none => exact ⟨rfl, rfl⟩
      | some v => cases v <;> exact ⟨rfl, rfl⟩
    | _ => exact ⟨rfl, rfl⟩
  | arr1 k xs =>
    cases y with
    | arr1 k' ys =>
      simp only [call2, call, Arg.like]
      by_cases h : xs.length = ys.length
      · simp only [if_pos h]
        rw [show entry (pairs.map fun p => (p.1, p.2.1)) t k = fun P => (entry2 pairs t k k' P).map Prod.fst from
          funext fun P => (entry2_eq pairs t k k' P).1, show entry (pairs.map fun p => (p.1, p.2.2)) t k' = fun P => (entry2 pairs t k k' P).map Prod.snd
          from funext fun P => (entry2_eq pairs t k k' P).2, mapM_proj, mapM_proj]
        cases (xs.zip ys).mapM (entry2 pairs t k k') <;> exact ⟨rfl, rfl⟩
      · simp only [if_neg h]; exact ⟨rfl, rfl⟩
    | _ => exact ⟨rfl, rfl⟩
  | arr2 k xs =>
    cases y with
    | arr2 k' ys =>
      simp only [call2, call, Arg.like]
      by_cases h : xs.map List.length = ys.map List.length
      · simp only [if_pos h]
        rw [show entry (pairs.map fun p => (p.1, p.2.1)) t k = fun P => (entry2 pairs t k k' P).map Prod.fst from
          funext fun P => (entry2_eq pairs t k k' P).1, show entry (pairs.map fun p => (p.1, p.2.2)) t k' = fun P => (entry2 pairs t k k' P).map Prod.snd
          from funext fun P => (entry2_eq pairs t k k' P).2]
        simp only [mapM_proj]
        cases (xs.zip ys).mapM fun r : List ℝ × List ℝ => (r.1.zip r.2).mapM (entry2 pairs t k k') <;> exact ⟨rfl, rfl⟩
      · simp only [if_neg h]; exact ⟨rfl, rfl⟩
    | _ => exact ⟨rfl, rfl⟩
  | other => cases y <;> exact ⟨rfl, rfl⟩

/-- **C183.** The components of a vector on lines are the scalars on lines with the first and with the second functions; the second one has the type of
entries of the second array. -/
theorem vector_components (pairs : List (Cond × Given × Given)) (t : ℝ) (x y : Arg) :
    component pairs false t x y = scalarOnLines (pairs.map fun p => (p.1, p.2.1)) t x y ∧
      component pairs true t x y = scalarOnLines (pairs.map fun p => (p.1, p.2.2)) t (x.like y) y := by
  have h := call2_eq (pairs.map fun p => (p.1, p.2.1.fn, p.2.2.fn)) t x y
  unfold component vectorOnLines scalarOnLines
  rw [List.map_map, List.map_map] at *
  exact h

/-- **C183.** Both components together are the same as one by one. -/
theorem vector_linked (pairs : List (Cond × Given × Given)) (t : ℝ) (x y : Arg) (u v : Arg) :
    vectorOnLines pairs t x y = some (u, v) → component pairs false t x y = some u ∧ component pairs true t x y = some v := by
  intro h
  unfold component
  rw [h]
  exact ⟨rfl, rfl⟩

/-! ### Arrays of integers -/

/-- The number 1/2 on the bottom of the unit square. -/
noncomputable def bottom : List (Cond × Given) := [(.segment ((0, 0), (1, 0)), .number (1 / 2))]

lemma bottom_good : ∀ p ∈ bottom, p.1.Good := by
  intro p hp
  rw [bottom, List.mem_singleton] at hp
  rw [hp]
  show 0 < distance2 (0, 0) (1, 0)
  unfold distance2
  norm_num

lemma bottom_point : ((1, 0) : ℝ × ℝ) ∈ (Cond.segment ((0, 0), (1, 0))).points := ⟨1, by norm_num, by norm_num, by simp [between]⟩

/-- **C183, against the code.** That an entry of the result for arrays is the result for its point is not so for arrays of integers: 1/2 becomes 0. -/
theorem integers_refuted : ¬ ∀ (pairs : List (Cond × Given)) (t : ℝ) (k k' : Kind) (x y u v : ℝ),
    scalarOnLines pairs t (.num x) (.num y) = some (.num u) → scalarOnLines pairs t (.arr1 k [x]) (.arr1 k' [y]) = some (.arr1 k [v]) → u = v := by
  intro h
  have h1 := scalar_on_line [] [] (.segment ((0, 0), (1, 0))) (.number (1 / 2)) 0 1 0 (by simp) (bottom_good (_, .number (1 / 2)) (by simp [bottom])) bottom_point (by simp)
  obtain ⟨v, hv, hI⟩ := (scalar_number ..).1 h1
  have hv' : v = 1 / 2 := by simpa using hv.symm
  have h2 : scalarOnLines ([] ++ [(.segment ((0, 0), (1, 0)), .number (1 / 2))]) 0 (.arr1 .int [1]) (.arr1 .int [0]) = some (.arr1 .int [0]) := by
    refine (scalar_array ..).2 ⟨rfl, _, rfl, List.Forall₂.cons ⟨v, hI, ?_⟩ List.Forall₂.nil⟩
    rw [hv']
    norm_num [Kind.store]
  have := h _ _ _ _ _ _ _ _ h1 h2
  norm_num at this

example : (∀ p ∈ bottom, p.1.Good) ∧ ∀ p ∈ bottom, p.1.Away (0, 1) := by
  refine ⟨bottom_good, fun p hp => ?_⟩
  rw [bottom, List.mem_singleton] at hp
  rw [hp]
  rintro Q ⟨μ, _, _, rfl⟩
  have e : distance2 (0, 0) ((1, 0) : ℝ × ℝ) = 1 := by unfold distance2; norm_num
  have e' : distance2 ((0, 1) : ℝ × ℝ) (between (0, 0) (1, 0) μ) ^ 2 = μ ^ 2 + 1 := by
    rw [distance2_sq]; simp [between]
  dsimp only
  rw [e, e']
  unfold slack
  nlinarith [sq_nonneg μ]

end Phyem.Lines
