import Verif.Trf.Props
import Mathlib.Tactic.NormNum

/-! Calls one after the other, examples, and the cases that fail. -/

namespace Phyem.Trf

/-! Examples. -/

/-- Two cells side by side. -/
def twoCells : Base := [(0, ⟨0, 1, 2, 3⟩), (1, ⟨1, 4, 5, 2⟩)]

/-- The same two cells, the second one turned by half a turn. -/
def turned : Base := [(0, ⟨0, 1, 2, 3⟩), (1, ⟨5, 2, 1, 4⟩)]

/-- Squares in a row. -/
def row (f : Pt → Option ℚ) : World := { map := fun c p => ⟨p.x + 2 * c, p.y⟩, rff := f }

lemma proper_of {B : Base} (h1 : (B.map Prod.fst).Nodup) (h2 : ∀ q ∈ B, [q.2.n0, q.2.n1, q.2.n2, q.2.n3].Nodup)
    (h3 : ∀ p ∈ allFaces B, (allFaces B).count p ≤ 2) : Proper B :=
  ⟨h1, h2, fun p => by
    by_cases hp : p ∈ allFaces B
    · exact h3 p hp
    · rw [List.count_eq_zero_of_not_mem hp]; omega⟩

lemma twoCells_proper : Proper twoCells := proper_of (by decide) (by decide) (by decide)

lemma aligned_of {B : Base} (h : ∀ q ∈ B, ∀ q' ∈ B, ∀ d ∈ dirs, ∀ d' ∈ dirs, ends q.2 d ≠ (ends q'.2 d').swap) :
    Aligned B := fun q hq q' hq' d d' =>
  h q hq q' hq' d (by cases d <;> simp [dirs]) d' (by cases d' <;> simp [dirs])

lemma twoCells_aligned : Aligned twoCells := aligned_of (by decide)

lemma turned_proper : Proper turned := proper_of (by decide) (by decide) (by decide)

/-- Only the left cell, and more of it close to its first corner, but on one side of the diagonal only. -/
def left : World := row fun p => some (if p.x < 1 then (if p.x + p.y < -1 / 2 ∧ p.x < p.y then 2 else 1) else 0)

/-- The hypotheses of the theorems are met: three thresholds, of which the last one is reached in a part of the
triangles of the first cell only. -/
example : ∃ L, refining twoCells left .center [1, 1, 2] ⟨none⟩ = (some L, ⟨none⟩) ∧ L.length = 10 ∧
    Elem.quad 1 ∈ L ∧ Elem.tri ⟨0, .S, []⟩ ∈ L ∧ Elem.tri ⟨0, .E, [.zero]⟩ ∈ L ∧
    Elem.tri ⟨0, .W, [.zero, .two]⟩ ∈ L := by
  refine ⟨((refining twoCells left .center [1, 1, 2] ⟨none⟩).1.getD []), ?_⟩
  decide +kernel

example : ∃ L em, refining twoCells left .center [1, 1, 2] ⟨none⟩ = (some L, ⟨none⟩) ∧
    elementMap twoCells L = some em ∧ NoHanging twoCells L ∧ L.length = 10 := by
  obtain ⟨L, hL⟩ := refining_succeeds_partial twoCells_proper twoCells_aligned (w := left) .center
    (rft := [1, 1, 2]) (by simp) (fun p => rfl) (Or.inl rfl) (s := ⟨none⟩) rfl
  obtain ⟨em, hem⟩ := elementMap_some (leaves_refining twoCells_proper.keys hL).1.cell twoCells_proper.keys
  refine ⟨L, em, hL, hem, refined_conforming_partial twoCells_proper twoCells_aligned rfl hL, ?_⟩
  have : (refining twoCells left .center [1, 1, 2] ⟨none⟩).1.map List.length = some 10 := by decide +kernel
  rw [hL] at this
  simpa using this

/-- A triangle that is split because of the triangle on the other side of its bottom edge, and one that is not split
because it is next to a cell. -/
example : ∃ L L', Reached twoCells left .center [1, 1] L ∧ Reached twoCells left .center [1, 1, 2] L' ∧
    Elem.tri ⟨0, .N, [.two]⟩ ∈ L ∧ Elem.tri ⟨0, .W, [.zero]⟩ ∈ L ∧ Elem.tri ⟨0, .N, [.two]⟩ ∉ L' ∧
    Elem.tri ⟨0, .W, [.zero]⟩ ∉ L' := by
  refine ⟨((refining twoCells left .center [1, 1] ⟨none⟩).1.getD []),
    ((refining twoCells left .center [1, 1, 2] ⟨none⟩).1.getD []), ?_⟩
  unfold Reached
  decide +kernel

/-! History. -/

/-- As long as no call raises, a call gives what it gives in a fresh process. -/
theorem history_partial (l : List Call)
    (h : ∀ l1 c l2, l = l1 ++ c :: l2 →
      (refining c.base c.world c.method c.thresholds (session l1)).1.isSome) (c : Call) :
    refining c.base c.world c.method c.thresholds (session l) =
      refining c.base c.world c.method c.thresholds ⟨none⟩ := by
  have : session l = ⟨none⟩ := by
    cases hl : l.reverse with
    | nil =>
      rw [List.reverse_eq_nil_iff] at hl
      subst hl; rfl
    | cons d l' =>
      have e : l = l'.reverse ++ [d] := by
        have := congrArg List.reverse hl
        rwa [List.reverse_reverse, List.reverse_cons] at this
      have hs := h _ _ _ e
      rw [e, session, List.foldl_append, List.foldl_cons, List.foldl_nil]
      change step (session l'.reverse) d = _
      unfold step
      revert hs
      unfold refining
      cases d.thresholds with
      | nil => simp
      | cons r rs =>
        simp only
        cases levelOne d.world d.method r d.base with
        | none => simp
        | some l =>
          simp only
          rcases levels d.base d.world d.method rs (splitCells d.base l) (session l'.reverse) with ⟨o, s⟩
          cases o with
          | none => simp
          | some L => simp
  rw [this]

/-- A session of two calls that do not raise. -/
example : ∀ l1 c l2, [(⟨twoCells, left, .center, [1, 1, 2]⟩ : Call), ⟨turned, left, .middle, [1, 1]⟩] = l1 ++ c :: l2 →
    (refining c.base c.world c.method c.thresholds (session l1)).1.isSome := by
  intro l1 c l2 h
  match l1 with
  | [] =>
    simp only [List.nil_append, List.cons.injEq] at h
    rw [← h.1]
    decide +kernel
  | [a] =>
    simp only [List.cons_append, List.nil_append, List.cons.injEq] at h
    rw [← h.1, ← h.2.1]
    decide +kernel
  | a :: b :: l =>
    simp at h

/-- A call that raises: the refining function can be evaluated at the centre of the cell only. -/
def raising : Call := ⟨[(0, ⟨0, 1, 2, 3⟩)], row fun p => if p = ⟨0, 0⟩ then some 1 else none, .center, [0, 0]⟩

/-- The call made after it. -/
def after : Call := ⟨twoCells, row fun p => some (if p.x < 1 then 1 else 0), .center, [1, 1]⟩

/-- The same with both cells refined. -/
def after' : Call := ⟨twoCells, row fun _ => some 1, .center, [1, 1]⟩

/-- After a call that raised, a call that gives a mesh without hanging nodes in a fresh process gives another
mesh, with a hanging node; and another call that succeeds in a fresh process raises. -/
theorem history_refuted : ∃ c1 c2 c3 : Call, ∃ L L' L3, Proper c2.base ∧ Aligned c2.base ∧
    (refining c1.base c1.world c1.method c1.thresholds ⟨none⟩).1 = none ∧
    (refining c2.base c2.world c2.method c2.thresholds ⟨none⟩).1 = some L ∧ NoHanging c2.base L ∧
    (refining c2.base c2.world c2.method c2.thresholds (session [c1])).1 = some L' ∧ ¬ NoHanging c2.base L' ∧
    (refining c3.base c3.world c3.method c3.thresholds ⟨none⟩).1 = some L3 ∧
    (refining c3.base c3.world c3.method c3.thresholds (session [c1])).1 = none := by
  have e1 : (refining raising.base raising.world raising.method raising.thresholds ⟨none⟩).1 = none := by
    decide +kernel
  obtain ⟨L, hL⟩ := refining_succeeds_partial twoCells_proper twoCells_aligned (w := after.world) .center
    (rft := [1, 1]) (by simp) (fun p => rfl) (Or.inl rfl) (s := ⟨none⟩) rfl
  obtain ⟨L3, hL3⟩ := refining_succeeds_partial twoCells_proper twoCells_aligned (w := after'.world) .center
    (rft := [1, 1]) (by simp) (fun p => rfl) (Or.inl rfl) (s := ⟨none⟩) rfl
  have e2 : ∃ L', (refining after.base after.world after.method after.thresholds (session [raising])).1 = some L' ∧
      Elem.tri ⟨0, .S, [.two]⟩ ∈ L' ∧ Elem.quad 1 ∈ L' := by
    refine ⟨((refining after.base after.world after.method after.thresholds (session [raising])).1.getD []), ?_⟩
    decide +kernel
  obtain ⟨L', e2, m1, m2⟩ := e2
  have e3 : (refining after'.base after'.world after'.method after'.thresholds (session [raising])).1 = none := by
    decide +kernel
  refine ⟨raising, after, after', L, L', L3, twoCells_proper, twoCells_aligned, e1, ?_, ?_, e2, ?_, ?_, e3⟩
  · change (refining twoCells after.world .center [1, 1] ⟨none⟩).1 = _
    rw [hL]
  · exact refined_conforming_partial twoCells_proper twoCells_aligned rfl hL
  · intro h
    refine h _ m1 _ m2 ⟨1, 0⟩ ?_ (⟨-1, -1⟩, ⟨-1, 1⟩) ?_ ⟨-1, 0⟩ ⟨1 / 2, by norm_num, by norm_num, by norm_num⟩ ?_
    · decide +kernel
    · simp [Elem.edges]
    · refine Or.inr ⟨⟨0, 1, 2, 3⟩, ⟨1, 4, 5, 2⟩, by decide, by decide, Or.inr ⟨1, 2, 1 / 2, by norm_num, by norm_num, ?_, ?_⟩⟩
      · exact ⟨.S, Or.inl ⟨rfl, by norm_num [sidePt]⟩⟩
      · exact ⟨.N, Or.inl ⟨rfl, by norm_num [sidePt]⟩⟩
  · change (refining twoCells after'.world .center [1, 1] ⟨none⟩).1 = _
    rw [hL3]

/-! Orientation. -/

/-- The turned cell next to the first one. -/
def halfTurn : World :=
  { map := fun c p => if c = 0 then p else ⟨2 - p.x, -p.y⟩, rff := fun _ => some 1 }

/-- Where the nodes are. -/
def place : ℕ → Pt
  | 0 => ⟨-1, -1⟩
  | 1 => ⟨1, -1⟩
  | 2 => ⟨1, 1⟩
  | 3 => ⟨-1, 1⟩
  | 4 => ⟨3, -1⟩
  | _ => ⟨3, 1⟩

lemma turned_corner {c a : ℕ} {n : Nodes} {p : Pt} (hn : (c, n) ∈ turned) (h : Corner n a p) :
    halfTurn.map c p = place a := by
  simp only [turned, List.mem_cons, Prod.mk.injEq, List.not_mem_nil, or_false] at hn
  rcases hn with ⟨rfl, rfl⟩ | ⟨rfl, rfl⟩ <;>
    rcases h with ⟨rfl, rfl⟩ | ⟨rfl, rfl⟩ | ⟨rfl, rfl⟩ | ⟨rfl, rfl⟩ <;> norm_num [halfTurn, place]

lemma turned_side {c a b : ℕ} {f : ℚ} {n : Nodes} {p : Pt} (hn : (c, n) ∈ turned) (h : Divides n a b f p) :
    halfTurn.map c p = ⟨(1 - f) * (place a).x + f * (place b).x, (1 - f) * (place a).y + f * (place b).y⟩ := by
  simp only [turned, List.mem_cons, Prod.mk.injEq, List.not_mem_nil, or_false] at hn
  obtain ⟨d, ⟨h, rfl⟩ | ⟨h, rfl⟩⟩ := h <;> rcases hn with ⟨rfl, rfl⟩ | ⟨rfl, rfl⟩ <;>
    cases d <;> simp only [ends, Prod.mk.injEq] at h <;> obtain ⟨rfl, rfl⟩ := h <;>
    ext <;> norm_num [halfTurn, place, sidePt] <;> ring

/-- The mapping of the two cells is continuous across their common side. -/
lemma turned_same {c c' : ℕ} {p p' : Pt} (h : Same turned c p c' p') : halfTurn.map c p = halfTurn.map c' p' := by
  rcases h with ⟨rfl, rfl⟩ | ⟨n, n', hn, hn', ⟨a, h, h'⟩ | ⟨a, b, f, _, _, h, h'⟩⟩
  · rfl
  · rw [turned_corner hn h, turned_corner hn' h']
  · rw [turned_side hn h, turned_side hn' h']

/-- With cells that run through their common side in opposite directions, four levels give vertices that are
different points the same number.  The cells here are two squares, of which one is turned. -/
theorem numbering_refuted : ∃ (B : Base) (w : World) (L : List Elem) (em : List (Elem × List ℕ)), Proper B ∧
    (∀ c p c' p', Same B c p c' p' → w.map c p = w.map c' p') ∧
    refining B w .center [0, 0, 0, 0] ⟨none⟩ = (some L, ⟨none⟩) ∧ elementMap B L = some em ∧
    ∃ q ∈ em, ∃ q' ∈ em, ∃ (i j k : ℕ) (p p' : Pt), q.2[i]? = some k ∧ q'.2[j]? = some k ∧
      q.1.corners[i]? = some p ∧ q'.1.corners[j]? = some p' ∧
      w.map q.1.cell p ≠ w.map q'.1.cell p' ∧ ¬ Same B q.1.cell p q'.1.cell p' := by
  have key : ∃ L em, refining turned halfTurn .center [0, 0, 0, 0] ⟨none⟩ = (some L, ⟨none⟩) ∧
      elementMap turned L = some em ∧
      ∃ q ∈ em, ∃ q' ∈ em, q.1 = .tri ⟨0, .S, [.zero, .two, .zero]⟩ ∧ q'.1 = .tri ⟨1, .S, [.zero, .two, .zero]⟩ ∧
        q.2[0]? = q'.2[0]? ∧ (q.2[0]?).isSome := by
    refine ⟨((refining turned halfTurn .center [0, 0, 0, 0] ⟨none⟩).1.getD []),
      (elementMap turned ((refining turned halfTurn .center [0, 0, 0, 0] ⟨none⟩).1.getD [])).getD [], ?_⟩
    decide +kernel
  obtain ⟨L, em, h1, h2, q, hq, q', hq', e, e', h3, h4⟩ := key
  obtain ⟨k, hk⟩ := Option.isSome_iff_exists.mp h4
  have hne : halfTurn.map q.1.cell ⟨1, -1 / 2⟩ ≠ halfTurn.map q'.1.cell ⟨1, -1 / 2⟩ := by
    rw [e, e']
    decide +kernel
  refine ⟨turned, halfTurn, L, em, turned_proper, fun _ _ _ _ h => turned_same h, h1, h2, q, hq, q', hq', 0, 0, k,
    ⟨1, -1 / 2⟩, ⟨1, -1 / 2⟩, hk, h3 ▸ hk, ?_, ?_, hne, fun h => hne (turned_same h)⟩
  · rw [e]; decide +kernel
  · rw [e']; decide +kernel

/-- The two cells are such a mesh, and refining them with three levels is the limit. -/
example : ¬ Aligned turned := fun h => h (0, ⟨0, 1, 2, 3⟩) (by decide) (1, ⟨5, 2, 1, 4⟩) (by decide) .S .S rfl

end Phyem.Trf
