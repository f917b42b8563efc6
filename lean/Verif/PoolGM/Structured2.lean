import Verif.PoolGM.Structured

/-!
C80 in two dimensions.
-/

namespace Phyem.PoolGM

/-! ### Specification -/

/-- A structured mesh of quadrilaterals: element `(I, J)` has label `lab I J`; its corners are those nodes `id a b` whose
positions are `I` or the next one along the first axis, and `J` or the next one along the second. -/
def structured2 (ax ay : Axis) (id lab : ℕ → ℕ → ℕ) : List Item :=
  (rect 0 0 ax.n 0 ay.n).map fun c =>
    let I := c.2.1; let J := c.2.2.1
    ⟨lab I J, true, .quad (id I J) (id (ax.next I) J) (id I (ay.next J)) (id (ax.next I) (ay.next J))⟩

/-- Different elements (or nodes) have different numbers. -/
def Distinct2 (l m : ℕ) (f : ℕ → ℕ → ℕ) : Prop :=
  ∀ a b a' b', a < l → b < m → a' < l → b' < m → f a b = f a' b' → a = a' ∧ b = b'

/-- The elements with, for each local dof, what `f` says about it. -/
def located2 (ax ay : Axis) (lab : ℕ → ℕ → ℕ) (f : ℕ → ℕ → List Place) : List (ℕ × List Place) :=
  (rect 0 0 ax.n 0 ay.n).map fun c => (lab c.2.1 c.2.2.1, f c.2.1 c.2.2.1)

/-- What is assumed: an axis that closes up has at least three elements, and different elements and nodes have
different numbers. -/
structure Box2 (ax ay : Axis) (id lab : ℕ → ℕ → ℕ) : Prop where
  x : ax.per = true → 3 ≤ ax.n
  y : ay.per = true → 3 ≤ ay.n
  nodes : Distinct2 ax.nodes ay.nodes id
  labels : Distinct2 ax.n ay.n lab

/-! ### Edges -/

/-- The edges of a structured mesh. -/
inductive Ent2 where
  | ex (I b : ℕ)
  | ey (a J : ℕ)
deriving DecidableEq

section
variable {ax ay : Axis} {id lab : ℕ → ℕ → ℕ} {p q : ℕ}

/-- Their nodes. -/
def Ent2.nodes (ax ay : Axis) (id : ℕ → ℕ → ℕ) : Ent2 → List ℕ
  | .ex I b => [id I b, id (ax.next I) b]
  | .ey a J => [id a J, id a (ay.next J)]

/-- Those that occur. -/
def Ent2.ok (ax ay : Axis) : Ent2 → Prop
  | .ex I b => I < ax.n ∧ b < ay.nodes
  | .ey a J => a < ax.nodes ∧ J < ay.n

/-- Bounds on positions. -/
local macro "below" : tactic => `(tactic| first
  | assumption | exact And.left (by assumption) | exact lt_nodes (by assumption) | exact next_lt (by assumption))

theorem ent2_inj (B : Box2 ax ay id lab) {e e' : Ent2} (he : e.ok ax ay) (he' : e'.ok ax ay)
    (h : e.nodes ax ay id = e'.nodes ax ay id) : e = e' := by
  cases e <;> cases e' <;> simp only [Ent2.nodes, List.cons.injEq, and_true] at h <;>
    simp only [Ent2.ok] at he he' <;> obtain ⟨h1, h2⟩ := he <;> obtain ⟨g1, g2⟩ := he'
  · obtain ⟨q1, q2⟩ := B.nodes _ _ _ _ (by below) (by below) (by below) (by below) h.1
    subst q1 q2; rfl
  · obtain ⟨q1, q2⟩ := B.nodes _ _ _ _ (by below) (by below) (by below) (by below) h.1
    have w := B.nodes _ _ _ _ (by below) (by below) (by below) (by below) h.2
    exact absurd (w.1.trans q1.symm) (next_ne (fun h => by have := B.x h; omega) (by below))
  · obtain ⟨q1, q2⟩ := B.nodes _ _ _ _ (by below) (by below) (by below) (by below) h.1
    have w := B.nodes _ _ _ _ (by below) (by below) (by below) (by below) h.2
    exact absurd (w.2.trans q2.symm) (next_ne (fun h => by have := B.y h; omega) (by below))
  · obtain ⟨q1, q2⟩ := B.nodes _ _ _ _ (by below) (by below) (by below) (by below) h.1
    subst q1 q2; rfl

/-- No edge is another one, or itself, the other way around. -/
theorem ent2_reverse (B : Box2 ax ay id lab) {e e' : Ent2} (he : e.ok ax ay) (he' : e'.ok ax ay) :
    e.nodes ax ay id ≠ (e'.nodes ax ay id).reverse := by
  intro h
  cases e <;> cases e' <;>
    simp only [Ent2.nodes, List.reverse_cons, List.reverse_nil, List.nil_append, List.cons_append, List.cons.injEq,
      and_true] at h <;>
    simp only [Ent2.ok] at he he' <;> obtain ⟨h1, h2⟩ := he <;> obtain ⟨g1, g2⟩ := he' <;>
    obtain ⟨q1, q2⟩ := B.nodes _ _ _ _ (by below) (by below) (by below) (by below) h.1 <;>
    obtain ⟨w1, w2⟩ := B.nodes _ _ _ _ (by below) (by below) (by below) (by below) h.2
  · exact next_next_ne B.x g1 (by rw [← q1]; exact w1)
  · exact absurd (w1.trans q1.symm) (next_ne (fun h => by have := B.x h; omega) (by below))
  · exact absurd (w2.trans q2.symm) (next_ne (fun h => by have := B.y h; omega) (by below))
  · exact next_next_ne B.y g2 (by rw [← q2]; exact w2)

/-! ### Places -/

/-- Places of points. -/
def point2 (ax ay : Axis) (id lab : ℕ → ℕ → ℕ) (p q : ℕ) : Pos → Pos → Place
  | .node a, .node b => .node (id a b)
  | .inner I t, .node b => .on ((Ent2.ex I b).nodes ax ay id) (p - 1) t
  | .node a, .inner J u => .on ((Ent2.ey a J).nodes ax ay id) (q - 1) u
  | .inner I t, .inner J u => .inside (lab I J) (0, t + 1, u + 1, 0)

/-- Places of segments along the second axis, -/
def yseg2 (ax ay : Axis) (id lab : ℕ → ℕ → ℕ) (q J j : ℕ) : Pos → Place
  | .node a => .on ((Ent2.ey a J).nodes ax ay id) q j
  | .inner I t => .inside (lab I J) (0, t + 1, j, 0)

/-- and along the first. -/
def xseg2 (ax ay : Axis) (id lab : ℕ → ℕ → ℕ) (p I i : ℕ) : Pos → Place
  | .node b => .on ((Ent2.ex I b).nodes ax ay id) p i
  | .inner J u => .inside (lab I J) (1, i, u + 1, 0)

/-- The first or last point of an axis, or an inner one. -/
theorem end_loc (a : Axis) (p I i : ℕ) :
    (i = 0 ∧ loc a p I i = .node I) ∨ (p ≠ 0 ∧ i = p ∧ loc a p I i = .node (a.next I)) ∨
      (i ≠ p ∧ ∃ t, i = t + 1 ∧ loc a p I i = .inner I t) := by
  unfold loc
  by_cases h0 : i = 0
  · left; simp [h0]
  · by_cases h1 : i = p
    · right; left; rw [if_neg h0, if_pos h1]; exact ⟨h1 ▸ h0, h1, rfl⟩
    · right; right
      rw [if_neg h0, if_neg h1]
      exact ⟨h1, i - 1, by omega, rfl⟩

theorem point2_eq (p q I J i j : ℕ) :
    quadPoint (lab I J) (id I J) (id (ax.next I) J) (id I (ay.next J)) (id (ax.next I) (ay.next J)) p q i j =
      point2 ax ay id lab p q (loc ax p I i) (loc ay q J j) := by
  rcases end_loc ax p I i with ⟨e, l⟩ | ⟨e0, e, l⟩ | ⟨e, t, rfl, l⟩ <;>
    rcases end_loc ay q J j with ⟨f, m⟩ | ⟨f0, f, m⟩ | ⟨f, u, rfl, m⟩ <;>
    rw [l, m] <;> unfold quadPoint <;> simp only [*, if_true, if_false, Nat.add_eq_zero_iff, and_false, one_ne_zero,
      ne_eq, not_false_eq_true, Nat.add_sub_cancel] <;> rfl

theorem yseg2_eq (p q I J i j : ℕ) :
    quadSegment (lab I J) (id I J) (id (ax.next I) J) (id I (ay.next J)) (id (ax.next I) (ay.next J)) p q 0 i j =
      yseg2 ax ay id lab q J j (loc ax p I i) := by
  rcases end_loc ax p I i with ⟨e, l⟩ | ⟨e0, e, l⟩ | ⟨e, t, rfl, l⟩ <;>
    rw [l] <;> unfold quadSegment <;> simp only [*, if_true, if_false, Nat.add_eq_zero_iff, and_false, one_ne_zero,
      ne_eq, not_false_eq_true, Nat.add_sub_cancel] <;> rfl

theorem xseg2_eq (p q I J i j : ℕ) :
    quadSegment (lab I J) (id I J) (id (ax.next I) J) (id I (ay.next J)) (id (ax.next I) (ay.next J)) p q 1 i j =
      xseg2 ax ay id lab p I i (loc ay q J j) := by
  rcases end_loc ay q J j with ⟨e, l⟩ | ⟨e0, e, l⟩ | ⟨e, t, rfl, l⟩ <;>
    rw [l] <;> unfold quadSegment <;> simp only [*, if_true, if_false, Nat.add_eq_zero_iff, and_false, one_ne_zero,
      ne_eq, not_false_eq_true, Nat.add_sub_cancel] <;> rfl

/-- The place is on an edge that occurs, or on none. -/
def OnOk (ax ay : Axis) (id : ℕ → ℕ → ℕ) (x : Place) : Prop :=
  ∀ ent len t, x = .on ent len t → ∃ e : Ent2, e.ok ax ay ∧ e.nodes ax ay id = ent

/-- For such places, no reversal occurs. -/
theorem same_eq (B : Box2 ax ay id lab) {x y : Place} (hx : OnOk ax ay id x) (hy : OnOk ax ay id y) :
    Same true x y ↔ x = y := by
  constructor
  · rintro (h | ⟨-, ent, len, t, s, -, -, rfl, rfl⟩)
    · exact h
    · obtain ⟨e, o, n⟩ := hx _ _ _ rfl
      obtain ⟨e', o', n'⟩ := hy _ _ _ rfl
      rw [← n] at n'
      exact absurd n' (ent2_reverse B o' o)
  · exact Or.inl

theorem point2_on {x y : Pos} (hx : x.ok ax p) (hy : y.ok ay q) : OnOk ax ay id (point2 ax ay id lab p q x y) := by
  intro ent len t h
  cases x <;> cases y <;> simp only [point2, Place.on.injEq, reduceCtorEq] at h <;> simp only [Pos.ok] at hx hy
  · exact ⟨.ey _ _, ⟨by below, by below⟩, h.1⟩
  · exact ⟨.ex _ _, ⟨by below, by below⟩, h.1⟩

theorem yseg2_on {J j : ℕ} {x : Pos} (hJ : J < ay.n) (hx : x.ok ax p) : OnOk ax ay id (yseg2 ax ay id lab q J j x) := by
  intro ent len t h
  cases x <;> simp only [yseg2, Place.on.injEq, reduceCtorEq] at h <;> simp only [Pos.ok] at hx
  exact ⟨.ey _ _, ⟨by below, by below⟩, h.1⟩

theorem xseg2_on {I i : ℕ} {y : Pos} (hI : I < ax.n) (hy : y.ok ay q) : OnOk ax ay id (xseg2 ax ay id lab p I i y) := by
  intro ent len t h
  cases y <;> simp only [xseg2, Place.on.injEq, reduceCtorEq] at h <;> simp only [Pos.ok] at hy
  exact ⟨.ex _ _, ⟨by below, by below⟩, h.1⟩

local macro "ent" : tactic => `(tactic| (simp only [Ent2.ok]; refine ⟨?_, ?_⟩ <;> first | assumption | exact And.left (by assumption)))

theorem point2_inj (B : Box2 ax ay id lab) {x x' y y' : Pos} (hx : x.ok ax p) (hy : y.ok ay q)
    (hx' : x'.ok ax p) (hy' : y'.ok ay q) (h : point2 ax ay id lab p q x y = point2 ax ay id lab p q x' y') :
    x = x' ∧ y = y' := by
  cases x <;> cases y <;> cases x' <;> cases y' <;>
    simp only [point2, Place.node.injEq, Place.on.injEq, Place.inside.injEq, Prod.mk.injEq, reduceCtorEq, true_and,
      and_true, Nat.add_right_cancel_iff] at h <;>
    simp only [Pos.ok] at hx hy hx' hy' <;>
    first
    | exact absurd (ent2_inj B (by ent) (by ent) h.1) (by simp only [reduceCtorEq, not_false_eq_true])
    | (obtain ⟨rfl, rfl⟩ := B.nodes _ _ _ _ hx hy hx' hy' h; exact ⟨rfl, rfl⟩)
    | (obtain ⟨rfl, rfl⟩ := B.labels _ _ _ _ hx.1 hy.1 hx'.1 hy'.1 h.1
       obtain ⟨-, rfl, rfl⟩ := h; exact ⟨rfl, rfl⟩)
    | (cases ent2_inj B (by ent) (by ent) h.1
       obtain ⟨-, rfl⟩ := h; exact ⟨rfl, rfl⟩)

theorem yseg2_inj (B : Box2 ax ay id lab) {J j J' j' : ℕ} {x x' : Pos} (hJ : J < ay.n) (hJ' : J' < ay.n) (hx : x.ok ax p)
    (hx' : x'.ok ax p) (h : yseg2 ax ay id lab q J j x = yseg2 ax ay id lab q J' j' x') : x = x' ∧ J = J' ∧ j = j' := by
  cases x <;> cases x' <;>
    simp only [yseg2, Place.on.injEq, Place.inside.injEq, Prod.mk.injEq, reduceCtorEq, true_and,
      and_true, Nat.add_right_cancel_iff] at h <;>
    simp only [Pos.ok] at hx hx'
  · cases ent2_inj B (by ent) (by ent) h.1
    exact ⟨rfl, rfl, h.2⟩
  · obtain ⟨rfl, rfl⟩ := B.labels _ _ _ _ hx.1 hJ hx'.1 hJ' h.1
    obtain ⟨-, rfl, rfl⟩ := h
    exact ⟨rfl, rfl, rfl⟩

theorem xseg2_inj (B : Box2 ax ay id lab) {I i I' i' : ℕ} {y y' : Pos} (hI : I < ax.n) (hI' : I' < ax.n) (hy : y.ok ay q)
    (hy' : y'.ok ay q) (h : xseg2 ax ay id lab p I i y = xseg2 ax ay id lab p I' i' y') : (I = I' ∧ i = i') ∧ y = y' := by
  cases y <;> cases y' <;>
    simp only [xseg2, Place.on.injEq, Place.inside.injEq, Prod.mk.injEq, reduceCtorEq, true_and,
      and_true, Nat.add_right_cancel_iff] at h <;>
    simp only [Pos.ok] at hy hy'
  · cases ent2_inj B (by ent) (by ent) h.1
    exact ⟨⟨rfl, h.2⟩, rfl⟩
  · obtain ⟨rfl, rfl⟩ := B.labels _ _ _ _ hI hy.1 hI' hy'.1 h.1
    obtain ⟨-, rfl, rfl⟩ := h
    exact ⟨⟨rfl, rfl⟩, rfl⟩

theorem yseg2_ne_xseg2 (B : Box2 ax ay id lab) {J j I i : ℕ} {x y : Pos} (hJ : J < ay.n) (hI : I < ax.n) (hx : x.ok ax p)
    (hy : y.ok ay q) : yseg2 ax ay id lab q J j x ≠ xseg2 ax ay id lab p I i y := by
  intro h
  cases x <;> cases y <;>
    simp only [yseg2, xseg2, Place.on.injEq, Place.inside.injEq, Prod.mk.injEq, reduceCtorEq] at h <;>
    simp only [Pos.ok] at hx hy <;>
    first
    | exact absurd (ent2_inj B (by ent) (by ent) h.1) (by simp only [reduceCtorEq, not_false_eq_true])
    | exact absurd h.2.1 (by decide)

/-! ### The mesh -/

theorem mem_rect0 {t m n : ℕ} {c : Cell} : c ∈ rect t 0 m 0 n ↔ ∃ i j, c = (t, i, j, 0) ∧ i < m ∧ j < n := by
  rw [mem_rect]
  constructor
  · rintro ⟨i, hi, j, hj, rfl⟩; exact ⟨i, j, by simp, hi, hj⟩
  · rintro ⟨i, j, rfl, hi, hj⟩; exact ⟨i, hi, j, hj, by simp⟩

/-- The quadrilateral at a position. -/
def quadAt (ax ay : Axis) (id : ℕ → ℕ → ℕ) (I J : ℕ) : Shape2 :=
  .quad (id I J) (id (ax.next I) J) (id I (ay.next J)) (id (ax.next I) (ay.next J))

theorem mem_structured2 {x : Item} (h : x ∈ structured2 ax ay id lab) :
    ∃ I < ax.n, ∃ J < ay.n, x = ⟨lab I J, true, quadAt ax ay id I J⟩ := by
  obtain ⟨c, hc, rfl⟩ := List.mem_map.1 h
  obtain ⟨I, J, rfl, hI, hJ⟩ := mem_rect0.1 hc
  exact ⟨I, hI, J, hJ, rfl⟩

theorem xEdges_ent {I J : ℕ} (hI : I < ax.n) (hJ : J < ay.n) {e : List ℕ} (he : e ∈ xEdges (quadAt ax ay id I J)) :
    ∃ I b, (Ent2.ex I b).ok ax ay ∧ (Ent2.ex I b).nodes ax ay id = e := by
  simp only [quadAt, xEdges, List.mem_cons, List.not_mem_nil, or_false] at he
  rcases he with rfl | rfl
  · exact ⟨I, J, ⟨by below, by below⟩, rfl⟩
  · exact ⟨I, ay.next J, ⟨by below, by below⟩, rfl⟩

theorem yEdges_ent {I J : ℕ} (hI : I < ax.n) (hJ : J < ay.n) {e : List ℕ} (he : e ∈ yEdges (quadAt ax ay id I J)) :
    ∃ a J, (Ent2.ey a J).ok ax ay ∧ (Ent2.ey a J).nodes ax ay id = e := by
  simp only [quadAt, yEdges, List.mem_cons, List.not_mem_nil, or_false] at he
  rcases he with rfl | rfl
  · exact ⟨I, J, ⟨by below, by below⟩, rfl⟩
  · exact ⟨ax.next I, J, ⟨by below, by below⟩, rfl⟩

theorem structured2_conforming (B : Box2 ax ay id lab) (p q : ℕ) : Conforming p q (structured2 ax ay id lab) := by
  right
  intro x hx y hy _ _ e he f hf
  obtain ⟨I, hI, J, hJ, rfl⟩ := mem_structured2 hx
  obtain ⟨I', hI', J', hJ', rfl⟩ := mem_structured2 hy
  obtain ⟨_, _, o, n⟩ := xEdges_ent hI hJ he
  obtain ⟨_, _, o', n'⟩ := yEdges_ent hI' hJ' hf
  rw [← n, ← n']
  exact ⟨fun h => absurd (ent2_inj B o o' h) (by simp), ent2_reverse B o o'⟩

theorem structured2_labels (B : Box2 ax ay id lab) : ((structured2 ax ay id lab).map Item.label).Nodup := by
  unfold structured2
  rw [List.map_map]
  refine List.Nodup.map_on ?_ rect_nodup
  intro c hc d hd h
  obtain ⟨I, J, rfl, hI, hJ⟩ := mem_rect0.1 hc
  obtain ⟨I', J', rfl, hI', hJ'⟩ := mem_rect0.1 hd
  obtain ⟨rfl, rfl⟩ := B.labels _ _ _ _ hI hJ hI' hJ' h
  rfl

theorem placesOf_structured2 (f : ℕ → Shape2 → List Place) :
    placesOf f (structured2 ax ay id lab) = located2 ax ay lab fun I J => f (lab I J) (quadAt ax ay id I J) := by
  unfold placesOf structured2 located2
  rw [List.filter_eq_self.2, List.map_map]
  · rfl
  · intro x hx
    obtain ⟨c, -, rfl⟩ := List.mem_map.1 hx
    rfl

/-- From places of the mesh to positions. -/
theorem located2_transfer (B : Box2 ax ay id lab) {idx : List Cell} {f : ℕ → Shape2 → List Place} {g : ℕ → ℕ → List Place}
    {F G : ℕ → ℕ → Cell → Place} {gm : Dict ℕ (Option (List ℕ))} {total : ℕ}
    (h : Right true (placesOf f (structured2 ax ay id lab)) gm total)
    (hf : ∀ I J, f (lab I J) (quadAt ax ay id I J) = idx.map (F I J))
    (hg : ∀ I J, g I J = idx.map (G I J))
    (on : ∀ I < ax.n, ∀ J < ay.n, ∀ s ∈ idx, OnOk ax ay id (F I J s))
    (e : ∀ I < ax.n, ∀ J < ay.n, ∀ I' < ax.n, ∀ J' < ay.n, ∀ s ∈ idx, ∀ s' ∈ idx,
      F I J s = F I' J' s' ↔ G I J s = G I' J' s') :
    Right false (located2 ax ay lab g) gm total := by
  rw [placesOf_structured2] at h
  unfold located2 at h ⊢
  simp only [hf] at h
  simp only [hg]
  refine Right.transfer (F := fun c : Cell => F c.2.1 c.2.2.1) (G := fun c : Cell => G c.2.1 c.2.2.1) h ?_
  intro c hc d hd s hs s' hs'
  obtain ⟨I, J, rfl, hI, hJ⟩ := mem_rect0.1 hc
  obtain ⟨I', J', rfl, hI', hJ'⟩ := mem_rect0.1 hd
  rw [same_eq B (on _ hI _ hJ _ hs) (on _ hI' _ hJ' _ hs'), same_false]
  exact e I hI J hJ I' hI' J' hJ' s hs s' hs'

/-- C80, 0-forms on rectangles, cylinders and tori: two nodes have the same number exactly when they are at the same
position. -/
theorem rect_nodes_right (B : Box2 ax ay id lab) (hp : 0 < p) (hq : 0 < q) :
    ∃ gm total, number0 p q (structured2 ax ay id lab) = some (gm, total) ∧
      Right false (located2 ax ay lab fun I J => grid (p + 1) (q + 1) fun i j =>
        geo 0 (ax.pos p I i) (ay.pos q J j) 0) gm total := by
  obtain ⟨gm, total, h, R⟩ := nodes_right hp hq (structured2_labels B) (structured2_conforming B p q) (by
    right
    intro x hx _ a b c
    obtain ⟨I, hI, J, hJ, rfl⟩ := mem_structured2 hx
    simp [quadAt])
  refine ⟨gm, total, h, located2_transfer B (idx := rect 0 0 (p + 1) 0 (q + 1))
    (F := fun I J c => point2 ax ay id lab p q (loc ax p I c.2.1) (loc ay q J c.2.2.1))
    (G := fun I J c => geo 0 (ax.pos p I c.2.1) (ay.pos q J c.2.2.1) 0) R
    (fun I J => ?_) (fun I J => ?_) ?_ ?_⟩
  · rw [rect_map]
    simp only [quadAt, nodePlaces, ← point2_eq, Nat.zero_add]
  · rw [rect_map]; simp only [Nat.zero_add]
  · intro I hI J hJ s hs
    obtain ⟨i, j, rfl, hi, hj⟩ := mem_rect0.1 hs
    dsimp only
    exact point2_on (loc_ok hI (by omega)) (loc_ok hJ (by omega))
  · intro I hI J hJ I' hI' J' hJ' s hs s' hs'
    obtain ⟨i, j, rfl, hi, hj⟩ := mem_rect0.1 hs
    obtain ⟨i', j', rfl, hi', hj'⟩ := mem_rect0.1 hs'
    dsimp only
    rw [← same_false (x := geo _ _ _ _), same_geo, pos_eq hp hI (by omega) hI' (by omega),
      pos_eq hq hJ (by omega) hJ' (by omega)]
    constructor
    · intro h
      obtain ⟨h1, h2⟩ := point2_inj B (loc_ok hI (by omega)) (loc_ok hJ (by omega)) (loc_ok hI' (by omega))
        (loc_ok hJ' (by omega)) h
      exact ⟨rfl, h1, h2, rfl⟩
    · rintro ⟨-, h1, h2, -⟩
      simp only [h1, h2]

/-- The place of a segment, -/
def seg2 (ax ay : Axis) (id lab : ℕ → ℕ → ℕ) (p q I J : ℕ) : Cell → Place
  | (0, i, j, _) => yseg2 ax ay id lab q J j (loc ax p I i)
  | (_, i, j, _) => xseg2 ax ay id lab p I i (loc ay q J j)

/-- and its position. -/
def pos21 (ax ay : Axis) (p q I J : ℕ) : Cell → Place
  | (0, i, j, _) => geo 0 (ax.pos p I i) (J * q + j) 0
  | (_, i, j, _) => geo 1 (I * p + i) (ay.pos q J j) 0

theorem seg2_spec (B : Box2 ax ay id lab) (hp : 0 < p) (hq : 0 < q) {I J I' J' : ℕ} (hI : I < ax.n) (hJ : J < ay.n)
    (hI' : I' < ax.n) (hJ' : J' < ay.n) {s s' : Cell} (hs : s ∈ rect 0 0 (p + 1) 0 q ∨ s ∈ rect 1 0 p 0 (q + 1))
    (hs' : s' ∈ rect 0 0 (p + 1) 0 q ∨ s' ∈ rect 1 0 p 0 (q + 1)) :
    OnOk ax ay id (seg2 ax ay id lab p q I J s) ∧ (seg2 ax ay id lab p q I J s = seg2 ax ay id lab p q I' J' s' ↔
      pos21 ax ay p q I J s = pos21 ax ay p q I' J' s') := by
  constructor
  · rcases hs with hs | hs <;> obtain ⟨i, j, rfl, hi, hj⟩ := mem_rect0.1 hs <;> simp only [seg2]
    · exact yseg2_on hJ (loc_ok hI (by omega))
    · exact xseg2_on hI (loc_ok hJ (by omega))
  · rcases hs with hs | hs <;> rcases hs' with hs' | hs' <;>
      obtain ⟨i, j, rfl, hi, hj⟩ := mem_rect0.1 hs <;> obtain ⟨i', j', rfl, hi', hj'⟩ := mem_rect0.1 hs' <;>
      simp only [seg2, pos21]
    · rw [← same_false (x := geo _ _ _ _), same_geo, pos_eq hp hI (by omega) hI' (by omega), quot_iff hj hj']
      constructor
      · intro h
        obtain ⟨h1, h2⟩ := yseg2_inj B hJ hJ' (loc_ok hI (by omega)) (loc_ok hI' (by omega)) h
        exact ⟨rfl, h1, h2, rfl⟩
      · rintro ⟨-, h1, ⟨rfl, rfl⟩, -⟩
        rw [h1]
    · exact ⟨fun h => absurd h (yseg2_ne_xseg2 B hJ hI' (loc_ok hI (by omega)) (loc_ok hJ' (by omega))),
        fun h => absurd h (by simp [geo])⟩
    · exact ⟨fun h => absurd h.symm (yseg2_ne_xseg2 B hJ' hI (loc_ok hI' (by omega)) (loc_ok hJ (by omega))),
        fun h => absurd h (by simp [geo])⟩
    · rw [← same_false (x := geo _ _ _ _), same_geo, pos_eq hq hJ (by omega) hJ' (by omega), quot_iff hi hi']
      constructor
      · intro h
        obtain ⟨h1, h2⟩ := xseg2_inj B hI hI' (loc_ok hJ (by omega)) (loc_ok hJ' (by omega)) h
        exact ⟨rfl, h1, h2, rfl⟩
      · rintro ⟨-, ⟨rfl, rfl⟩, h1, -⟩
        rw [h1]

/-- C80, outer 1-forms. -/
theorem rect_edges_outer_right (B : Box2 ax ay id lab) (hp : 0 < p) (hq : 0 < q) :
    ∃ gm total, number1o p q (structured2 ax ay id lab) = some (gm, total) ∧
      Right false (located2 ax ay lab fun I J =>
        (grid (p + 1) q fun i j => geo 0 (ax.pos p I i) (J * q + j) 0) ++
        (grid p (q + 1) fun i j => geo 1 (I * p + i) (ay.pos q J j) 0)) gm total := by
  obtain ⟨gm, total, h, R⟩ := edges_outer_right hp hq (structured2_labels B) (structured2_conforming B p q)
  refine ⟨gm, total, h, located2_transfer B (idx := rect 0 0 (p + 1) 0 q ++ rect 1 0 p 0 (q + 1))
    (F := fun I J => seg2 ax ay id lab p q I J) (G := fun I J => pos21 ax ay p q I J) R
    (fun I J => ?_) (fun I J => ?_) ?_ ?_⟩
  · simp only [List.map_append, rect_map, seg2, quadAt, xSegments, ySegments, ← yseg2_eq, ← xseg2_eq, Nat.zero_add]
  · simp only [List.map_append, rect_map, pos21, Nat.zero_add]
  · intro I hI J hJ s hs
    exact (seg2_spec B hp hq hI hJ hI hJ (List.mem_append.1 hs) (List.mem_append.1 hs)).1
  · intro I hI J hJ I' hI' J' hJ' s hs s' hs'
    exact (seg2_spec B hp hq hI hJ hI' hJ' (List.mem_append.1 hs) (List.mem_append.1 hs')).2

/-- C80, inner 1-forms. -/
theorem rect_edges_inner_right (B : Box2 ax ay id lab) (hp : 0 < p) (hq : 0 < q) :
    ∃ gm total, number1i p q (structured2 ax ay id lab) = some (gm, total) ∧
      Right false (located2 ax ay lab fun I J =>
        (grid p (q + 1) fun i j => geo 1 (I * p + i) (ay.pos q J j) 0) ++
        (grid (p + 1) q fun i j => geo 0 (ax.pos p I i) (J * q + j) 0)) gm total := by
  obtain ⟨gm, total, h, R⟩ := edges_inner_right hp hq (structured2_labels B) (structured2_conforming B p q)
  refine ⟨gm, total, h, located2_transfer B (idx := rect 1 0 p 0 (q + 1) ++ rect 0 0 (p + 1) 0 q)
    (F := fun I J => seg2 ax ay id lab p q I J) (G := fun I J => pos21 ax ay p q I J) R
    (fun I J => ?_) (fun I J => ?_) ?_ ?_⟩
  · simp only [List.map_append, rect_map, seg2, quadAt, xSegments, ySegments, ← yseg2_eq, ← xseg2_eq, Nat.zero_add]
  · simp only [List.map_append, rect_map, pos21, Nat.zero_add]
  · intro I hI J hJ s hs
    exact (seg2_spec B hp hq hI hJ hI hJ (List.mem_append.1 hs).symm (List.mem_append.1 hs).symm).1
  · intro I hI J hJ I' hI' J' hJ' s hs s' hs'
    exact (seg2_spec B hp hq hI hJ hI' hJ' (List.mem_append.1 hs).symm (List.mem_append.1 hs').symm).2

end

/-! ### Concrete meshes -/

/-- A torus of 3 by 4 elements, a cylinder of 3 by 1, and a single element. -/
example : Box2 ⟨3, true⟩ ⟨4, true⟩ (fun a b => a + 3 * b) (fun a b => 10 + a + 3 * b) := by
  refine ⟨by simp, by simp, ?_, ?_⟩ <;> intro a b a' b' <;> simp [Axis.nodes] <;> omega

example : Box2 ⟨3, true⟩ ⟨1, false⟩ (fun a b => a + 3 * b) (fun a _ => a) := by
  refine ⟨by simp, by simp, ?_, ?_⟩ <;> intro a b a' b' <;> simp [Axis.nodes] <;> omega

/-- The torus of 3 by 4 elements has `(3 p) (4 q)` nodes. -/
example : (number0 2 3 (structured2 ⟨3, true⟩ ⟨4, true⟩ (fun a b => a + 3 * b) (fun a b => 10 + a + 3 * b))).map
    Prod.snd = some 72 := by decide +kernel

/-- C80, refuted: two periodic layers. The two edges between the two nodes of a row are taken for one met in
opposite directions: segments at different positions have the same number. -/
theorem rect_edges_outer_right_refuted : ∃ gm total,
    number1o 1 1 (structured2 ⟨2, true⟩ ⟨1, false⟩ (fun a b => a + 2 * b) (fun a _ => a)) = some (gm, total) ∧
      ¬ Right false (located2 ⟨2, true⟩ ⟨1, false⟩ (fun a _ => a) fun I J =>
        (grid (1 + 1) 1 fun i j => geo 0 (Axis.pos ⟨2, true⟩ 1 I i) (J * 1 + j) 0) ++
        (grid 1 (1 + 1) fun i j => geo 1 (I * 1 + i) (Axis.pos ⟨1, false⟩ 1 J j) 0)) gm total := by
  refine ⟨[(0, some [0, 1, 2, 3]), (1, some [1, 0, 2, 3])], 4, by decide +kernel, fun R => ?_⟩
  have := (R.same 0 [geo 0 0 0 0, geo 0 1 0 0, geo 1 0 0 0, geo 1 0 1 0] 1
    [geo 0 1 0 0, geo 0 0 0 0, geo 1 1 0 0, geo 1 1 1 0] [0, 1, 2, 3] [1, 0, 2, 3]
    (by decide +kernel) (by decide +kernel) (by simp) (by simp) 2 2 _ _ 2 2 rfl rfl rfl rfl).1 rfl
  revert this
  simp [Same, geo]

/-- The number of nodes is wrong too for degrees with points inside edges: `(2 · 2) · 2` are needed. -/
theorem rect_nodes_right_refuted : ∃ gm total,
    number0 2 1 (structured2 ⟨2, true⟩ ⟨1, false⟩ (fun a b => a + 2 * b) (fun a _ => a)) = some (gm, total) ∧
      ¬ Right false (located2 ⟨2, true⟩ ⟨1, false⟩ (fun a _ => a) fun I J => grid (2 + 1) (1 + 1) fun i j =>
        geo 0 (Axis.pos ⟨2, true⟩ 2 I i) (Axis.pos ⟨1, false⟩ 1 J j) 0) gm total := by
  refine ⟨[(0, some [0, 1, 2, 3, 4, 5]), (1, some [2, 1, 0, 5, 4, 3])], 6, by decide +kernel, fun R => ?_⟩
  have := (R.same 0 [geo 0 0 0 0, geo 0 1 0 0, geo 0 2 0 0, geo 0 0 1 0, geo 0 1 1 0, geo 0 2 1 0] 1
    [geo 0 2 0 0, geo 0 3 0 0, geo 0 0 0 0, geo 0 2 1 0, geo 0 3 1 0, geo 0 0 1 0] [0, 1, 2, 3, 4, 5] [2, 1, 0, 5, 4, 3]
    (by decide +kernel) (by decide +kernel) (by simp) (by simp) 1 1 _ _ 1 1 rfl rfl rfl rfl).1 rfl
  revert this
  simp [Same, geo]

end Phyem.PoolGM
