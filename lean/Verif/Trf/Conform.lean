import Verif.Trf.Forest
import Mathlib.Data.List.Perm.Subperm

/-! Forests in which bottom edges are split on both sides have no hanging nodes. -/

namespace Phyem.Trf

/-- `s` has been split. -/
def Refined (L : List Elem) (s : Tri) : Prop := ∃ t, Elem.tri t ∈ L ∧ s.Under t ∧ s ≠ t

/-- Two triangles with the same bottom edge. -/
def Mate (B : Base) (s s' : Tri) : Prop :=
  s' ≠ s ∧ ∃ n n', (s.cell, n) ∈ B ∧ (s'.cell, n') ∈ B ∧
    ((keyAt n s.cell (verts s).b = keyAt n' s'.cell (verts s').b ∧
      keyAt n s.cell (verts s).c = keyAt n' s'.cell (verts s').c) ∨
     (keyAt n s.cell (verts s).b = keyAt n' s'.cell (verts s').c ∧
      keyAt n s.cell (verts s).c = keyAt n' s'.cell (verts s').b))

/-- A bottom edge on a side of a cell that no other cell has. -/
def Bnd (B : Base) (s : Tri) : Prop :=
  ∃ n d tb tc, (s.cell, n) ∈ B ∧ (verts s).b = sidePt d tb ∧ (verts s).c = sidePt d tc ∧
    (allFaces B).count (faceNodes n d) = 1

/-- Bottom edges are split on both sides. -/
def Closed (B : Base) (L : List Elem) : Prop :=
  ∀ s, Refined L s → (∃ s', Refined L s' ∧ Mate B s s') ∨ Bnd B s

/-! Shapes. -/

/-- The legs of a triangle are equal and orthogonal. -/
def Right (V : Three) : Prop :=
  V.c.x - V.a.x = -(V.b.y - V.a.y) ∧ V.c.y - V.a.y = V.b.x - V.a.x

lemma right_bisect {V : Three} (h : Right V) (k : Half) : Right (bisect V k) := by
  obtain ⟨h1, h2⟩ := h
  cases k <;> simp only [Right, bisect, mid] <;> constructor <;> linarith

lemma right_verts (t : Tri) : Right (verts t) := by
  unfold verts
  have : ∀ (l : List Half) (V : Three), Right V → Right (l.foldl bisect V) := by
    intro l
    induction l with
    | nil => exact fun V h => h
    | cons k l ih => exact fun V h => ih _ (right_bisect h k)
  apply this
  cases t.dir <;> simp only [Right, start] <;> norm_num

lemma right_apex {V W : Three} (h : Right V) (k : Right W) (hb : V.b = W.b) (hc : V.c = W.c) : V = W := by
  obtain ⟨a, b, c⟩ := V
  obtain ⟨a', b', c'⟩ := W
  simp only at hb hc
  subst hb hc
  obtain ⟨h1, h2⟩ := h
  obtain ⟨k1, k2⟩ := k
  simp only at h1 h2 k1 k2
  have : a = a' := by ext <;> linarith
  rw [this]

lemma bc_ne (t : Tri) : (verts t).b ≠ (verts t).c := by
  intro h
  have := size_pos t
  simp only [size, area2, h] at this
  linarith

/-- Triangles of a cell with the same vertices are the same triangle. -/
lemma verts_inj {s t : Tri} (hc : s.cell = t.cell) (h : verts s = verts t) : s = t := by
  have hw : Within (verts s) ⟨1/3 * (verts s).a.x + 1/3 * (verts s).b.x + 1/3 * (verts s).c.x,
      1/3 * (verts s).a.y + 1/3 * (verts s).b.y + 1/3 * (verts s).c.y⟩ :=
    ⟨1/3, 1/3, 1/3, by norm_num, by norm_num, by norm_num, by norm_num, rfl⟩
  have hl : s.path.length = t.path.length := by
    have e : size (verts s) = size (verts t) := by rw [h]
    rw [size_verts, size_verts] at e
    have e2 : (2 : ℚ) ^ s.path.length = 2 ^ t.path.length := by
      have p1 : (2 : ℚ) ^ s.path.length ≠ 0 := by positivity
      have p2 : (2 : ℚ) ^ t.path.length ≠ 0 := by positivity
      field_simp at e
      exact e.symm
    exact Nat.pow_right_injective (le_refl 2) (by exact_mod_cast e2)
  rcases comparable hc hw (by rw [← h]; exact hw.in) with k | k
  · cases s; cases t
    obtain ⟨h1, h2, h3⟩ := k
    simp only at h1 h2 h3 hl
    rw [h3.eq_of_length hl, h1, h2]
  · cases s; cases t
    obtain ⟨h1, h2, h3⟩ := k
    simp only at h1 h2 h3 hl
    rw [h3.eq_of_length hl.symm, h1, h2]

/-! Sides. -/

lemma sidePt_in {d : Dir} {t : ℚ} (h : InSquare (sidePt d t)) : -1 ≤ t ∧ t ≤ 1 := by
  obtain ⟨h1, h2, h3, h4⟩ := h
  cases d <;> simp only [sidePt] at h1 h2 h3 h4 <;> constructor <;> assumption

lemma sidePt_inj {d : Dir} {t t' : ℚ} (h : sidePt d t = sidePt d t') : t = t' := by
  cases d <;> simp only [sidePt, Pt.mk.injEq] at h <;> first | exact h.1 | exact h.2

lemma sidePt_strict {d d' : Dir} {t t' : ℚ} (h0 : -1 < t) (h1 : t < 1) (h : sidePt d t = sidePt d' t') : d = d' := by
  cases d <;> cases d' <;> first | rfl | (simp only [sidePt, Pt.mk.injEq] at h; exfalso; obtain ⟨h2, h3⟩ := h; linarith)

/-- Points of a triangle on the boundary of the square are on the side the triangle belongs to. -/
lemma on_side {t : Tri} {p : Pt} (h : In (verts t) p) (hb : p.x = -1 ∨ p.x = 1 ∨ p.y = -1 ∨ p.y = 1) :
    ∃ τ, p = sidePt t.dir τ := by
  have h := in_start h
  rw [in_iff _ _ (by rw [size_start]; norm_num)] at h
  obtain ⟨h1, h2, h3⟩ := h
  cases hd : t.dir <;> rw [hd] at h1 h2 h3 <;> simp only [start, wa, wb, wc, area2] at h1 h2 h3 <;>
    simp only [sidePt]
  · exact ⟨p.y, by ext <;> simp only; rcases hb with h | h | h | h <;> linarith⟩
  · refine ⟨p.x, by ext <;> simp only; rcases hb with h | h | h | h <;> linarith⟩
  · refine ⟨p.x, by ext <;> simp only; rcases hb with h | h | h | h <;> linarith⟩
  · refine ⟨p.y, by ext <;> simp only; rcases hb with h | h | h | h <;> linarith⟩

/-- When the bottom edge is on a side, the whole square is on the side of the triangle. -/
lemma side_nonneg {t : Tri} {d : Dir} {tb tc : ℚ} (hb : (verts t).b = sidePt d tb) (hc : (verts t).c = sidePt d tc)
    {z : Pt} (hz : InSquare z) : 0 ≤ area2 (verts t).b (verts t).c z := by
  have ha := in_square (in_va (verts t))
  have hs := size_pos t
  have e : size (verts t) = area2 (verts t).b (verts t).c (verts t).a := by simp only [size, area2]; ring
  rw [e] at hs
  rw [hb, hc] at hs ⊢
  obtain ⟨a1, a2, a3, a4⟩ := ha
  obtain ⟨z1, z2, z3, z4⟩ := hz
  cases d <;> simp only [sidePt, area2] at hs ⊢
  · have : 0 < tb - tc := by
      by_contra hn
      nlinarith
    nlinarith
  · have : 0 < tc - tb := by
      by_contra hn
      nlinarith
    nlinarith
  · have : 0 < tb - tc := by
      by_contra hn
      nlinarith
    nlinarith
  · have : 0 < tc - tb := by
      by_contra hn
      nlinarith
    nlinarith

lemma in_convex {V : Three} (hV : 0 < size V) {p m q : Pt} (hp : In V p) (hq : In V q) (h : Between p m q) :
    In V m := by
  rw [in_iff _ _ hV] at hp hq ⊢
  obtain ⟨s, s0, s1, rfl⟩ := h
  have la : ∀ w : Three → Pt → ℚ, (w = wa ∨ w = wb ∨ w = wc) →
      w V ⟨(1 - s) * p.x + s * q.x, (1 - s) * p.y + s * q.y⟩ = (1 - s) * w V p + s * w V q := by
    rintro w (rfl | rfl | rfl)
    · simp only [wa, area2]; ring
    · simp only [wb, area2]; ring
    · simp only [wc, area2]; ring
  rw [la wa (by simp), la wb (by simp), la wc (by simp)]
  have s1' : 0 ≤ 1 - s := by linarith
  exact ⟨by linarith [mul_nonneg s1' hp.1, mul_nonneg s0.le hq.1],
    by linarith [mul_nonneg s1' hp.2.1, mul_nonneg s0.le hq.2.1],
    by linarith [mul_nonneg s1' hp.2.2, mul_nonneg s0.le hq.2.2]⟩

lemma square_convex {p m q : Pt} (hp : InSquare p) (hq : InSquare q) (h : Between p m q) : InSquare m := by
  obtain ⟨s, s0, s1, rfl⟩ := h
  obtain ⟨p1, p2, p3, p4⟩ := hp
  obtain ⟨q1, q2, q3, q4⟩ := hq
  have s1' : 0 ≤ 1 - s := by linarith
  refine ⟨?_, ?_, ?_, ?_⟩ <;> simp only <;> nlinarith

/-- The corners of the square are extreme. -/
lemma corner_extreme {n : Nodes} {a : ℕ} {p m q : Pt} (hm : Corner n a m) (hp : InSquare p) (hq : InSquare q)
    (h : Between p m q) : p = q := by
  obtain ⟨s, s0, s1, e⟩ := h
  obtain ⟨p1, p2, p3, p4⟩ := hp
  obtain ⟨q1, q2, q3, q4⟩ := hq
  have s1' : 0 < 1 - s := by linarith
  have ex := congrArg Pt.x e
  have ey := congrArg Pt.y e
  rcases hm with ⟨_, rfl⟩ | ⟨_, rfl⟩ | ⟨_, rfl⟩ | ⟨_, rfl⟩ <;> simp only at ex ey <;> ext <;> nlinarith

/-- The edges of a triangle. -/
lemma edge_of_tri {f : Tri} {s : Pt × Pt} (h : s ∈ (Elem.tri f).edges) :
    In (verts f) s.1 ∧ In (verts f) s.2 ∧ s.1 ≠ s.2 := by
  have hs := size_pos f
  simp only [Elem.edges, List.mem_cons, List.not_mem_nil, or_false] at h
  rcases h with rfl | rfl | rfl
  · refine ⟨in_va _, in_vb _, fun e => ?_⟩
    simp only [size, area2] at hs; simp only at e; rw [e] at hs; linarith
  · refine ⟨in_vb _, in_vc _, fun e => ?_⟩
    simp only [size, area2] at hs; simp only at e; rw [e] at hs; linarith
  · refine ⟨in_vc _, in_va _, fun e => ?_⟩
    simp only [size, area2] at hs; simp only at e; rw [e] at hs; linarith

lemma edge_of_quad {c : ℕ} {s : Pt × Pt} (h : s ∈ (Elem.quad c).edges) :
    InSquare s.1 ∧ InSquare s.2 ∧ s.1 ≠ s.2 := by
  simp only [Elem.edges, List.mem_cons, List.not_mem_nil, or_false] at h
  rcases h with rfl | rfl | rfl | rfl <;> norm_num [InSquare]

lemma edge_square {e : Elem} {s : Pt × Pt} (h : s ∈ e.edges) : InSquare s.1 ∧ InSquare s.2 ∧ s.1 ≠ s.2 := by
  cases e with
  | quad c => exact edge_of_quad h
  | tri f =>
    obtain ⟨h1, h2, h3⟩ := edge_of_tri h
    exact ⟨in_square h1, in_square h2, h3⟩

/-- A vertex is a corner of the square, its centre, or the midpoint of the bottom edge of a triangle that has been
split. -/
lemma vertex_cases (t : Tri) {p : Pt} (hp : p ∈ (Elem.tri t).corners) :
    (∀ n, ∃ a, Corner n a p) ∨ p = ⟨0, 0⟩ ∨
    ∃ s : Tri, s.Under t ∧ s ≠ t ∧ p = mid (verts s).b (verts s).c := by
  obtain ⟨c, d, l⟩ := t
  induction l using List.reverseRecOn generalizing p with
  | nil =>
    simp only [Elem.corners, verts, List.foldl_nil, List.mem_cons, List.not_mem_nil, or_false] at hp
    have hc : ∀ x y : ℚ, (x = -1 ∨ x = 1) → (y = -1 ∨ y = 1) → ∀ n, ∃ a, Corner n a ⟨x, y⟩ := by
      rintro x y (rfl | rfl) (rfl | rfl) n
      · exact ⟨n.n0, Or.inl ⟨rfl, rfl⟩⟩
      · exact ⟨n.n3, Or.inr (Or.inr (Or.inr ⟨rfl, rfl⟩))⟩
      · exact ⟨n.n1, Or.inr (Or.inl ⟨rfl, rfl⟩)⟩
      · exact ⟨n.n2, Or.inr (Or.inr (Or.inl ⟨rfl, rfl⟩))⟩
    cases d <;> simp only [start] at hp <;> rcases hp with rfl | rfl | rfl <;>
      first | exact Or.inr (Or.inl rfl) | exact Or.inl (hc _ _ (by norm_num) (by norm_num))
  | append_singleton l k ih =>
    have e : (⟨c, d, l ++ [k]⟩ : Tri) = child ⟨c, d, l⟩ k := rfl
    rw [e] at hp ⊢
    have hstep : p = mid (verts ⟨c, d, l⟩).b (verts ⟨c, d, l⟩).c ∨ p ∈ (Elem.tri ⟨c, d, l⟩).corners := by
      simp only [Elem.corners, verts_child, List.mem_cons, List.not_mem_nil, or_false] at hp ⊢
      cases k <;> simp only [bisect] at hp <;> rcases hp with h | h | h <;> simp [h]
    rcases hstep with h | h
    · exact Or.inr (Or.inr ⟨⟨c, d, l⟩, under_child _ _, child_ne _ _, h⟩)
    · rcases ih h with h | h | ⟨s, h1, h2, h3⟩
      · exact Or.inl h
      · exact Or.inr (Or.inl h)
      · refine Or.inr (Or.inr ⟨s, Under.trans h1 (under_child _ _), ?_, h3⟩)
        rintro rfl
        exact child_ne _ _ (Tri.Under.antisymm (under_child _ _) h1)

/-! Counting sides. -/

/-- The sides of the cells. -/
def sides (B : Base) : List ((ℕ × Dir) × (ℕ × ℕ)) :=
  B.flatMap fun q => dirs.map fun d => ((q.1, d), faceNodes q.2 d)

variable {B : Base} {L : List Elem}

lemma mem_sides {c : ℕ} {n : Nodes} (h : (c, n) ∈ B) (d : Dir) : ((c, d), faceNodes n d) ∈ sides B := by
  unfold sides
  rw [List.mem_flatMap]
  refine ⟨_, h, ?_⟩
  rw [List.mem_map]
  exact ⟨d, by cases d <;> simp [dirs], rfl⟩

lemma faces_sides : allFaces B = (sides B).map Prod.snd := by
  unfold allFaces sides
  rw [List.map_flatMap]
  simp only [List.map_map]
  rfl

/-- Different sides with the same nodes are counted. -/
lemma count_sides {k : ℕ × ℕ} {l : List (ℕ × Dir)} (hl : l.Nodup) (h : ∀ x ∈ l, (x, k) ∈ sides B) :
    l.length ≤ (allFaces B).count k := by
  rw [faces_sides, List.count_eq_countP, List.countP_map, List.countP_eq_length_filter]
  have h1 : (l.map fun x => (x, k)).Nodup := hl.map (fun a b e => (Prod.mk.inj e).1)
  have h2 : (l.map fun x => (x, k)) ⊆ (sides B).filter ((fun x => x == k) ∘ Prod.snd) := by
    intro y hy
    rw [List.mem_map] at hy
    obtain ⟨x, hx, rfl⟩ := hy
    rw [List.mem_filter]
    exact ⟨h x hx, by simp⟩
  have := (h1.subperm h2).length_le
  simpa using this

lemma faceNodes_eq (n : Nodes) (d : Dir) : faceNodes n d = (min (ends n d).1 (ends n d).2, max (ends n d).1 (ends n d).2) := by
  cases d <;> rfl

/-! The proof. -/

/-- An element with the midpoint of the bottom edge of `s` inside one of its edges, and points on the side of `s`,
contains `s`. -/
lemma contains_of_edge {s f : Tri} (hc : f.cell = s.cell) {e : Pt × Pt} (he : e ∈ (Elem.tri f).edges)
    (hb : Between e.1 (mid (verts s).b (verts s).c) e.2) {z : Pt} (hz : Within (verts f) z)
    (ho : 0 < area2 (verts s).b (verts s).c z) : f.Under s := by
  obtain ⟨h1, h2, h3⟩ := edge_of_tri he
  obtain ⟨q, hq, hq'⟩ := near_mid (size_pos s) (size_pos f) hz (in_convex (size_pos f) h1 h2 hb) ho
  rcases comparable hc hq hq'.in with k | k
  · exact k
  · rcases under_cases k with rfl | ⟨j, k⟩
    · exact Tri.Under.refl _
    · have e1 := in_under k h1
      have e2 := in_under k h2
      rw [verts_child] at e1 e2
      have hs : 0 < size (bisect (verts s) j) := by rw [size_bisect]; linarith [size_pos s]
      refine absurd (apex_extreme hs e1 e2 ?_) h3
      cases j <;> exact hb

lemma not_contains (h : Leaves B L) {f s : Tri} (hf : Elem.tri f ∈ L) (hs : Refined L s) : ¬ f.Under s := by
  intro hu
  obtain ⟨t, ht, h1, h2⟩ := hs
  have := h.anti _ hf _ ht (Under.trans hu h1)
  injection this with this
  subst this
  exact h2 (Tri.Under.antisymm h1 hu)

lemma not_inner_of_key {n n' : Nodes} {c c' : ℕ} {d : Dir} {t : ℚ} {p : Pt} (hn : [n.n0, n.n1, n.n2, n.n3].Nodup)
    (hp : InSquare p) (ht : InSquare (sidePt d t)) (h : keyAt n c (sidePt d t) = keyAt n' c' p) :
    p.x = -1 ∨ p.x = 1 ∨ p.y = -1 ∨ p.y = 1 := by
  rcases square_cases n' hp with ⟨a, ha⟩ | ⟨d', t', _, _, rfl⟩ | ⟨h1, h2, h3, h4⟩
  · rcases ha with ⟨_, rfl⟩ | ⟨_, rfl⟩ | ⟨_, rfl⟩ | ⟨_, rfl⟩ <;> simp
  · cases d' <;> simp [sidePt]
  · rw [key_inner _ _ h1 h2 h3 h4] at h
    exfalso
    rcases square_cases n ht with ⟨a, ha⟩ | ⟨d', t', t0, t1, e⟩ | ⟨k1, k2, k3, k4⟩
    · rw [key_corner ha] at h; cases h
    · rw [e, key_side _ _ _ t0 t1] at h
      exact edge_ne_inner (ends_ne hn d') h2 h
    · cases d <;> simp only [sidePt] at k1 k2 k3 k4 <;> linarith

/-- The key of a point of a side. -/
lemma key_on_side (n : Nodes) (c : ℕ) (d : Dir) {t : ℚ} (h : InSquare (sidePt d t)) :
    keyAt n c (sidePt d t) =
      if t = -1 then .node (ends n d).1 else if t = 1 then .node (ends n d).2
      else edgeKey (ends n d).1 (ends n d).2 t := by
  obtain ⟨h1, h2⟩ := sidePt_in h
  split_ifs with e1 e2
  · subst e1; cases d <;> apply key_corner <;> simp [Corner, sidePt, ends]
  · subst e2; cases d <;> apply key_corner <;> simp [Corner, sidePt, ends]
  · exact key_side _ _ _ (lt_of_le_of_ne h1 (Ne.symm e1)) (lt_of_le_of_ne h2 e2)

/-- Two segments of sides with the same keys at their ends. -/
lemma side_match (hp : Proper B) (hal : Aligned B) {n n' : Nodes} {c c' : ℕ} {d d' : Dir} {tb tc tb' tc' : ℚ}
    (hn : (c, n) ∈ B) (hn' : (c', n') ∈ B) (hne : tb ≠ tc)
    (sb : InSquare (sidePt d tb)) (sc : InSquare (sidePt d tc))
    (sb' : InSquare (sidePt d' tb')) (sc' : InSquare (sidePt d' tc'))
    (hb : keyAt n c (sidePt d tb) = keyAt n' c' (sidePt d' tb'))
    (hc : keyAt n c (sidePt d tc) = keyAt n' c' (sidePt d' tc')) :
    ends n' d' = ends n d ∧ tb' = tb ∧ tc' = tc := by
  rw [key_on_side n c d sb, key_on_side n' c' d' sb'] at hb
  rw [key_on_side n c d sc, key_on_side n' c' d' sc'] at hc
  have hsw := hal _ hn _ hn' d d'
  have e1 := ends_ne (hp.nodes _ hn) d
  have e2 := ends_ne (hp.nodes _ hn') d'
  simp only at e1 e2 hsw
  rcases he : ends n d with ⟨a, b⟩
  rcases he' : ends n' d' with ⟨a', b'⟩
  rw [he] at hb hc e1 hsw
  rw [he'] at hb hc e2 hsw
  simp only [Prod.swap_prod_mk, ne_eq, Prod.mk.injEq, not_and] at hb hc e1 e2 hsw ⊢
  have nd : ∀ (x : ℕ) (a b : ℕ) (t : ℚ), Key.node x ≠ edgeKey a b t := by
    intro x a b t h; unfold edgeKey at h; cases h
  -- one end strictly inside
  have strict : ∀ {t t' u u' : ℚ}, t ≠ -1 → t ≠ 1 →
      (if t = -1 then Key.node a else if t = 1 then .node b else edgeKey a b t) =
        (if t' = -1 then .node a' else if t' = 1 then .node b' else edgeKey a' b' t') →
      (if u = -1 then Key.node a else if u = 1 then .node b else edgeKey a b u) =
        (if u' = -1 then .node a' else if u' = 1 then .node b' else edgeKey a' b' u') →
      (a' = a ∧ b' = b) ∧ t' = t ∧ u' = u := by
    intro t t' u u' h1 h2 k k'
    rw [if_neg h1, if_neg h2] at k
    split_ifs at k with g1 g2
    · exact absurd k.symm (nd _ _ _ _)
    · exact absurd k.symm (nd _ _ _ _)
    · obtain ⟨k1, k2⟩ := edgeKey_eq k
      have hab : a' = a ∧ b' = b := by
        rcases k1 with ⟨r1, r2⟩ | ⟨r1, r2⟩
        · exact ⟨r1.symm, r2.symm⟩
        · exact absurd r2 (hsw r1)
      obtain ⟨rfl, rfl⟩ := hab
      refine ⟨⟨rfl, rfl⟩, k2.symm, ?_⟩
      split_ifs at k' with j1 j2 j3 j4 j5 j6 j7 j8
      · rw [j1, j2]
      · injection k' with k'; exact absurd k' e1
      · exact absurd k' (nd _ _ _ _)
      · injection k' with k'; exact absurd k'.symm e1
      · rw [j4, j6]
      · exact absurd k' (nd _ _ _ _)
      · exact absurd k'.symm (nd _ _ _ _)
      · exact absurd k'.symm (nd _ _ _ _)
      · exact (edgeKey_eq k').2.symm
  by_cases b1 : tb = -1
  · by_cases c2 : tc = 1
    · have c1 : ¬ tc = -1 := fun e => hne (b1.trans e.symm)
      rw [if_pos b1] at hb
      rw [if_neg c1, if_pos c2] at hc
      split_ifs at hb with g1 g2
      · injection hb with hb
        split_ifs at hc with g3 g4
        · injection hc with hc; exact absurd (hc.trans hb.symm) (fun h => e1 h.symm)
        · injection hc with hc
          exact ⟨⟨hb.symm, hc.symm⟩, g1.trans b1.symm, g4.trans c2.symm⟩
        · exact absurd hc (nd _ _ _ _)
      · injection hb with hb
        split_ifs at hc with g3 g4
        · injection hc with hc
          exact absurd hc (hsw hb)
        · injection hc with hc; exact absurd (hc.trans hb.symm) (fun h => e1 h.symm)
        · exact absurd hc (nd _ _ _ _)
      · exact absurd hb (nd _ _ _ _)
    · have c1 : ¬ tc = -1 := fun e => hne (b1.trans e.symm)
      obtain ⟨r1, r2, r3⟩ := strict c1 c2 hc hb
      exact ⟨r1, r3, r2⟩
  · by_cases b2 : tb = 1
    · by_cases c1 : tc = -1
      · rw [if_neg b1, if_pos b2] at hb
        rw [if_pos c1] at hc
        split_ifs at hc with g1 g2
        · injection hc with hc
          split_ifs at hb with g3 g4
          · injection hb with hb; exact absurd (hb.trans hc.symm) (fun h => e1 h.symm)
          · injection hb with hb
            exact ⟨⟨hc.symm, hb.symm⟩, g4.trans b2.symm, g1.trans c1.symm⟩
          · exact absurd hb (nd _ _ _ _)
        · injection hc with hc
          split_ifs at hb with g3 g4
          · injection hb with hb
            exact absurd hb (hsw hc)
          · injection hb with hb; exact absurd (hb.trans hc.symm) (fun h => e1 h.symm)
          · exact absurd hb (nd _ _ _ _)
        · exact absurd hc (nd _ _ _ _)
      · have c2 : ¬ tc = 1 := fun e => hne (b2.trans e.symm)
        obtain ⟨r1, r2, r3⟩ := strict c1 c2 hc hb
        exact ⟨r1, r3, r2⟩
    · exact strict b1 b2 hb hc

/-- In one cell the keys tell all points apart. -/
lemma key_inj (hp : Proper B) {n : Nodes} {c : ℕ} (hn : (c, n) ∈ B) {p q : Pt} (sp : InSquare p) (sq : InSquare q)
    (h : keyAt n c p = keyAt n c q) : p = q := by
  have hd := hp.nodes _ hn
  have hd' := hd
  simp only [List.nodup_cons, List.mem_cons, not_or, List.not_mem_nil, not_false_eq_true, List.nodup_nil,
    and_true] at hd'
  obtain ⟨⟨d1, d2, d3⟩, ⟨d4, d5⟩, d6⟩ := hd'
  rcases square_cases n sp with ⟨a, ha⟩ | ⟨d, t, t0, t1, rfl⟩ | ⟨h1, h2, h3, h4⟩ <;>
  rcases square_cases n sq with ⟨a', ha'⟩ | ⟨d', t', t0', t1', rfl⟩ | ⟨h1', h2', h3', h4'⟩
  · rw [key_corner ha, key_corner ha'] at h
    injection h with h
    subst h
    rcases ha with ⟨rfl, rfl⟩ | ⟨rfl, rfl⟩ | ⟨rfl, rfl⟩ | ⟨rfl, rfl⟩ <;>
    rcases ha' with ⟨e, rfl⟩ | ⟨e, rfl⟩ | ⟨e, rfl⟩ | ⟨e, rfl⟩ <;>
    first | rfl | (exfalso; omega)
  · rw [key_corner ha, key_side _ _ _ t0' t1'] at h; exact absurd h (by unfold edgeKey; exact fun h => by cases h)
  · rw [key_corner ha, key_inner _ _ h1' h2' h3' h4'] at h; cases h
  · rw [key_corner ha', key_side _ _ _ t0 t1] at h; exact absurd h (by unfold edgeKey; exact fun h => by cases h)
  · rw [key_side _ _ _ t0 t1, key_side _ _ _ t0' t1'] at h
    obtain ⟨k, e⟩ := edgeKey_eq h
    rw [e]
    cases d <;> cases d' <;> simp only [ends] at k <;> first | rfl | (exfalso; omega)
  · rw [key_side _ _ _ t0 t1, key_inner _ _ h1' h2' h3' h4'] at h
    exact absurd h (edge_ne_inner (ends_ne hd d) h2')
  · rw [key_corner ha', key_inner _ _ h1 h2 h3 h4] at h; cases h
  · rw [key_side _ _ _ t0' t1', key_inner _ _ h1 h2 h3 h4] at h
    exact absurd h.symm (edge_ne_inner (ends_ne hd d') h2)
  · rw [key_inner _ _ h1 h2 h3 h4, key_inner _ _ h1' h2' h3' h4'] at h
    injection h with e1 e2 e3
    exact Pt.ext e2 e3

/-- The key of a point inside a cell is its own. -/
lemma key_own (hp : Proper B) {n n' : Nodes} {c c' : ℕ} (hn : (c, n) ∈ B) (hn' : (c', n') ∈ B) {p q : Pt}
    (h1 : -1 < p.x) (h2 : p.x < 1) (h3 : -1 < p.y) (h4 : p.y < 1) (sq : InSquare q)
    (h : keyAt n c p = keyAt n' c' q) : c = c' ∧ p = q := by
  rw [key_inner _ _ h1 h2 h3 h4] at h
  rcases square_cases n' sq with ⟨a', ha'⟩ | ⟨d', t', t0', t1', rfl⟩ | ⟨h1', h2', h3', h4'⟩
  · rw [key_corner ha'] at h; cases h
  · rw [key_side _ _ _ t0' t1'] at h
    exact absurd h.symm (edge_ne_inner (ends_ne (hp.nodes _ hn') d') h2)
  · rw [key_inner _ _ h1' h2' h3' h4'] at h
    injection h with e1 e2 e3
    exact ⟨by exact_mod_cast e1, Pt.ext e2 e3⟩

lemma area2_swap (p q z : Pt) : area2 q p z = - area2 p q z := by simp only [area2]; ring

lemma mid_comm (p q : Pt) : mid p q = mid q p := by
  simp only [mid]; rw [add_comm p.x, add_comm p.y]

/-- A mate in the same cell with the same bottom edge is on the other side. -/
lemma mate_swapped {s s' : Tri} (hne : s' ≠ s) (hc : s.cell = s'.cell)
    (h : ((verts s).b = (verts s').b ∧ (verts s).c = (verts s').c) ∨
      ((verts s).b = (verts s').c ∧ (verts s).c = (verts s').b)) :
    (verts s').b = (verts s).c ∧ (verts s').c = (verts s).b := by
  rcases h with ⟨h1, h2⟩ | ⟨h1, h2⟩
  · exact absurd (verts_inj hc (right_apex (right_verts s) (right_verts s') h1 h2)).symm hne
  · exact ⟨h2.symm, h1.symm⟩

/-- The boundary of the square or its inside. -/
lemma edge_or_inner {p : Pt} (h : InSquare p) :
    (p.x = -1 ∨ p.x = 1 ∨ p.y = -1 ∨ p.y = 1) ∨ (-1 < p.x ∧ p.x < 1 ∧ -1 < p.y ∧ p.y < 1) := by
  obtain ⟨h1, h2, h3, h4⟩ := h
  by_cases e1 : p.x = -1
  · simp [e1]
  by_cases e2 : p.x = 1
  · simp [e2]
  by_cases e3 : p.y = -1
  · simp [e3]
  by_cases e4 : p.y = 1
  · simp [e4]
  right
  exact ⟨lt_of_le_of_ne h1 (Ne.symm e1), lt_of_le_of_ne h2 e2, lt_of_le_of_ne h3 (Ne.symm e3), lt_of_le_of_ne h4 e4⟩

/-- Within one cell. -/
lemma hang_in_cell (hp : Proper B) (h : Leaves B L) (hcl : Closed B L) {s f : Tri} (hs : Refined L s)
    (hf : Elem.tri f ∈ L) (hc : f.cell = s.cell) {e : Pt × Pt} (he : e ∈ (Elem.tri f).edges)
    (hb : Between e.1 (mid (verts s).b (verts s).c) e.2) : False := by
  obtain ⟨z, hz, ho⟩ := off_line (size_pos f) (bc_ne s)
  rcases lt_or_gt_of_ne ho with ho | ho
  · have onside : ∀ {d : Dir} {tb tc : ℚ}, (verts s).b = sidePt d tb → (verts s).c = sidePt d tc → False := by
      intro d tb tc h1 h2
      have := side_nonneg h1 h2 (in_square hz.in)
      linarith
    rcases hcl s hs with ⟨s', hs', hne, n, n', hn, hn', hk⟩ | ⟨n, d, tb, tc, _, h1, h2, _⟩
    · -- the bottom edge has an end inside the cell
      have sb := in_square (in_vb (verts s))
      have sc := in_square (in_vc (verts s))
      have sb' := in_square (in_vb (verts s'))
      have sc' := in_square (in_vc (verts s'))
      have lit : s.cell = s'.cell ∧ (((verts s).b = (verts s').b ∧ (verts s).c = (verts s').c) ∨
          ((verts s).b = (verts s').c ∧ (verts s).c = (verts s').b)) := by
        rcases edge_or_inner sb with gb | ⟨g1, g2, g3, g4⟩
        · rcases edge_or_inner sc with gc | ⟨g1, g2, g3, g4⟩
          · obtain ⟨tb, e1⟩ := on_side (in_vb _) gb
            obtain ⟨tc, e2⟩ := on_side (in_vc _) gc
            exact (onside e1 e2).elim
          · rcases hk with ⟨k1, k2⟩ | ⟨k1, k2⟩
            · obtain ⟨r1, r2⟩ := key_own hp hn hn' g1 g2 g3 g4 sc' k2
              rw [← r1] at hn' k1
              rw [mem_unique hp.keys hn' hn] at k1
              exact ⟨r1, Or.inl ⟨key_inj hp hn sb sb' k1, r2⟩⟩
            · obtain ⟨r1, r2⟩ := key_own hp hn hn' g1 g2 g3 g4 sb' k2
              rw [← r1] at hn' k1
              rw [mem_unique hp.keys hn' hn] at k1
              exact ⟨r1, Or.inr ⟨key_inj hp hn sb sc' k1, r2⟩⟩
        · rcases hk with ⟨k1, k2⟩ | ⟨k1, k2⟩
          · obtain ⟨r1, r2⟩ := key_own hp hn hn' g1 g2 g3 g4 sb' k1
            rw [← r1] at hn' k2
            rw [mem_unique hp.keys hn' hn] at k2
            exact ⟨r1, Or.inl ⟨r2, key_inj hp hn sc sc' k2⟩⟩
          · obtain ⟨r1, r2⟩ := key_own hp hn hn' g1 g2 g3 g4 sc' k1
            rw [← r1] at hn' k2
            rw [mem_unique hp.keys hn' hn] at k2
            exact ⟨r1, Or.inr ⟨r2, key_inj hp hn sc sb' k2⟩⟩
      obtain ⟨r1, r2⟩ := mate_swapped hne lit.1 lit.2
      refine not_contains h hf hs' (contains_of_edge (hc.trans lit.1) he ?_ hz ?_)
      · rw [r1, r2, mid_comm]; exact hb
      · rw [r1, r2, area2_swap]; linarith
    · exact onside h1 h2
  · exact not_contains h hf hs (contains_of_edge hc he hb hz ho)

/-- Across a side. -/
lemma mate_across (hp : Proper B) (hal : Aligned B) {s s' : Tri} (hm : Mate B s s') {n : Nodes} {d : Dir}
    {tb tc : ℚ} (hn : (s.cell, n) ∈ B) (hb : (verts s).b = sidePt d tb) (hc : (verts s).c = sidePt d tc) :
    ∃ n', (s'.cell, n') ∈ B ∧ ends n' s'.dir = ends n d ∧ (s'.cell, s'.dir) ≠ (s.cell, d) ∧
      (((verts s').b = sidePt s'.dir tb ∧ (verts s').c = sidePt s'.dir tc) ∨
       ((verts s').c = sidePt s'.dir tb ∧ (verts s').b = sidePt s'.dir tc)) := by
  obtain ⟨hne, m, n', hm, hn', hk⟩ := hm
  rw [mem_unique hp.keys hm hn] at hk
  have sb := in_square (in_vb (verts s))
  have sc := in_square (in_vc (verts s))
  have sb' := in_square (in_vb (verts s'))
  have sc' := in_square (in_vc (verts s'))
  have hbc : tb ≠ tc := by
    rintro rfl
    exact bc_ne s (hb.trans hc.symm)
  have nd := hp.nodes _ hn
  rw [hb] at sb
  rw [hc] at sc
  have last : ∀ (g : ((verts s').b = sidePt s'.dir tb ∧ (verts s').c = sidePt s'.dir tc) ∨
       ((verts s').c = sidePt s'.dir tb ∧ (verts s').b = sidePt s'.dir tc)),
      (s'.cell, s'.dir) ≠ (s.cell, d) := by
    intro g e
    injection e with e1 e2
    rw [e2, ← hb, ← hc] at g
    have g' := mate_swapped hne e1.symm (by
      rcases g with ⟨g1, g2⟩ | ⟨g1, g2⟩
      · exact Or.inl ⟨g1.symm, g2.symm⟩
      · exact Or.inr ⟨g1.symm, g2.symm⟩)
    have h1 := side_nonneg hb hc (in_square (in_va (verts s')))
    have h2 := size_pos s'
    have e : size (verts s') = area2 (verts s').b (verts s').c (verts s').a := by simp only [size, area2]; ring
    rw [e, g'.1, g'.2, area2_swap] at h2
    linarith
  rcases hk with ⟨k1, k2⟩ | ⟨k1, k2⟩
  · rw [hb] at k1
    rw [hc] at k2
    obtain ⟨ub, eb⟩ := on_side (in_vb (verts s')) (not_inner_of_key nd sb' sb k1)
    obtain ⟨uc, ec⟩ := on_side (in_vc (verts s')) (not_inner_of_key nd sc' sc k2)
    rw [eb] at k1 sb'
    rw [ec] at k2 sc'
    obtain ⟨r1, r2, r3⟩ := side_match hp hal hn hn' hbc sb sc sb' sc' k1 k2
    subst r2 r3
    exact ⟨n', hn', r1, last (Or.inl ⟨eb, ec⟩), Or.inl ⟨eb, ec⟩⟩
  · rw [hb] at k1
    rw [hc] at k2
    obtain ⟨ub, eb⟩ := on_side (in_vc (verts s')) (not_inner_of_key nd sc' sb k1)
    obtain ⟨uc, ec⟩ := on_side (in_vb (verts s')) (not_inner_of_key nd sb' sc k2)
    rw [eb] at k1 sc'
    rw [ec] at k2 sb'
    obtain ⟨r1, r2, r3⟩ := side_match hp hal hn hn' hbc sb sc sc' sb' k1 k2
    subst r2 r3
    exact ⟨n', hn', r1, last (Or.inr ⟨eb, ec⟩), Or.inr ⟨eb, ec⟩⟩

lemma mid_between (p q : Pt) : Between p (mid p q) q :=
  ⟨1/2, by norm_num, by norm_num, by simp only [mid]; ext <;> simp only <;> ring⟩

/-- A point between two points of the square on a side: both are on the side. -/
lemma between_side {p q : Pt} (hp : InSquare p) (hq : InSquare q) {d : Dir} {t : ℚ} (h : Between p (sidePt d t) q) :
    ∃ u v, p = sidePt d u ∧ q = sidePt d v := by
  obtain ⟨s, s0, s1, e⟩ := h
  obtain ⟨p1, p2, p3, p4⟩ := hp
  obtain ⟨q1, q2, q3, q4⟩ := hq
  have ex := congrArg Pt.x e
  have ey := congrArg Pt.y e
  have s1' : 0 < 1 - s := by linarith
  cases d <;> simp only [sidePt] at ex ey ⊢
  · exact ⟨p.y, q.y, by ext <;> simp only; nlinarith, by ext <;> simp only; nlinarith⟩
  · exact ⟨p.x, q.x, by ext <;> simp only; nlinarith, by ext <;> simp only; nlinarith⟩
  · exact ⟨p.x, q.x, by ext <;> simp only; nlinarith, by ext <;> simp only; nlinarith⟩
  · exact ⟨p.y, q.y, by ext <;> simp only; nlinarith, by ext <;> simp only; nlinarith⟩

lemma mid_side (d : Dir) (t u : ℚ) : mid (sidePt d t) (sidePt d u) = sidePt d ((t + u) / 2) := by
  cases d <;> simp only [mid, sidePt] <;> ext <;> simp only <;> norm_num

/-- No hanging nodes. -/
lemma no_hanging (hp : Proper B) (hal : Aligned B) (h : Leaves B L) (hcl : Closed B L) : NoHanging B L := by
  intro e he e' he' p hpe sg hsg m hb hsame
  obtain ⟨sq1, sq2, hne⟩ := edge_square hsg
  have hm := square_convex sq1 sq2 hb
  have hpq := corners_square hpe
  obtain ⟨⟨c0, n⟩, hn, ec⟩ := List.mem_map.mp (h.cell e he)
  obtain ⟨⟨c0', n'⟩, hn', ec'⟩ := List.mem_map.mp (h.cell e' he')
  simp only at ec ec'
  subst ec ec'
  have hk := (key_iff_same hp hal hn hn' hpq hm).mpr hsame
  -- corners of cells
  have corner : (∃ a, Corner n a p) → False := by
    rintro ⟨a, ha⟩
    rw [key_corner ha] at hk
    rcases square_cases n' hm with ⟨a', ha'⟩ | ⟨d', t', t0', t1', rfl⟩ | ⟨h1', h2', h3', h4'⟩
    · exact hne (corner_extreme ha' sq1 sq2 hb)
    · rw [key_side _ _ _ t0' t1'] at hk; exact absurd hk (by unfold edgeKey; exact fun h => by cases h)
    · rw [key_inner _ _ h1' h2' h3' h4'] at hk; cases hk
  cases e with
  | quad c =>
    apply corner
    simp only [Elem.corners, List.mem_cons, List.not_mem_nil, or_false] at hpe
    rcases hpe with rfl | rfl | rfl | rfl
    · exact ⟨n.n0, Or.inl ⟨rfl, rfl⟩⟩
    · exact ⟨n.n1, Or.inr (Or.inl ⟨rfl, rfl⟩)⟩
    · exact ⟨n.n2, Or.inr (Or.inr (Or.inl ⟨rfl, rfl⟩))⟩
    · exact ⟨n.n3, Or.inr (Or.inr (Or.inr ⟨rfl, rfl⟩))⟩
  | tri t =>
    -- the other element is a triangle when it is in the same cell
    have notquad : ∀ {t : Tri}, Elem.tri t ∈ L → t.cell = e'.cell → ∃ f, e' = .tri f := by
      intro t ht hc
      cases e' with
      | quad c =>
        have := h.anti _ he' _ ht hc
        cases this
      | tri f => exact ⟨f, rfl⟩
    rcases vertex_cases t hpe with hcor | rfl | ⟨s, hst, hsn, rfl⟩
    · exact corner (hcor n)
    · obtain ⟨r1, rfl⟩ := key_own hp hn hn' (by norm_num) (by norm_num) (by norm_num) (by norm_num) hm hk
      obtain ⟨f, rfl⟩ := notquad he r1
      obtain ⟨h1, h2, _⟩ := edge_of_tri hsg
      refine hne (apex_extreme (V := start f.dir) (by rw [size_start]; norm_num) (in_start h1) (in_start h2) ?_)
      cases f.dir <;> exact hb
    · have hs : Refined L s := ⟨t, he, hst, hsn⟩
      have hsc : s.cell = (Elem.tri t).cell := hst.1
      -- the same point of the same cell
      have literal : s.cell = e'.cell → m = mid (verts s).b (verts s).c → False := by
        rintro r1 rfl
        obtain ⟨f, rfl⟩ := notquad he (hst.1.symm.trans r1)
        exact hang_in_cell hp h hcl hs he' r1.symm hsg hb
      rcases square_cases n hpq with hcor | ⟨d, tm, t0, t1, em⟩ | ⟨g1, g2, g3, g4⟩
      · exact corner hcor
      · -- on a side
        obtain ⟨tb, tc, eb, ec⟩ := between_side (in_square (in_vb (verts s))) (in_square (in_vc (verts s)))
          (by rw [← em]; exact mid_between _ _)
        have htm : tm = (tb + tc) / 2 := by
          rw [eb, ec, mid_side] at em
          exact (sidePt_inj em).symm
        have hks := hk
        rw [em, key_side _ _ _ t0 t1] at hks
        obtain ⟨d', em', hends⟩ : ∃ d', m = sidePt d' tm ∧ ends n' d' = ends n d := by
          rcases square_cases n' hm with ⟨a', ha'⟩ | ⟨d', t', t0', t1', e'⟩ | ⟨h1', h2', h3', h4'⟩
          · rw [key_corner ha'] at hks; exact absurd hks (by unfold edgeKey; exact fun h => by cases h)
          · rw [e', key_side _ _ _ t0' t1'] at hks
            obtain ⟨r1, r2⟩ := edgeKey_eq hks
            refine ⟨d', by rw [e', r2], ?_⟩
            rcases r1 with ⟨q1, q2⟩ | ⟨q1, q2⟩
            · exact (Prod.ext q1 q2).symm
            · exact absurd (Prod.ext q1 q2) (hal _ hn _ hn' d d')
          · rw [key_inner _ _ h1' h2' h3' h4'] at hks
            exact absurd hks (edge_ne_inner (ends_ne (hp.nodes _ hn) d) h2')
        have hface : faceNodes n' d' = faceNodes n d := by rw [faceNodes_eq, faceNodes_eq, hends]
        by_cases hcd : ((Elem.tri t).cell, d) = (e'.cell, d')
        · injection hcd with r1 r2
          exact literal (hsc.trans r1) (by rw [em', ← r2, em])
        · have hnS : (s.cell, n) ∈ B := by rw [hsc]; exact hn
          rcases hcl s hs with ⟨s', hs', hmate⟩ | ⟨n2, d2, tb2, tc2, hn2, eb2, ec2, hcount⟩
          · obtain ⟨n'', hn'', he'', hne'', hpos⟩ := mate_across hp hal hmate hnS eb ec
            have hface' : faceNodes n'' s'.dir = faceNodes n d := by rw [faceNodes_eq, faceNodes_eq, he'']
            have hcd' : (s'.cell, s'.dir) = (e'.cell, d') := by
              by_contra hno
              have := count_sides (B := B) (k := faceNodes n d)
                (l := [(s'.cell, s'.dir), ((Elem.tri t).cell, d), (e'.cell, d')])
                (by
                  simp only [List.nodup_cons, List.mem_cons, List.not_mem_nil, or_false, not_or,
                    not_false_eq_true, List.nodup_nil, and_true]
                  exact ⟨⟨by rw [← hsc]; exact hne'', hno⟩, hcd⟩)
                (by
                  intro x hx
                  simp only [List.mem_cons, List.not_mem_nil, or_false] at hx
                  rcases hx with rfl | rfl | rfl
                  · rw [← hface']; exact mem_sides hn'' _
                  · exact mem_sides hn _
                  · rw [← hface]; exact mem_sides hn' _)
              have h2 := hp.two (faceNodes n d)
              simp only [List.length_cons, List.length_nil] at this
              omega
            injection hcd' with r1 r2
            obtain ⟨t', ht', hst', _⟩ := hs'
            obtain ⟨f, rfl⟩ := notquad ht' (hst'.1.symm.trans r1)
            have hmid : m = mid (verts s').b (verts s').c := by
              rw [em', htm, ← r2]
              rcases hpos with ⟨q1, q2⟩ | ⟨q1, q2⟩
              · rw [q1, q2, mid_side]
              · rw [q1, q2, mid_side, add_comm]
            rw [hmid] at hb
            exact hang_in_cell hp h hcl ⟨t', ht', hst', by assumption⟩ he' r1.symm hsg hb
          · have hn2' : n2 = n := mem_unique hp.keys hn2 hnS
            subst hn2'
            have hd2 : d2 = d := by
              rw [eb2, ec2, mid_side] at em
              exact (sidePt_strict t0 t1 em.symm).symm
            subst hd2
            have := count_sides (B := B) (k := faceNodes n2 d2)
                (l := [((Elem.tri t).cell, d2), (e'.cell, d')])
                (by
                  simp only [List.nodup_cons, List.mem_cons, List.not_mem_nil, or_false,
                    not_false_eq_true, List.nodup_nil, and_true]
                  exact hcd)
                (by
                  intro x hx
                  simp only [List.mem_cons, List.not_mem_nil, or_false] at hx
                  rcases hx with rfl | rfl
                  · exact mem_sides hn _
                  · rw [← hface]; exact mem_sides hn' _)
            simp only [List.length_cons, List.length_nil] at this
            omega
      · obtain ⟨r1, r2⟩ := key_own hp hn hn' g1 g2 g3 g4 hm hk
        exact literal (hsc.trans r1) r2.symm

end Phyem.Trf
