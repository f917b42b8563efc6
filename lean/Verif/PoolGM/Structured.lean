import Verif.PoolGM.Props3

/-!
C49, C50, C79 on structured meshes: an element is given by its position along each axis, nodes by theirs, and an axis
may close up. The numbering is then compared with positions on the axes instead of nodes, edges and faces.
-/

namespace Phyem.PoolGM

/-! ### Specification -/

/-- An axis of a structured mesh: `n` elements; the last one meets the first one if `per`. -/
structure Axis where
  n : ℕ
  per : Bool

/-- The node after node `I`. -/
def Axis.next (a : Axis) (I : ℕ) : ℕ := if a.per = true ∧ I + 1 = a.n then 0 else I + 1

/-- The nodes are `0, …, a.nodes - 1`. -/
def Axis.nodes (a : Axis) : ℕ := if a.per = true then a.n else a.n + 1

/-- The position on the axis of the `i`-th of the points `0, …, p` of element `I`. -/
def Axis.pos (a : Axis) (p I i : ℕ) : ℕ := if a.per = true then (I * p + i) % (a.n * p) else I * p + i

/-- A point of the mesh, or a segment, face or cell (told apart by `t`), by its position. -/
def geo (t x y z : ℕ) : Place := .inside 0 (t, x, y, z)

/-! ### One axis -/

/-- A point of an axis: a node, or the `t`-th inner point of an element. -/
inductive Pos where
  | node (N : ℕ)
  | inner (I t : ℕ)
deriving DecidableEq

/-- Where the `i`-th point of element `I` is. -/
def loc (a : Axis) (p I i : ℕ) : Pos :=
  if i = 0 then .node I else if i = p then .node (a.next I) else .inner I (i - 1)

/-- A position that occurs. -/
def Pos.ok (a : Axis) (p : ℕ) : Pos → Prop
  | .node N => N < a.nodes
  | .inner I t => I < a.n ∧ t + 1 < p

/-- The position as a number. -/
def Pos.val (p : ℕ) : Pos → ℕ
  | .node N => N * p
  | .inner I t => I * p + t + 1

theorem next_lt {a : Axis} {I : ℕ} (h : I < a.n) : a.next I < a.nodes := by
  unfold Axis.next Axis.nodes
  by_cases hp : a.per = true
  · simp only [hp, true_and, if_true]; split_ifs <;> omega
  · simp only [hp, false_and]; simp; omega

theorem lt_nodes {a : Axis} {I : ℕ} (h : I < a.n) : I < a.nodes := by
  unfold Axis.nodes
  split_ifs <;> omega

theorem next_ne {a : Axis} (ha : a.per = true → 2 ≤ a.n) {I : ℕ} (_ : I < a.n) : a.next I ≠ I := by
  unfold Axis.next
  split_ifs with h
  · have := ha h.1; omega
  · omega

theorem next_next_ne {a : Axis} (ha : a.per = true → 3 ≤ a.n) {I : ℕ} (_ : I < a.n) : a.next (a.next I) ≠ I := by
  unfold Axis.next
  split_ifs with h h' h'
  · have := ha h.1; omega
  · have := ha h.1; omega
  · have := ha h'.1; omega
  · omega

theorem loc_ok {a : Axis} {p I i : ℕ} (hI : I < a.n) (hi : i ≤ p) : (loc a p I i).ok a p := by
  unfold loc
  split_ifs with h h'
  · exact lt_nodes hI
  · exact next_lt hI
  · exact ⟨hI, by omega⟩

theorem pos_loc {a : Axis} {p I i : ℕ} (hp : 0 < p) (hI : I < a.n) (hi : i ≤ p) :
    a.pos p I i = (loc a p I i).val p := by
  have hle : (I + 1) * p ≤ a.n * p := Nat.mul_le_mul_right p hI
  rw [Nat.add_mul, Nat.one_mul] at hle
  unfold Axis.pos loc Axis.next
  by_cases h : a.per = true
  · rw [if_pos h]
    split_ifs with h0 h1 h2
    · subst h0
      rw [Pos.val, Nat.mod_eq_of_lt]; · rfl
      omega
    · rw [Pos.val, h1, ← h2.2, Nat.add_mul, Nat.one_mul, Nat.mod_self, Nat.zero_mul]
    · rw [Pos.val, h1, Nat.mod_eq_of_lt, Nat.add_mul, Nat.one_mul]
      have : I + 1 < a.n := by
        rcases Nat.lt_or_ge (I + 1) a.n with h' | h'
        · exact h'
        · exact absurd ⟨h, by omega⟩ h2
      have : (I + 1 + 1) * p ≤ a.n * p := Nat.mul_le_mul_right p this
      rw [Nat.add_mul, Nat.add_mul, Nat.one_mul] at this
      omega
    · rw [Pos.val, Nat.mod_eq_of_lt] <;> omega
  · rw [if_neg h]
    split_ifs with h0 h1 h2
    · simp [Pos.val, h0]
    · exact absurd h2.1 h
    · rw [Pos.val, h1, Nat.add_mul, Nat.one_mul]
    · simp only [Pos.val]; omega

theorem quot {p I t J u : ℕ} (ht : t < p) (hu : u < p) (h : I * p + t = J * p + u) : I = J ∧ t = u := by
  have hp : 0 < p := by omega
  have e1 : (I * p + t) / p = I := by
    rw [Nat.add_comm, Nat.add_mul_div_right _ _ hp, Nat.div_eq_of_lt ht, Nat.zero_add]
  have e2 : (J * p + u) / p = J := by
    rw [Nat.add_comm, Nat.add_mul_div_right _ _ hp, Nat.div_eq_of_lt hu, Nat.zero_add]
  have : I = J := by rw [← e1, ← e2, h]
  subst this
  exact ⟨rfl, by omega⟩

theorem val_inj {a : Axis} {p : ℕ} (hp : 0 < p) {x y : Pos} (hx : x.ok a p) (hy : y.ok a p) (h : x.val p = y.val p) :
    x = y := by
  cases x with
  | node N =>
    cases y with
    | node M =>
      have := quot (t := 0) (u := 0) hp hp (by simpa [Pos.val] using h)
      rw [this.1]
    | inner J u =>
      have := quot (I := N) (t := 0) (J := J) (u := u + 1) hp hy.2 (by simpa [Pos.val, Nat.add_assoc] using h)
      omega
  | inner I t =>
    cases y with
    | node M =>
      have := quot (I := I) (t := t + 1) (J := M) (u := 0) hx.2 hp (by simpa [Pos.val, Nat.add_assoc] using h)
      omega
    | inner J u =>
      have := quot (I := I) (t := t + 1) (J := J) (u := u + 1) hx.2 hy.2 (by simpa [Pos.val, Nat.add_assoc] using h)
      obtain ⟨rfl, h2⟩ := this
      have : t = u := by omega
      rw [this]

/-- Two points of an axis are at the same position exactly when they are the same node or inner point. -/
theorem pos_eq {a : Axis} {p I i I' i' : ℕ} (hp : 0 < p) (hI : I < a.n) (hi : i ≤ p) (hI' : I' < a.n) (hi' : i' ≤ p) :
    a.pos p I i = a.pos p I' i' ↔ loc a p I i = loc a p I' i' := by
  rw [pos_loc hp hI hi, pos_loc hp hI' hi']
  exact ⟨val_inj hp (loc_ok hI hi) (loc_ok hI' hi'), fun h => by rw [h]⟩

theorem quot_iff {p I t J u : ℕ} (ht : t < p) (hu : u < p) : I * p + t = J * p + u ↔ I = J ∧ t = u :=
  ⟨quot ht hu, fun ⟨h, h'⟩ => by rw [h, h']⟩

theorem quot_iff' {p I t J u : ℕ} (ht : t < p) (hu : u < p) : t + p * I = u + p * J ↔ t = u ∧ I = J := by
  rw [Nat.mul_comm p I, Nat.mul_comm p J, Nat.add_comm t, Nat.add_comm u, quot_iff ht hu, and_comm]

/-! ### Other names for the places -/

/-- A numbering that is right for some places is right for others among which the same ones coincide. -/
theorem Right.transfer {ι σ : Type} {rev rev' : Bool} {items : List ι} {l : ι → ℕ} {idx : List σ}
    {F G : ι → σ → Place} {gm : Dict ℕ (Option (List ℕ))} {total : ℕ}
    (h : Right rev (items.map fun x => (l x, idx.map (F x))) gm total)
    (e : ∀ x ∈ items, ∀ x' ∈ items, ∀ s ∈ idx, ∀ s' ∈ idx,
      Same rev (F x s) (F x' s') ↔ Same rev' (G x s) (G x' s')) :
    Right rev' (items.map fun x => (l x, idx.map (G x))) gm total := by
  refine ⟨?_, ?_, h.contiguous⟩
  · intro a ps hm
    simp only [List.mem_map, Prod.mk.injEq] at hm
    obtain ⟨x, hx, rfl, rfl⟩ := hm
    obtain ⟨ns, h1, h2⟩ := h.shape (l x) (idx.map (F x)) (List.mem_map.2 ⟨x, hx, rfl⟩)
    exact ⟨ns, h1, by rw [h2, List.length_map, List.length_map]⟩
  · intro a ps a' ps' ns ns' hm hm' hg hg' i i' y y' n n' hy hy' hn hn'
    simp only [List.mem_map, Prod.mk.injEq] at hm hm'
    obtain ⟨x, hx, rfl, rfl⟩ := hm
    obtain ⟨x', hx', rfl, rfl⟩ := hm'
    simp only [List.getElem?_map, Option.map_eq_some_iff] at hy hy'
    obtain ⟨s, hs, rfl⟩ := hy
    obtain ⟨s', hs', rfl⟩ := hy'
    rw [← e x hx x' hx' s (List.mem_of_getElem? hs) s' (List.mem_of_getElem? hs')]
    exact h.same (l x) _ (l x') _ ns ns' (List.mem_map.2 ⟨x, hx, rfl⟩) (List.mem_map.2 ⟨x', hx', rfl⟩) hg hg' i i'
      _ _ n n' (by simp [hs]) (by simp [hs']) hn hn'

theorem same_false {x y : Place} : Same false x y ↔ x = y := by simp [Same]

theorem same_geo {rev : Bool} {t x y z t' x' y' z' : ℕ} :
    Same rev (geo t x y z) (geo t' x' y' z') ↔ t = t' ∧ x = x' ∧ y = y' ∧ z = z' := by
  simp [Same, geo]


/-! ### Boxes -/

/-- A structured mesh: element `(I, J, K)` has label `lab I J K`; its corners are those nodes `id a b c` whose
positions are `I` or the next one along the first axis, and so on. -/
def structured3 (ax ay az : Axis) (id lab : ℕ → ℕ → ℕ → ℕ) : List Item3 :=
  (box 0 0 ax.n 0 ay.n 0 az.n).map fun c =>
    let I := c.2.1; let J := c.2.2.1; let K := c.2.2.2
    ⟨lab I J K, true, ⟨id I J K, id (ax.next I) J K, id I (ay.next J) K, id (ax.next I) (ay.next J) K,
      id I J (az.next K), id (ax.next I) J (az.next K), id I (ay.next J) (az.next K),
      id (ax.next I) (ay.next J) (az.next K)⟩⟩

/-- Different elements (or nodes) have different numbers. -/
def Distinct (l m n : ℕ) (f : ℕ → ℕ → ℕ → ℕ) : Prop :=
  ∀ a b c a' b' c', a < l → b < m → c < n → a' < l → b' < m → c' < n → f a b c = f a' b' c' → a = a' ∧ b = b' ∧ c = c'

/-- The elements with, for each local dof, what `f` says about it. -/
def located3 (ax ay az : Axis) (lab : ℕ → ℕ → ℕ → ℕ) (f : ℕ → ℕ → ℕ → List Place) : List (ℕ × List Place) :=
  (box 0 0 ax.n 0 ay.n 0 az.n).map fun c => (lab c.2.1 c.2.2.1 c.2.2.2, f c.2.1 c.2.2.1 c.2.2.2)

/-- The edges and faces of a structured mesh. -/
inductive Ent where
  | ex (I b c : ℕ)
  | ey (a J c : ℕ)
  | ez (a b K : ℕ)
  | fx (a J K : ℕ)
  | fy (I b K : ℕ)
  | fz (I J c : ℕ)
deriving DecidableEq

section
variable {ax ay az : Axis} {id lab : ℕ → ℕ → ℕ → ℕ}

/-- Their nodes. -/
def Ent.nodes (ax ay az : Axis) (id : ℕ → ℕ → ℕ → ℕ) : Ent → List ℕ
  | .ex I b c => [id I b c, id (ax.next I) b c]
  | .ey a J c => [id a J c, id a (ay.next J) c]
  | .ez a b K => [id a b K, id a b (az.next K)]
  | .fx a J K => [id a J K, id a (ay.next J) K, id a J (az.next K), id a (ay.next J) (az.next K)]
  | .fy I b K => [id I b K, id (ax.next I) b K, id I b (az.next K), id (ax.next I) b (az.next K)]
  | .fz I J c => [id I J c, id (ax.next I) J c, id I (ay.next J) c, id (ax.next I) (ay.next J) c]

/-- Those that occur. -/
def Ent.ok (ax ay az : Axis) : Ent → Prop
  | .ex I b c => I < ax.n ∧ b < ay.nodes ∧ c < az.nodes
  | .ey a J c => a < ax.nodes ∧ J < ay.n ∧ c < az.nodes
  | .ez a b K => a < ax.nodes ∧ b < ay.nodes ∧ K < az.n
  | .fx a J K => a < ax.nodes ∧ J < ay.n ∧ K < az.n
  | .fy I b K => I < ax.n ∧ b < ay.nodes ∧ K < az.n
  | .fz I J c => I < ax.n ∧ J < ay.n ∧ c < az.nodes

/-- Bounds on positions. -/
local macro "below" : tactic => `(tactic| first | assumption | exact lt_nodes (by assumption) | exact next_lt (by assumption))

theorem ent_inj (hx : ax.per = true → 2 ≤ ax.n) (hy : ay.per = true → 2 ≤ ay.n) (hz : az.per = true → 2 ≤ az.n)
    (hid : Distinct ax.nodes ay.nodes az.nodes id) {e e' : Ent} (he : e.ok ax ay az) (he' : e'.ok ax ay az)
    (h : e.nodes ax ay az id = e'.nodes ax ay az id) : e = e' := by
  cases e <;> cases e' <;> simp only [Ent.nodes, List.cons.injEq, and_true, reduceCtorEq, and_false] at h <;>
    simp only [Ent.ok] at he he' <;> obtain ⟨h1, h2, h3⟩ := he <;> obtain ⟨g1, g2, g3⟩ := he'
  · obtain ⟨q1, q2, q3⟩ := hid _ _ _ _ _ _ (by below) (by below) (by below) (by below) (by below) (by below) h.1
    subst q1 q2 q3; rfl
  · obtain ⟨q1, q2, q3⟩ := hid _ _ _ _ _ _ (by below) (by below) (by below) (by below) (by below) (by below) h.1
    have w := hid _ _ _ _ _ _ (by below) (by below) (by below) (by below) (by below) (by below) h.2
    exact absurd (w.1.trans q1.symm) (next_ne hx (by below))
  · obtain ⟨q1, q2, q3⟩ := hid _ _ _ _ _ _ (by below) (by below) (by below) (by below) (by below) (by below) h.1
    have w := hid _ _ _ _ _ _ (by below) (by below) (by below) (by below) (by below) (by below) h.2
    exact absurd (w.1.trans q1.symm) (next_ne hx (by below))
  · obtain ⟨q1, q2, q3⟩ := hid _ _ _ _ _ _ (by below) (by below) (by below) (by below) (by below) (by below) h.1
    have w := hid _ _ _ _ _ _ (by below) (by below) (by below) (by below) (by below) (by below) h.2
    exact absurd (w.2.1.trans q2.symm) (next_ne hy (by below))
  · obtain ⟨q1, q2, q3⟩ := hid _ _ _ _ _ _ (by below) (by below) (by below) (by below) (by below) (by below) h.1
    subst q1 q2 q3; rfl
  · obtain ⟨q1, q2, q3⟩ := hid _ _ _ _ _ _ (by below) (by below) (by below) (by below) (by below) (by below) h.1
    have w := hid _ _ _ _ _ _ (by below) (by below) (by below) (by below) (by below) (by below) h.2
    exact absurd (w.2.1.trans q2.symm) (next_ne hy (by below))
  · obtain ⟨q1, q2, q3⟩ := hid _ _ _ _ _ _ (by below) (by below) (by below) (by below) (by below) (by below) h.1
    have w := hid _ _ _ _ _ _ (by below) (by below) (by below) (by below) (by below) (by below) h.2
    exact absurd (w.2.2.trans q3.symm) (next_ne hz (by below))
  · obtain ⟨q1, q2, q3⟩ := hid _ _ _ _ _ _ (by below) (by below) (by below) (by below) (by below) (by below) h.1
    have w := hid _ _ _ _ _ _ (by below) (by below) (by below) (by below) (by below) (by below) h.2
    exact absurd (w.2.2.trans q3.symm) (next_ne hz (by below))
  · obtain ⟨q1, q2, q3⟩ := hid _ _ _ _ _ _ (by below) (by below) (by below) (by below) (by below) (by below) h.1
    subst q1 q2 q3; rfl
  · obtain ⟨q1, q2, q3⟩ := hid _ _ _ _ _ _ (by below) (by below) (by below) (by below) (by below) (by below) h.1
    subst q1 q2 q3; rfl
  · obtain ⟨q1, q2, q3⟩ := hid _ _ _ _ _ _ (by below) (by below) (by below) (by below) (by below) (by below) h.1
    have w := hid _ _ _ _ _ _ (by below) (by below) (by below) (by below) (by below) (by below) h.2.1
    exact absurd (w.2.1.trans q2.symm) (next_ne hy (by below))
  · obtain ⟨q1, q2, q3⟩ := hid _ _ _ _ _ _ (by below) (by below) (by below) (by below) (by below) (by below) h.1
    have w := hid _ _ _ _ _ _ (by below) (by below) (by below) (by below) (by below) (by below) h.2.1
    exact absurd (w.2.1.trans q2.symm) (next_ne hy (by below))
  · obtain ⟨q1, q2, q3⟩ := hid _ _ _ _ _ _ (by below) (by below) (by below) (by below) (by below) (by below) h.1
    have w := hid _ _ _ _ _ _ (by below) (by below) (by below) (by below) (by below) (by below) h.2.1
    exact absurd (w.1.trans q1.symm) (next_ne hx (by below))
  · obtain ⟨q1, q2, q3⟩ := hid _ _ _ _ _ _ (by below) (by below) (by below) (by below) (by below) (by below) h.1
    subst q1 q2 q3; rfl
  · obtain ⟨q1, q2, q3⟩ := hid _ _ _ _ _ _ (by below) (by below) (by below) (by below) (by below) (by below) h.1
    have w := hid _ _ _ _ _ _ (by below) (by below) (by below) (by below) (by below) (by below) h.2.2.1
    exact absurd (w.2.2.trans q3.symm) (next_ne hz (by below))
  · obtain ⟨q1, q2, q3⟩ := hid _ _ _ _ _ _ (by below) (by below) (by below) (by below) (by below) (by below) h.1
    have w := hid _ _ _ _ _ _ (by below) (by below) (by below) (by below) (by below) (by below) h.2.1
    exact absurd (w.1.trans q1.symm) (next_ne hx (by below))
  · obtain ⟨q1, q2, q3⟩ := hid _ _ _ _ _ _ (by below) (by below) (by below) (by below) (by below) (by below) h.1
    have w := hid _ _ _ _ _ _ (by below) (by below) (by below) (by below) (by below) (by below) h.2.2.1
    exact absurd (w.2.1.trans q2.symm) (next_ne hy (by below))
  · obtain ⟨q1, q2, q3⟩ := hid _ _ _ _ _ _ (by below) (by below) (by below) (by below) (by below) (by below) h.1
    subst q1 q2 q3; rfl

/-! #### Places -/

/-- The hexahedron at a position. -/
def hexAt (ax ay az : Axis) (id : ℕ → ℕ → ℕ → ℕ) (I J K : ℕ) : Hex :=
  ⟨id I J K, id (ax.next I) J K, id I (ay.next J) K, id (ax.next I) (ay.next J) K,
    id I J (az.next K), id (ax.next I) J (az.next K), id I (ay.next J) (az.next K),
    id (ax.next I) (ay.next J) (az.next K)⟩

/-- Places of points. -/
def point3 (ax ay az : Axis) (id lab : ℕ → ℕ → ℕ → ℕ) (p q r : ℕ) : Pos → Pos → Pos → Place
  | .node a, .node b, .node c => .node (id a b c)
  | .inner I t, .node b, .node c => .on ((Ent.ex I b c).nodes ax ay az id) (p - 1) t
  | .node a, .inner J u, .node c => .on ((Ent.ey a J c).nodes ax ay az id) (q - 1) u
  | .node a, .node b, .inner K v => .on ((Ent.ez a b K).nodes ax ay az id) (r - 1) v
  | .node a, .inner J u, .inner K v => .on ((Ent.fx a J K).nodes ax ay az id) ((q - 1) * (r - 1)) (u + (q - 1) * v)
  | .inner I t, .node b, .inner K v => .on ((Ent.fy I b K).nodes ax ay az id) ((p - 1) * (r - 1)) (t + (p - 1) * v)
  | .inner I t, .inner J u, .node c => .on ((Ent.fz I J c).nodes ax ay az id) ((p - 1) * (q - 1)) (t + (p - 1) * u)
  | .inner I t, .inner J u, .inner K v => .inside (lab I J K) (0, t + 1, u + 1, v + 1)

/-- Places of segments along the first axis, -/
def xseg3 (ax ay az : Axis) (id lab : ℕ → ℕ → ℕ → ℕ) (p q r I i : ℕ) : Pos → Pos → Place
  | .node b, .node c => .on ((Ent.ex I b c).nodes ax ay az id) p i
  | .node b, .inner K v => .on ((Ent.fy I b K).nodes ax ay az id) (onFace p r) (i + p * v)
  | .inner J u, .node c => .on ((Ent.fz I J c).nodes ax ay az id) (onFace p q) (i + p * u)
  | .inner J u, .inner K v => .inside (lab I J K) (0, i, u + 1, v + 1)

/-- the second -/
def yseg3 (ax ay az : Axis) (id lab : ℕ → ℕ → ℕ → ℕ) (p q r J j : ℕ) : Pos → Pos → Place
  | .node a, .node c => .on ((Ent.ey a J c).nodes ax ay az id) q j
  | .node a, .inner K v => .on ((Ent.fx a J K).nodes ax ay az id) (onFace q r) (j + q * v)
  | .inner I t, .node c => .on ((Ent.fz I J c).nodes ax ay az id) (onFace p q) (p * (q - 1) + (t + (p - 1) * j))
  | .inner I t, .inner K v => .inside (lab I J K) (1, t + 1, j, v + 1)

/-- and the third. -/
def zseg3 (ax ay az : Axis) (id lab : ℕ → ℕ → ℕ → ℕ) (p q r K k : ℕ) : Pos → Pos → Place
  | .node a, .node b => .on ((Ent.ez a b K).nodes ax ay az id) r k
  | .node a, .inner J u => .on ((Ent.fx a J K).nodes ax ay az id) (onFace q r) (q * (r - 1) + (u + (q - 1) * k))
  | .inner I t, .node b => .on ((Ent.fy I b K).nodes ax ay az id) (onFace p r) (p * (r - 1) + (t + (p - 1) * k))
  | .inner I t, .inner J u => .inside (lab I J K) (2, t + 1, u + 1, k)

/-- Places of small faces. -/
def xcell3 (ax ay az : Axis) (id lab : ℕ → ℕ → ℕ → ℕ) (q r J j K k : ℕ) : Pos → Place
  | .node a => .on ((Ent.fx a J K).nodes ax ay az id) (q * r) (j + q * k)
  | .inner I t => .inside (lab I J K) (0, t + 1, j, k)
@[inherit_doc xcell3] def ycell3 (ax ay az : Axis) (id lab : ℕ → ℕ → ℕ → ℕ) (p r I i K k : ℕ) : Pos → Place
  | .node b => .on ((Ent.fy I b K).nodes ax ay az id) (p * r) (i + p * k)
  | .inner J u => .inside (lab I J K) (1, i, u + 1, k)
@[inherit_doc xcell3] def zcell3 (ax ay az : Axis) (id lab : ℕ → ℕ → ℕ → ℕ) (p q I i J j : ℕ) : Pos → Place
  | .node c => .on ((Ent.fz I J c).nodes ax ay az id) (p * q) (i + p * j)
  | .inner K v => .inside (lab I J K) (2, i, j, v + 1)

/-- The end of an axis a point is at, and the point. -/
theorem side_loc (a : Axis) (p I i : ℕ) :
    (side p i = some false ∧ loc a p I i = .node I) ∨ (side p i = some true ∧ loc a p I i = .node (a.next I)) ∨
      (side p i = none ∧ ∃ t, i = t + 1 ∧ loc a p I i = .inner I t) := by
  unfold side loc
  by_cases h0 : i = 0
  · left; simp [h0]
  · by_cases h1 : i = p
    · right; left; rw [if_neg h0, if_neg h0, if_pos h1, if_pos h1]; exact ⟨rfl, rfl⟩
    · right; right
      rw [if_neg h0, if_neg h0, if_neg h1, if_neg h1]
      exact ⟨rfl, i - 1, by omega, rfl⟩

theorem point3_eq (p q r I J K i j k : ℕ) : hexPoint (lab I J K) (hexAt ax ay az id I J K) p q r i j k =
    point3 ax ay az id lab p q r (loc ax p I i) (loc ay q J j) (loc az r K k) := by
  rcases side_loc ax p I i with ⟨s0, l0⟩ | ⟨s0, l0⟩ | ⟨s0, t, rfl, l0⟩ <;>
  rcases side_loc ay q J j with ⟨s1, l1⟩ | ⟨s1, l1⟩ | ⟨s1, u, rfl, l1⟩ <;>
  rcases side_loc az r K k with ⟨s2, l2⟩ | ⟨s2, l2⟩ | ⟨s2, v, rfl, l2⟩ <;>
  simp only [hexPoint, point3, s0, l0, s1, l1, s2, l2, Nat.add_sub_cancel] <;> rfl

theorem xseg3_eq (p q r I J K i j k : ℕ) : xSegment (lab I J K) (hexAt ax ay az id I J K) p q r i j k =
    xseg3 ax ay az id lab p q r I i (loc ay q J j) (loc az r K k) := by
  rcases side_loc ay q J j with ⟨s1, l1⟩ | ⟨s1, l1⟩ | ⟨s1, u, rfl, l1⟩ <;>
  rcases side_loc az r K k with ⟨s2, l2⟩ | ⟨s2, l2⟩ | ⟨s2, v, rfl, l2⟩ <;>
  simp only [xSegment, xseg3, s1, l1, s2, l2, Nat.add_sub_cancel] <;> rfl

theorem yseg3_eq (p q r I J K i j k : ℕ) : ySegment (lab I J K) (hexAt ax ay az id I J K) p q r i j k =
    yseg3 ax ay az id lab p q r J j (loc ax p I i) (loc az r K k) := by
  rcases side_loc ax p I i with ⟨s0, l0⟩ | ⟨s0, l0⟩ | ⟨s0, t, rfl, l0⟩ <;>
  rcases side_loc az r K k with ⟨s2, l2⟩ | ⟨s2, l2⟩ | ⟨s2, v, rfl, l2⟩ <;>
  simp only [ySegment, yseg3, s0, l0, s2, l2, Nat.add_sub_cancel] <;> rfl

theorem zseg3_eq (p q r I J K i j k : ℕ) : zSegment (lab I J K) (hexAt ax ay az id I J K) p q r i j k =
    zseg3 ax ay az id lab p q r K k (loc ax p I i) (loc ay q J j) := by
  rcases side_loc ax p I i with ⟨s0, l0⟩ | ⟨s0, l0⟩ | ⟨s0, t, rfl, l0⟩ <;>
  rcases side_loc ay q J j with ⟨s1, l1⟩ | ⟨s1, l1⟩ | ⟨s1, u, rfl, l1⟩ <;>
  simp only [zSegment, zseg3, s0, l0, s1, l1, Nat.add_sub_cancel] <;> rfl

theorem xcell3_eq (p q r I J K i j k : ℕ) : xCell (lab I J K) (hexAt ax ay az id I J K) p q r i j k =
    xcell3 ax ay az id lab q r J j K k (loc ax p I i) := by
  rcases side_loc ax p I i with ⟨s0, l0⟩ | ⟨s0, l0⟩ | ⟨s0, t, rfl, l0⟩ <;>
  simp only [xCell, xcell3, s0, l0, Nat.add_sub_cancel] <;> rfl

theorem ycell3_eq (p q r I J K i j k : ℕ) : yCell (lab I J K) (hexAt ax ay az id I J K) p q r i j k =
    ycell3 ax ay az id lab p r I i K k (loc ay q J j) := by
  rcases side_loc ay q J j with ⟨s1, l1⟩ | ⟨s1, l1⟩ | ⟨s1, u, rfl, l1⟩ <;>
  simp only [yCell, ycell3, s1, l1, Nat.add_sub_cancel] <;> rfl

theorem zcell3_eq (p q r I J K i j k : ℕ) : zCell (lab I J K) (hexAt ax ay az id I J K) p q r i j k =
    zcell3 ax ay az id lab p q I i J j (loc az r K k) := by
  rcases side_loc az r K k with ⟨s2, l2⟩ | ⟨s2, l2⟩ | ⟨s2, v, rfl, l2⟩ <;>
  simp only [zCell, zcell3, s2, l2, Nat.add_sub_cancel] <;> rfl

end

end Phyem.PoolGM
