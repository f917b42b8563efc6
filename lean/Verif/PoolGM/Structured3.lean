import Verif.PoolGM.Structured

/-!
C80 in three dimensions.
-/

namespace Phyem.PoolGM

section
variable {ax ay az : Axis} {id lab : ℕ → ℕ → ℕ → ℕ} {p q r : ℕ}

local macro "ent" : tactic => `(tactic| (simp only [Ent.ok]; refine ⟨?_, ?_, ?_⟩ <;> first | assumption | exact And.left (by assumption)))

local macro "lab" : tactic => `(tactic| first | assumption | exact And.left (by assumption))

/-- What is assumed: an axis that closes up has at least two elements, and different elements and nodes have
different numbers. -/
structure Box3 (ax ay az : Axis) (id lab : ℕ → ℕ → ℕ → ℕ) : Prop where
  x : ax.per = true → 2 ≤ ax.n
  y : ay.per = true → 2 ≤ ay.n
  z : az.per = true → 2 ≤ az.n
  nodes : Distinct ax.nodes ay.nodes az.nodes id
  labels : Distinct ax.n ay.n az.n lab

theorem point3_inj (B : Box3 ax ay az id lab) {x x' y y' z z' : Pos} (hx : x.ok ax p) (hy : y.ok ay q) (hz : z.ok az r)
    (hx' : x'.ok ax p) (hy' : y'.ok ay q) (hz' : z'.ok az r)
    (h : point3 ax ay az id lab p q r x y z = point3 ax ay az id lab p q r x' y' z') : x = x' ∧ y = y' ∧ z = z' := by
  cases x <;> cases y <;> cases z <;> cases x' <;> cases y' <;> cases z' <;>
    simp only [point3, Place.node.injEq, Place.on.injEq, Place.inside.injEq, Prod.mk.injEq, reduceCtorEq, true_and,
      Nat.add_right_cancel_iff] at h <;>
    simp only [Pos.ok] at hx hy hz hx' hy' hz' <;>
    first
    | exact absurd (ent_inj B.x B.y B.z B.nodes (by ent) (by ent) h.1) (by simp only [reduceCtorEq, not_false_eq_true])
    | (obtain ⟨rfl, rfl, rfl⟩ := B.nodes _ _ _ _ _ _ hx hy hz hx' hy' hz' h; exact ⟨rfl, rfl, rfl⟩)
    | (obtain ⟨rfl, rfl, rfl⟩ := B.labels _ _ _ _ _ _ hx.1 hy.1 hz.1 hx'.1 hy'.1 hz'.1 h.1
       obtain ⟨-, rfl, rfl, rfl⟩ := h; exact ⟨rfl, rfl, rfl⟩)
    | (cases ent_inj B.x B.y B.z B.nodes (by ent) (by ent) h.1
       obtain ⟨-, rfl⟩ := h; exact ⟨rfl, rfl, rfl⟩)
    | (cases ent_inj B.x B.y B.z B.nodes (by ent) (by ent) h.1
       obtain ⟨rfl, rfl⟩ := (quot_iff' (by omega) (by omega)).1 h.2; exact ⟨rfl, rfl, rfl⟩)

/-! #### Segments -/

theorem xseg3_inj (B : Box3 ax ay az id lab) {I i I' i' : ℕ} {y y' z z' : Pos} (hI : I < ax.n) (hi : i < p) (hI' : I' < ax.n)
    (hi' : i' < p) (hy : y.ok ay q) (hz : z.ok az r) (hy' : y'.ok ay q) (hz' : z'.ok az r)
    (h : xseg3 ax ay az id lab p q r I i y z = xseg3 ax ay az id lab p q r I' i' y' z') : (I = I' ∧ i = i') ∧ y = y' ∧ z = z' := by
  cases y <;> cases z <;> cases y' <;> cases z' <;>
    simp only [xseg3, Place.on.injEq, Place.inside.injEq, Prod.mk.injEq, reduceCtorEq, true_and,
      Nat.add_right_cancel_iff, Nat.add_left_cancel_iff] at h <;>
    simp only [Pos.ok] at hy hz hy' hz' <;>
    first
    | exact absurd (ent_inj B.x B.y B.z B.nodes (by ent) (by ent) h.1) (by simp only [reduceCtorEq, not_false_eq_true])
    | (obtain ⟨rfl, rfl, rfl⟩ := B.labels _ _ _ _ _ _ (by lab) (by lab) (by lab) (by lab) (by lab) (by lab) h.1
       obtain ⟨-, rfl, rfl, rfl⟩ := h; exact ⟨⟨rfl, rfl⟩, rfl, rfl⟩)
    | (cases ent_inj B.x B.y B.z B.nodes (by ent) (by ent) h.1
       obtain ⟨-, rfl⟩ := h; exact ⟨⟨rfl, rfl⟩, rfl, rfl⟩)
    | (cases ent_inj B.x B.y B.z B.nodes (by ent) (by ent) h.1
       obtain ⟨rfl, rfl⟩ := (quot_iff' (by omega) (by omega)).1 h.2; exact ⟨⟨rfl, rfl⟩, rfl, rfl⟩)

theorem yseg3_inj (B : Box3 ax ay az id lab) {I i I' i' : ℕ} {y y' z z' : Pos} (hI : I < ay.n) (hi : i < q) (hI' : I' < ay.n)
    (hi' : i' < q) (hy : y.ok ax p) (hz : z.ok az r) (hy' : y'.ok ax p) (hz' : z'.ok az r)
    (h : yseg3 ax ay az id lab p q r I i y z = yseg3 ax ay az id lab p q r I' i' y' z') : (I = I' ∧ i = i') ∧ y = y' ∧ z = z' := by
  cases y <;> cases z <;> cases y' <;> cases z' <;>
    simp only [yseg3, Place.on.injEq, Place.inside.injEq, Prod.mk.injEq, reduceCtorEq, true_and,
      Nat.add_right_cancel_iff, Nat.add_left_cancel_iff] at h <;>
    simp only [Pos.ok] at hy hz hy' hz' <;>
    first
    | exact absurd (ent_inj B.x B.y B.z B.nodes (by ent) (by ent) h.1) (by simp only [reduceCtorEq, not_false_eq_true])
    | (obtain ⟨rfl, rfl, rfl⟩ := B.labels _ _ _ _ _ _ (by lab) (by lab) (by lab) (by lab) (by lab) (by lab) h.1
       obtain ⟨-, rfl, rfl, rfl⟩ := h; exact ⟨⟨rfl, rfl⟩, rfl, rfl⟩)
    | (cases ent_inj B.x B.y B.z B.nodes (by ent) (by ent) h.1
       obtain ⟨-, rfl⟩ := h; exact ⟨⟨rfl, rfl⟩, rfl, rfl⟩)
    | (cases ent_inj B.x B.y B.z B.nodes (by ent) (by ent) h.1
       obtain ⟨rfl, rfl⟩ := (quot_iff' (by omega) (by omega)).1 h.2; exact ⟨⟨rfl, rfl⟩, rfl, rfl⟩)

theorem zseg3_inj (B : Box3 ax ay az id lab) {I i I' i' : ℕ} {y y' z z' : Pos} (hI : I < az.n) (hi : i < r) (hI' : I' < az.n)
    (hi' : i' < r) (hy : y.ok ax p) (hz : z.ok ay q) (hy' : y'.ok ax p) (hz' : z'.ok ay q)
    (h : zseg3 ax ay az id lab p q r I i y z = zseg3 ax ay az id lab p q r I' i' y' z') : (I = I' ∧ i = i') ∧ y = y' ∧ z = z' := by
  cases y <;> cases z <;> cases y' <;> cases z' <;>
    simp only [zseg3, Place.on.injEq, Place.inside.injEq, Prod.mk.injEq, reduceCtorEq, true_and,
      Nat.add_right_cancel_iff, Nat.add_left_cancel_iff] at h <;>
    simp only [Pos.ok] at hy hz hy' hz' <;>
    first
    | exact absurd (ent_inj B.x B.y B.z B.nodes (by ent) (by ent) h.1) (by simp only [reduceCtorEq, not_false_eq_true])
    | (obtain ⟨rfl, rfl, rfl⟩ := B.labels _ _ _ _ _ _ (by lab) (by lab) (by lab) (by lab) (by lab) (by lab) h.1
       obtain ⟨-, rfl, rfl, rfl⟩ := h; exact ⟨⟨rfl, rfl⟩, rfl, rfl⟩)
    | (cases ent_inj B.x B.y B.z B.nodes (by ent) (by ent) h.1
       obtain ⟨-, rfl⟩ := h; exact ⟨⟨rfl, rfl⟩, rfl, rfl⟩)
    | (cases ent_inj B.x B.y B.z B.nodes (by ent) (by ent) h.1
       obtain ⟨rfl, rfl⟩ := (quot_iff' (by omega) (by omega)).1 h.2; exact ⟨⟨rfl, rfl⟩, rfl, rfl⟩)

theorem below_mul {a b i u v : ℕ} (hi : i < a) (hu : u + 1 < b) (h : i + a * u = a * (b - 1) + v) : False := by
  have : a * (u + 1) ≤ a * (b - 1) := Nat.mul_le_mul_left a (by omega)
  rw [Nat.mul_add, Nat.mul_one] at this
  omega

theorem xseg3_ne_yseg3 (B : Box3 ax ay az id lab) {I i I' i' : ℕ} {y y' z z' : Pos} (hI : I < ax.n) (hi : i < p) (hI' : I' < ay.n)
    (hy : y.ok ay q) (hz : z.ok az r) (hy' : y'.ok ax p) (hz' : z'.ok az r) :
    xseg3 ax ay az id lab p q r I i y z ≠ yseg3 ax ay az id lab p q r I' i' y' z' := by
  intro h
  cases y <;> cases z <;> cases y' <;> cases z' <;>
    simp only [xseg3, yseg3, Place.on.injEq, Place.inside.injEq, Prod.mk.injEq, reduceCtorEq] at h <;>
    simp only [Pos.ok] at hy hz hy' hz' <;>
    first
    | exact absurd (ent_inj B.x B.y B.z B.nodes (by ent) (by ent) h.1) (by simp only [reduceCtorEq, not_false_eq_true])
    | exact absurd h.2.1 (by decide)
    | exact below_mul hi (And.right (by assumption)) h.2.2

theorem xseg3_ne_zseg3 (B : Box3 ax ay az id lab) {I i I' i' : ℕ} {y y' z z' : Pos} (hI : I < ax.n) (hi : i < p) (hI' : I' < az.n)
    (hy : y.ok ay q) (hz : z.ok az r) (hy' : y'.ok ax p) (hz' : z'.ok ay q) :
    xseg3 ax ay az id lab p q r I i y z ≠ zseg3 ax ay az id lab p q r I' i' y' z' := by
  intro h
  cases y <;> cases z <;> cases y' <;> cases z' <;>
    simp only [xseg3, zseg3, Place.on.injEq, Place.inside.injEq, Prod.mk.injEq, reduceCtorEq] at h <;>
    simp only [Pos.ok] at hy hz hy' hz' <;>
    first
    | exact absurd (ent_inj B.x B.y B.z B.nodes (by ent) (by ent) h.1) (by simp only [reduceCtorEq, not_false_eq_true])
    | exact absurd h.2.1 (by decide)
    | exact below_mul hi (And.right (by assumption)) h.2.2

theorem yseg3_ne_zseg3 (B : Box3 ax ay az id lab) {I i I' i' : ℕ} {y y' z z' : Pos} (hI : I < ay.n) (hi : i < q) (hI' : I' < az.n)
    (hy : y.ok ax p) (hz : z.ok az r) (hy' : y'.ok ax p) (hz' : z'.ok ay q) :
    yseg3 ax ay az id lab p q r I i y z ≠ zseg3 ax ay az id lab p q r I' i' y' z' := by
  intro h
  cases y <;> cases z <;> cases y' <;> cases z' <;>
    simp only [yseg3, zseg3, Place.on.injEq, Place.inside.injEq, Prod.mk.injEq, reduceCtorEq] at h <;>
    simp only [Pos.ok] at hy hz hy' hz' <;>
    first
    | exact absurd (ent_inj B.x B.y B.z B.nodes (by ent) (by ent) h.1) (by simp only [reduceCtorEq, not_false_eq_true])
    | exact absurd h.2.1 (by decide)
    | exact below_mul hi (And.right (by assumption)) h.2.2

/-! #### Small faces -/

theorem xcell3_inj (B : Box3 ax ay az id lab) {J j J' j' K k K' k' : ℕ} {x x' : Pos} (hJ : J < ay.n) (hj : j < q) (hJ' : J' < ay.n)
    (hj' : j' < q) (hK : K < az.n) (hK' : K' < az.n) (hx : x.ok ax p) (hx' : x'.ok ax p)
    (h : xcell3 ax ay az id lab q r J j K k x = xcell3 ax ay az id lab q r J' j' K' k' x') :
    (J = J' ∧ j = j') ∧ (K = K' ∧ k = k') ∧ x = x' := by
  cases x <;> cases x' <;>
    simp only [xcell3, Place.on.injEq, Place.inside.injEq, Prod.mk.injEq, reduceCtorEq, true_and,
      Nat.add_right_cancel_iff, Nat.add_left_cancel_iff] at h <;>
    simp only [Pos.ok] at hx hx' <;>
    first
    | (obtain ⟨rfl, rfl, rfl⟩ := B.labels _ _ _ _ _ _ (by lab) (by lab) (by lab) (by lab) (by lab) (by lab) h.1
       obtain ⟨-, rfl, rfl, rfl⟩ := h; exact ⟨⟨rfl, rfl⟩, ⟨rfl, rfl⟩, rfl⟩)
    | (cases ent_inj B.x B.y B.z B.nodes (by ent) (by ent) h.1
       obtain ⟨rfl, rfl⟩ := (quot_iff' (by omega) (by omega)).1 h.2; exact ⟨⟨rfl, rfl⟩, ⟨rfl, rfl⟩, rfl⟩)

theorem ycell3_inj (B : Box3 ax ay az id lab) {J j J' j' K k K' k' : ℕ} {x x' : Pos} (hJ : J < ax.n) (hj : j < p) (hJ' : J' < ax.n)
    (hj' : j' < p) (hK : K < az.n) (hK' : K' < az.n) (hx : x.ok ay q) (hx' : x'.ok ay q)
    (h : ycell3 ax ay az id lab p r J j K k x = ycell3 ax ay az id lab p r J' j' K' k' x') :
    (J = J' ∧ j = j') ∧ (K = K' ∧ k = k') ∧ x = x' := by
  cases x <;> cases x' <;>
    simp only [ycell3, Place.on.injEq, Place.inside.injEq, Prod.mk.injEq, reduceCtorEq, true_and,
      Nat.add_right_cancel_iff, Nat.add_left_cancel_iff] at h <;>
    simp only [Pos.ok] at hx hx' <;>
    first
    | (obtain ⟨rfl, rfl, rfl⟩ := B.labels _ _ _ _ _ _ (by lab) (by lab) (by lab) (by lab) (by lab) (by lab) h.1
       obtain ⟨-, rfl, rfl, rfl⟩ := h; exact ⟨⟨rfl, rfl⟩, ⟨rfl, rfl⟩, rfl⟩)
    | (cases ent_inj B.x B.y B.z B.nodes (by ent) (by ent) h.1
       obtain ⟨rfl, rfl⟩ := (quot_iff' (by omega) (by omega)).1 h.2; exact ⟨⟨rfl, rfl⟩, ⟨rfl, rfl⟩, rfl⟩)

theorem zcell3_inj (B : Box3 ax ay az id lab) {J j J' j' K k K' k' : ℕ} {x x' : Pos} (hJ : J < ax.n) (hj : j < p) (hJ' : J' < ax.n)
    (hj' : j' < p) (hK : K < ay.n) (hK' : K' < ay.n) (hx : x.ok az r) (hx' : x'.ok az r)
    (h : zcell3 ax ay az id lab p q J j K k x = zcell3 ax ay az id lab p q J' j' K' k' x') :
    (J = J' ∧ j = j') ∧ (K = K' ∧ k = k') ∧ x = x' := by
  cases x <;> cases x' <;>
    simp only [zcell3, Place.on.injEq, Place.inside.injEq, Prod.mk.injEq, reduceCtorEq, true_and,
      Nat.add_right_cancel_iff, Nat.add_left_cancel_iff] at h <;>
    simp only [Pos.ok] at hx hx' <;>
    first
    | (obtain ⟨rfl, rfl, rfl⟩ := B.labels _ _ _ _ _ _ (by lab) (by lab) (by lab) (by lab) (by lab) (by lab) h.1
       obtain ⟨-, rfl, rfl, rfl⟩ := h; exact ⟨⟨rfl, rfl⟩, ⟨rfl, rfl⟩, rfl⟩)
    | (cases ent_inj B.x B.y B.z B.nodes (by ent) (by ent) h.1
       obtain ⟨rfl, rfl⟩ := (quot_iff' (by omega) (by omega)).1 h.2; exact ⟨⟨rfl, rfl⟩, ⟨rfl, rfl⟩, rfl⟩)

theorem xcell3_ne_ycell3 (B : Box3 ax ay az id lab) {J j J' j' K k K' k' : ℕ} {x x' : Pos} (hJ : J < ay.n) (hJ' : J' < ax.n)
    (hK : K < az.n) (hK' : K' < az.n) (hx : x.ok ax p) (hx' : x'.ok ay q) :
    xcell3 ax ay az id lab q r J j K k x ≠ ycell3 ax ay az id lab p r J' j' K' k' x' := by
  intro h
  cases x <;> cases x' <;>
    simp only [xcell3, ycell3, Place.on.injEq, Place.inside.injEq, Prod.mk.injEq, reduceCtorEq] at h <;>
    simp only [Pos.ok] at hx hx' <;>
    first
    | exact absurd (ent_inj B.x B.y B.z B.nodes (by ent) (by ent) h.1) (by simp only [reduceCtorEq, not_false_eq_true])
    | exact absurd h.2.1 (by decide)

theorem xcell3_ne_zcell3 (B : Box3 ax ay az id lab) {J j J' j' K k K' k' : ℕ} {x x' : Pos} (hJ : J < ay.n) (hJ' : J' < ax.n)
    (hK : K < az.n) (hK' : K' < ay.n) (hx : x.ok ax p) (hx' : x'.ok az r) :
    xcell3 ax ay az id lab q r J j K k x ≠ zcell3 ax ay az id lab p q J' j' K' k' x' := by
  intro h
  cases x <;> cases x' <;>
    simp only [xcell3, zcell3, Place.on.injEq, Place.inside.injEq, Prod.mk.injEq, reduceCtorEq] at h <;>
    simp only [Pos.ok] at hx hx' <;>
    first
    | exact absurd (ent_inj B.x B.y B.z B.nodes (by ent) (by ent) h.1) (by simp only [reduceCtorEq, not_false_eq_true])
    | exact absurd h.2.1 (by decide)

theorem ycell3_ne_zcell3 (B : Box3 ax ay az id lab) {J j J' j' K k K' k' : ℕ} {x x' : Pos} (hJ : J < ax.n) (hJ' : J' < ax.n)
    (hK : K < az.n) (hK' : K' < ay.n) (hx : x.ok ay q) (hx' : x'.ok az r) :
    ycell3 ax ay az id lab p r J j K k x ≠ zcell3 ax ay az id lab p q J' j' K' k' x' := by
  intro h
  cases x <;> cases x' <;>
    simp only [ycell3, zcell3, Place.on.injEq, Place.inside.injEq, Prod.mk.injEq, reduceCtorEq] at h <;>
    simp only [Pos.ok] at hx hx' <;>
    first
    | exact absurd (ent_inj B.x B.y B.z B.nodes (by ent) (by ent) h.1) (by simp only [reduceCtorEq, not_false_eq_true])
    | exact absurd h.2.1 (by decide)

/-! #### The mesh -/

/-- Whether it is a face, and the axis an edge is along or a face is across. -/
def Ent.kind : Ent → Bool × Fin 3
  | .ex .. => (false, 0)
  | .ey .. => (false, 1)
  | .ez .. => (false, 2)
  | .fx .. => (true, 0)
  | .fy .. => (true, 1)
  | .fz .. => (true, 2)

local macro "below" : tactic => `(tactic| first | assumption | exact lt_nodes (by assumption) | exact next_lt (by assumption))

theorem edges_ent {I J K : ℕ} (hI : I < ax.n) (hJ : J < ay.n) (hK : K < az.n) {s : Fin 3} {e : List ℕ}
    (he : e ∈ edgesAlong (hexAt ax ay az id I J K) s) :
    ∃ E : Ent, E.ok ax ay az ∧ E.nodes ax ay az id = e ∧ E.kind = (false, s) := by
  fin_cases s <;> simp only [edgesAlong, List.mem_cons, List.not_mem_nil, or_false] at he <;>
    rcases he with rfl | rfl | rfl | rfl
  · exact ⟨.ex I J K, ⟨by below, by below, by below⟩, rfl, rfl⟩
  · exact ⟨.ex I (ay.next J) K, ⟨by below, by below, by below⟩, rfl, rfl⟩
  · exact ⟨.ex I J (az.next K), ⟨by below, by below, by below⟩, rfl, rfl⟩
  · exact ⟨.ex I (ay.next J) (az.next K), ⟨by below, by below, by below⟩, rfl, rfl⟩
  · exact ⟨.ey I J K, ⟨by below, by below, by below⟩, rfl, rfl⟩
  · exact ⟨.ey (ax.next I) J K, ⟨by below, by below, by below⟩, rfl, rfl⟩
  · exact ⟨.ey I J (az.next K), ⟨by below, by below, by below⟩, rfl, rfl⟩
  · exact ⟨.ey (ax.next I) J (az.next K), ⟨by below, by below, by below⟩, rfl, rfl⟩
  · exact ⟨.ez I J K, ⟨by below, by below, by below⟩, rfl, rfl⟩
  · exact ⟨.ez (ax.next I) J K, ⟨by below, by below, by below⟩, rfl, rfl⟩
  · exact ⟨.ez I (ay.next J) K, ⟨by below, by below, by below⟩, rfl, rfl⟩
  · exact ⟨.ez (ax.next I) (ay.next J) K, ⟨by below, by below, by below⟩, rfl, rfl⟩

theorem faces_ent {I J K : ℕ} (hI : I < ax.n) (hJ : J < ay.n) (hK : K < az.n) {s : Fin 3} {e : List ℕ}
    (he : e ∈ facesAcross (hexAt ax ay az id I J K) s) :
    ∃ E : Ent, E.ok ax ay az ∧ E.nodes ax ay az id = e ∧ E.kind = (true, s) := by
  fin_cases s <;> simp only [facesAcross, List.mem_cons, List.not_mem_nil, or_false] at he <;>
    rcases he with rfl | rfl
  · exact ⟨.fx I J K, ⟨by below, by below, by below⟩, rfl, rfl⟩
  · exact ⟨.fx (ax.next I) J K, ⟨by below, by below, by below⟩, rfl, rfl⟩
  · exact ⟨.fy I J K, ⟨by below, by below, by below⟩, rfl, rfl⟩
  · exact ⟨.fy I (ay.next J) K, ⟨by below, by below, by below⟩, rfl, rfl⟩
  · exact ⟨.fz I J K, ⟨by below, by below, by below⟩, rfl, rfl⟩
  · exact ⟨.fz I J (az.next K), ⟨by below, by below, by below⟩, rfl, rfl⟩

theorem mem_structured3 {x : Item3} (h : x ∈ structured3 ax ay az id lab) :
    ∃ I < ax.n, ∃ J < ay.n, ∃ K < az.n, x = ⟨lab I J K, true, hexAt ax ay az id I J K⟩ := by
  obtain ⟨c, hc, rfl⟩ := List.mem_map.1 h
  obtain ⟨I, J, K, rfl, hI, hJ, hK⟩ := mem_box0.1 hc
  exact ⟨I, hI, J, hJ, K, hK, rfl⟩

theorem structured3_conforming (B : Box3 ax ay az id lab) (p q r : ℕ) :
    Conforming3 p q r (structured3 ax ay az id lab) := by
  right
  intro x hx y hy _ _ s t hst
  obtain ⟨I, hI, J, hJ, K, hK, rfl⟩ := mem_structured3 hx
  obtain ⟨I', hI', J', hJ', K', hK', rfl⟩ := mem_structured3 hy
  constructor
  · intro e he he'
    obtain ⟨E, o, n, k⟩ := edges_ent hI hJ hK he
    obtain ⟨E', o', n', k'⟩ := edges_ent hI' hJ' hK' he'
    obtain rfl := ent_inj B.x B.y B.z B.nodes o o' (n.trans n'.symm)
    exact hst (Prod.mk.inj (k.symm.trans k')).2
  · intro e he he'
    obtain ⟨E, o, n, k⟩ := faces_ent hI hJ hK he
    obtain ⟨E', o', n', k'⟩ := faces_ent hI' hJ' hK' he'
    obtain rfl := ent_inj B.x B.y B.z B.nodes o o' (n.trans n'.symm)
    exact hst (Prod.mk.inj (k.symm.trans k')).2

theorem structured3_labels (B : Box3 ax ay az id lab) : ((structured3 ax ay az id lab).map Item3.label).Nodup := by
  unfold structured3
  rw [List.map_map]
  refine List.Nodup.map_on ?_ box_nodup
  intro c hc d hd h
  obtain ⟨I, J, K, rfl, hI, hJ, hK⟩ := mem_box0.1 hc
  obtain ⟨I', J', K', rfl, hI', hJ', hK'⟩ := mem_box0.1 hd
  obtain ⟨rfl, rfl, rfl⟩ := B.labels _ _ _ _ _ _ hI hJ hK hI' hJ' hK' h
  rfl

theorem placesOf3_structured3 (f : ℕ → Hex → List Place) :
    placesOf3 f (structured3 ax ay az id lab) =
      located3 ax ay az lab fun I J K => f (lab I J K) (hexAt ax ay az id I J K) := by
  unfold placesOf3 structured3 located3
  rw [List.filter_eq_self.2, List.map_map]
  · rfl
  · intro x hx
    obtain ⟨c, -, rfl⟩ := List.mem_map.1 hx
    rfl

/-- From places of the mesh to positions. -/
theorem located3_transfer {idx : List Cell} {f : ℕ → Hex → List Place} {g : ℕ → ℕ → ℕ → List Place}
    {F G : ℕ → ℕ → ℕ → Cell → Place} {gm : Dict ℕ (Option (List ℕ))} {total : ℕ}
    (h : Right false (placesOf3 f (structured3 ax ay az id lab)) gm total)
    (hf : ∀ I J K, f (lab I J K) (hexAt ax ay az id I J K) = idx.map (F I J K))
    (hg : ∀ I J K, g I J K = idx.map (G I J K))
    (e : ∀ I < ax.n, ∀ J < ay.n, ∀ K < az.n, ∀ I' < ax.n, ∀ J' < ay.n, ∀ K' < az.n, ∀ s ∈ idx, ∀ s' ∈ idx,
      F I J K s = F I' J' K' s' ↔ G I J K s = G I' J' K' s') :
    Right false (located3 ax ay az lab g) gm total := by
  rw [placesOf3_structured3] at h
  unfold located3 at h ⊢
  simp only [hf] at h
  simp only [hg]
  refine Right.transfer (F := fun c : Cell => F c.2.1 c.2.2.1 c.2.2.2)
    (G := fun c : Cell => G c.2.1 c.2.2.1 c.2.2.2) h ?_
  intro c hc d hd s hs s' hs'
  obtain ⟨I, J, K, rfl, hI, hJ, hK⟩ := mem_box0.1 hc
  obtain ⟨I', J', K', rfl, hI', hJ', hK'⟩ := mem_box0.1 hd
  rw [same_false, same_false]
  exact e I hI J hJ K hK I' hI' J' hJ' K' hK' s hs s' hs'

/-- C80, 0-forms on boxes and tori: two nodes have the same number exactly when they are at the same position. -/
theorem box_nodes_right (B : Box3 ax ay az id lab) (hp : 0 < p) (hq : 0 < q) (hr : 0 < r) :
    ∃ gm total, number30 false p q r (structured3 ax ay az id lab) = some (gm, total) ∧
      Right false (located3 ax ay az lab fun I J K => grid3 (p + 1) (q + 1) (r + 1) fun i j k =>
        geo 0 (ax.pos p I i) (ay.pos q J j) (az.pos r K k)) gm total := by
  obtain ⟨gm, total, h, R⟩ := hex_nodes_right hp hq hr (structured3_labels B) (structured3_conforming B p q r)
  refine ⟨gm, total, h, located3_transfer (idx := box 0 0 (p + 1) 0 (q + 1) 0 (r + 1))
    (F := fun I J K c => hexPoint (lab I J K) (hexAt ax ay az id I J K) p q r c.2.1 c.2.2.1 c.2.2.2)
    (G := fun I J K c => geo 0 (ax.pos p I c.2.1) (ay.pos q J c.2.2.1) (az.pos r K c.2.2.2)) R
    (fun I J K => by rw [box_map]; rfl) (fun I J K => by rw [box_map]) ?_⟩
  intro I hI J hJ K hK I' hI' J' hJ' K' hK' s hs s' hs'
  obtain ⟨i, j, k, rfl, hi, hj, hk⟩ := mem_box0.1 hs
  obtain ⟨i', j', k', rfl, hi', hj', hk'⟩ := mem_box0.1 hs'
  dsimp only
  rw [point3_eq, point3_eq, ← same_false (x := geo _ _ _ _), same_geo, pos_eq hp hI (by omega) hI' (by omega),
    pos_eq hq hJ (by omega) hJ' (by omega), pos_eq hr hK (by omega) hK' (by omega)]
  constructor
  · intro h
    exact ⟨rfl, point3_inj B (loc_ok hI (by omega)) (loc_ok hJ (by omega)) (loc_ok hK (by omega)) (loc_ok hI' (by omega))
      (loc_ok hJ' (by omega)) (loc_ok hK' (by omega)) h⟩
  · rintro ⟨-, h1, h2, h3⟩
    simp only [h1, h2, h3]

/-- Positions of the segments of a cell of the arrays. -/
def pos31 (ax ay az : Axis) (p q r I J K : ℕ) : Cell → Place
  | (0, i, j, k) => geo 0 (I * p + i) (ay.pos q J j) (az.pos r K k)
  | (1, i, j, k) => geo 1 (ax.pos p I i) (J * q + j) (az.pos r K k)
  | (_, i, j, k) => geo 2 (ax.pos p I i) (ay.pos q J j) (K * r + k)

/-- C80, 1-forms on boxes and tori: segments along the three axes, by position. -/
theorem box_segments_right (B : Box3 ax ay az id lab) (hp : 0 < p) (hq : 0 < q) (hr : 0 < r) :
    ∃ gm total, number31 false p q r (structured3 ax ay az id lab) = some (gm, total) ∧
      Right false (located3 ax ay az lab fun I J K =>
        (grid3 p (q + 1) (r + 1) fun i j k => geo 0 (I * p + i) (ay.pos q J j) (az.pos r K k)) ++
        (grid3 (p + 1) q (r + 1) fun i j k => geo 1 (ax.pos p I i) (J * q + j) (az.pos r K k)) ++
        (grid3 (p + 1) (q + 1) r fun i j k => geo 2 (ax.pos p I i) (ay.pos q J j) (K * r + k))) gm total := by
  obtain ⟨gm, total, h, R⟩ := hex_segments_right hp hq hr (structured3_labels B) (structured3_conforming B p q r)
  refine ⟨gm, total, h, located3_transfer (idx := box 0 0 p 0 (q + 1) 0 (r + 1) ++ box 1 0 (p + 1) 0 q 0 (r + 1) ++ box 2 0 (p + 1) 0 (q + 1) 0 r)
    (F := fun I J K => cell31 (lab I J K) (hexAt ax ay az id I J K) p q r)
    (G := fun I J K => pos31 ax ay az p q r I J K) R
    (fun I J K => by simp only [List.map_append, box_map]; rfl) (fun I J K => by simp only [List.map_append, box_map]; rfl) ?_⟩
  intro I hI J hJ K hK I' hI' J' hJ' K' hK' s hs s' hs'
  simp only [List.mem_append, or_assoc] at hs hs'
  rcases hs with hs | hs | hs <;> rcases hs' with hs' | hs' | hs' <;>
    obtain ⟨i, j, k, rfl, hi, hj, hk⟩ := mem_box0.1 hs <;>
    obtain ⟨i', j', k', rfl, hi', hj', hk'⟩ := mem_box0.1 hs' <;>
    simp only [cell31, pos31]
  · rw [xseg3_eq, xseg3_eq, ← same_false (x := geo _ _ _ _), same_geo, quot_iff (p := p) (by omega) (by omega), pos_eq hq hJ (by omega) hJ' (by omega), pos_eq hr hK (by omega) hK' (by omega)]
    constructor
    · intro h
      obtain ⟨h1, h2, h3⟩ := xseg3_inj B hI hi hI' hi' (loc_ok hJ (by omega)) (loc_ok hK (by omega)) (loc_ok hJ' (by omega)) (loc_ok hK' (by omega)) h
      exact ⟨rfl, h1, h2, h3⟩
    · rintro ⟨-, ⟨rfl, rfl⟩, e1, e2⟩
      simp only [e1, e2]
  · rw [xseg3_eq, yseg3_eq]
    exact ⟨fun h => absurd h (xseg3_ne_yseg3 B hI hi hJ' (loc_ok hJ (by omega)) (loc_ok hK (by omega)) (loc_ok hI' (by omega)) (loc_ok hK' (by omega))), fun h => absurd h (by simp [geo])⟩
  · rw [xseg3_eq, zseg3_eq]
    exact ⟨fun h => absurd h (xseg3_ne_zseg3 B hI hi hK' (loc_ok hJ (by omega)) (loc_ok hK (by omega)) (loc_ok hI' (by omega)) (loc_ok hJ' (by omega))), fun h => absurd h (by simp [geo])⟩
  · rw [yseg3_eq, xseg3_eq]
    exact ⟨fun h => absurd h.symm (xseg3_ne_yseg3 B hI' hi' hJ (loc_ok hJ' (by omega)) (loc_ok hK' (by omega)) (loc_ok hI (by omega)) (loc_ok hK (by omega))), fun h => absurd h (by simp [geo])⟩
  · rw [yseg3_eq, yseg3_eq, ← same_false (x := geo _ _ _ _), same_geo, pos_eq hp hI (by omega) hI' (by omega), quot_iff (p := q) (by omega) (by omega), pos_eq hr hK (by omega) hK' (by omega)]
    constructor
    · intro h
      obtain ⟨h1, h2, h3⟩ := yseg3_inj B hJ hj hJ' hj' (loc_ok hI (by omega)) (loc_ok hK (by omega)) (loc_ok hI' (by omega)) (loc_ok hK' (by omega)) h
      exact ⟨rfl, h2, h1, h3⟩
    · rintro ⟨-, e0, ⟨rfl, rfl⟩, e2⟩
      simp only [e0, e2]
  · rw [yseg3_eq, zseg3_eq]
    exact ⟨fun h => absurd h (yseg3_ne_zseg3 B hJ hj hK' (loc_ok hI (by omega)) (loc_ok hK (by omega)) (loc_ok hI' (by omega)) (loc_ok hJ' (by omega))), fun h => absurd h (by simp [geo])⟩
  · rw [zseg3_eq, xseg3_eq]
    exact ⟨fun h => absurd h.symm (xseg3_ne_zseg3 B hI' hi' hK (loc_ok hJ' (by omega)) (loc_ok hK' (by omega)) (loc_ok hI (by omega)) (loc_ok hJ (by omega))), fun h => absurd h (by simp [geo])⟩
  · rw [zseg3_eq, yseg3_eq]
    exact ⟨fun h => absurd h.symm (yseg3_ne_zseg3 B hJ' hj' hK (loc_ok hI' (by omega)) (loc_ok hK' (by omega)) (loc_ok hI (by omega)) (loc_ok hJ (by omega))), fun h => absurd h (by simp [geo])⟩
  · rw [zseg3_eq, zseg3_eq, ← same_false (x := geo _ _ _ _), same_geo, pos_eq hp hI (by omega) hI' (by omega), pos_eq hq hJ (by omega) hJ' (by omega), quot_iff (p := r) (by omega) (by omega)]
    constructor
    · intro h
      obtain ⟨h1, h2, h3⟩ := zseg3_inj B hK hk hK' hk' (loc_ok hI (by omega)) (loc_ok hJ (by omega)) (loc_ok hI' (by omega)) (loc_ok hJ' (by omega)) h
      exact ⟨rfl, h2, h3, h1⟩
    · rintro ⟨-, e0, e1, ⟨rfl, rfl⟩⟩
      simp only [e0, e1]

/-- Positions of the small faces of a cell of the arrays. -/
def pos32 (ax ay az : Axis) (p q r I J K : ℕ) : Cell → Place
  | (0, i, j, k) => geo 0 (ax.pos p I i) (J * q + j) (K * r + k)
  | (1, i, j, k) => geo 1 (I * p + i) (ay.pos q J j) (K * r + k)
  | (_, i, j, k) => geo 2 (I * p + i) (J * q + j) (az.pos r K k)

/-- C80, 2-forms on boxes and tori: small faces across the three axes, by position. -/
theorem box_faces_right (B : Box3 ax ay az id lab) (hp : 0 < p) (hq : 0 < q) (hr : 0 < r) :
    ∃ gm total, number32 false p q r (structured3 ax ay az id lab) = some (gm, total) ∧
      Right false (located3 ax ay az lab fun I J K =>
        (grid3 (p + 1) q r fun i j k => geo 0 (ax.pos p I i) (J * q + j) (K * r + k)) ++
        (grid3 p (q + 1) r fun i j k => geo 1 (I * p + i) (ay.pos q J j) (K * r + k)) ++
        (grid3 p q (r + 1) fun i j k => geo 2 (I * p + i) (J * q + j) (az.pos r K k))) gm total := by
  obtain ⟨gm, total, h, R⟩ := hex_faces_right hp hq hr (structured3_labels B) (structured3_conforming B p q r)
  refine ⟨gm, total, h, located3_transfer (idx := box 0 0 (p + 1) 0 q 0 r ++ box 1 0 p 0 (q + 1) 0 r ++ box 2 0 p 0 q 0 (r + 1))
    (F := fun I J K => cell32 (lab I J K) (hexAt ax ay az id I J K) p q r)
    (G := fun I J K => pos32 ax ay az p q r I J K) R
    (fun I J K => by simp only [List.map_append, box_map]; rfl) (fun I J K => by simp only [List.map_append, box_map]; rfl) ?_⟩
  intro I hI J hJ K hK I' hI' J' hJ' K' hK' s hs s' hs'
  simp only [List.mem_append, or_assoc] at hs hs'
  rcases hs with hs | hs | hs <;> rcases hs' with hs' | hs' | hs' <;>
    obtain ⟨i, j, k, rfl, hi, hj, hk⟩ := mem_box0.1 hs <;>
    obtain ⟨i', j', k', rfl, hi', hj', hk'⟩ := mem_box0.1 hs' <;>
    simp only [cell32, pos32]
  · rw [xcell3_eq, xcell3_eq, ← same_false (x := geo _ _ _ _), same_geo, pos_eq hp hI (by omega) hI' (by omega), quot_iff (p := q) (by omega) (by omega), quot_iff (p := r) (by omega) (by omega)]
    constructor
    · intro h
      obtain ⟨h1, h2, h3⟩ := xcell3_inj B hJ hj hJ' hj' hK hK' (loc_ok hI (by omega)) (loc_ok hI' (by omega)) h
      exact ⟨rfl, h3, h1, h2⟩
    · rintro ⟨-, e0, ⟨rfl, rfl⟩, ⟨rfl, rfl⟩⟩
      simp only [e0]
  · rw [xcell3_eq, ycell3_eq]
    exact ⟨fun h => absurd h (xcell3_ne_ycell3 B hJ hI' hK hK' (loc_ok hI (by omega)) (loc_ok hJ' (by omega))), fun h => absurd h (by simp [geo])⟩
  · rw [xcell3_eq, zcell3_eq]
    exact ⟨fun h => absurd h (xcell3_ne_zcell3 B hJ hI' hK hJ' (loc_ok hI (by omega)) (loc_ok hK' (by omega))), fun h => absurd h (by simp [geo])⟩
  · rw [ycell3_eq, xcell3_eq]
    exact ⟨fun h => absurd h.symm (xcell3_ne_ycell3 B hJ' hI hK' hK (loc_ok hI' (by omega)) (loc_ok hJ (by omega))), fun h => absurd h (by simp [geo])⟩
  · rw [ycell3_eq, ycell3_eq, ← same_false (x := geo _ _ _ _), same_geo, quot_iff (p := p) (by omega) (by omega), pos_eq hq hJ (by omega) hJ' (by omega), quot_iff (p := r) (by omega) (by omega)]
    constructor
    · intro h
      obtain ⟨h1, h2, h3⟩ := ycell3_inj B hI hi hI' hi' hK hK' (loc_ok hJ (by omega)) (loc_ok hJ' (by omega)) h
      exact ⟨rfl, h1, h3, h2⟩
    · rintro ⟨-, ⟨rfl, rfl⟩, e1, ⟨rfl, rfl⟩⟩
      simp only [e1]
  · rw [ycell3_eq, zcell3_eq]
    exact ⟨fun h => absurd h (ycell3_ne_zcell3 B hI hI' hK hJ' (loc_ok hJ (by omega)) (loc_ok hK' (by omega))), fun h => absurd h (by simp [geo])⟩
  · rw [zcell3_eq, xcell3_eq]
    exact ⟨fun h => absurd h.symm (xcell3_ne_zcell3 B hJ' hI hK' hJ (loc_ok hI' (by omega)) (loc_ok hK (by omega))), fun h => absurd h (by simp [geo])⟩
  · rw [zcell3_eq, ycell3_eq]
    exact ⟨fun h => absurd h.symm (ycell3_ne_zcell3 B hI' hI hK' hJ (loc_ok hJ' (by omega)) (loc_ok hK (by omega))), fun h => absurd h (by simp [geo])⟩
  · rw [zcell3_eq, zcell3_eq, ← same_false (x := geo _ _ _ _), same_geo, quot_iff (p := p) (by omega) (by omega), quot_iff (p := q) (by omega) (by omega), pos_eq hr hK (by omega) hK' (by omega)]
    constructor
    · intro h
      obtain ⟨h1, h2, h3⟩ := zcell3_inj B hI hi hI' hi' hJ hJ' (loc_ok hK (by omega)) (loc_ok hK' (by omega)) h
      exact ⟨rfl, h1, h2, h3⟩
    · rintro ⟨-, ⟨rfl, rfl⟩, ⟨rfl, rfl⟩, e2⟩
      simp only [e2]

/-- C80, 3-forms. -/
theorem box_cells_right (B : Box3 ax ay az id lab) :
    ∃ gm total, number33 p q r (structured3 ax ay az id lab) = some (gm, total) ∧
      Right false (located3 ax ay az lab fun I J K => grid3 p q r fun i j k =>
        geo 0 (I * p + i) (J * q + j) (K * r + k)) gm total := by
  obtain ⟨gm, total, h, R⟩ := hex_cells_right (p := p) (q := q) (r := r) (structured3_labels B)
  refine ⟨gm, total, h, located3_transfer (idx := box 0 0 p 0 q 0 r)
    (F := fun I J K c => .inside (lab I J K) c)
    (G := fun I J K c => geo 0 (I * p + c.2.1) (J * q + c.2.2.1) (K * r + c.2.2.2)) R
    (fun I J K => by rw [box_map]; rfl) (fun I J K => by rw [box_map]) ?_⟩
  intro I hI J hJ K hK I' hI' J' hJ' K' hK' s hs s' hs'
  obtain ⟨i, j, k, rfl, hi, hj, hk⟩ := mem_box0.1 hs
  obtain ⟨i', j', k', rfl, hi', hj', hk'⟩ := mem_box0.1 hs'
  dsimp only
  rw [← same_false (x := geo _ _ _ _), same_geo, quot_iff hi hi', quot_iff hj hj', quot_iff hk hk']
  simp only [Place.inside.injEq, Prod.mk.injEq, true_and]
  constructor
  · rintro ⟨h, rfl, rfl, rfl⟩
    obtain ⟨rfl, rfl, rfl⟩ := B.labels _ _ _ _ _ _ hI hJ hK hI' hJ' hK' h
    simp
  · rintro ⟨⟨rfl, rfl⟩, ⟨rfl, rfl⟩, rfl, rfl⟩
    simp

end

/-! #### Concrete meshes -/

/-- A torus of two layers in each direction, and a bar that is periodic along its length only. -/
example : Box3 ⟨2, true⟩ ⟨2, true⟩ ⟨2, true⟩ (fun a b c => a + 2 * b + 4 * c) (fun a b c => a + 2 * b + 4 * c) := by
  refine ⟨by simp, by simp, by simp, ?_, ?_⟩ <;> intro a b c a' b' c' <;> simp [Axis.nodes] <;> omega

example : Box3 ⟨3, true⟩ ⟨1, false⟩ ⟨1, false⟩ (fun a b c => a + 3 * b + 6 * c) (fun a _ _ => a) := by
  refine ⟨by simp, by simp, by simp, ?_, ?_⟩ <;> intro a b c a' b' c' <;> simp [Axis.nodes] <;> omega

/-- The torus of two layers has `(2 p) (2 q) (2 r)` nodes and three times as many segments of degree 1. -/
example : (number30 false 1 2 1 (structured3 ⟨2, true⟩ ⟨2, true⟩ ⟨2, true⟩ (fun a b c => a + 2 * b + 4 * c)
      (fun a b c => a + 2 * b + 4 * c))).map Prod.snd = some 16 ∧
    (number31 false 1 1 1 (structured3 ⟨2, true⟩ ⟨2, true⟩ ⟨2, true⟩ (fun a b c => a + 2 * b + 4 * c)
      (fun a b c => a + 2 * b + 4 * c))).map Prod.snd = some 24 := by decide +kernel

/-- C80, refuted for a single periodic layer: all edges of the element have the same nodes, so all its segments
have the same number, whatever axis they are along. -/
theorem box_segments_right_refuted : ∃ gm total,
    number31 false 1 1 1 (structured3 ⟨1, true⟩ ⟨1, true⟩ ⟨1, true⟩ (fun _ _ _ => 0) (fun _ _ _ => 0)) = some (gm, total) ∧
      ¬ Right false (located3 ⟨1, true⟩ ⟨1, true⟩ ⟨1, true⟩ (fun _ _ _ => 0) fun I J K =>
        (grid3 1 (1 + 1) (1 + 1) fun i j k =>
          geo 0 (I * 1 + i) (Axis.pos ⟨1, true⟩ 1 J j) (Axis.pos ⟨1, true⟩ 1 K k)) ++
        (grid3 (1 + 1) 1 (1 + 1) fun i j k =>
          geo 1 (Axis.pos ⟨1, true⟩ 1 I i) (J * 1 + j) (Axis.pos ⟨1, true⟩ 1 K k)) ++
        (grid3 (1 + 1) (1 + 1) 1 fun i j k =>
          geo 2 (Axis.pos ⟨1, true⟩ 1 I i) (Axis.pos ⟨1, true⟩ 1 J j) (K * 1 + k))) gm total := by
  refine ⟨[(0, some [0, 0, 0, 0, 0, 0, 0, 0, 0, 0, 0, 0])], 1, by decide +kernel, fun R => ?_⟩
  have hm : (0, [geo 0 0 0 0, geo 0 0 0 0, geo 0 0 0 0, geo 0 0 0 0, geo 1 0 0 0, geo 1 0 0 0, geo 1 0 0 0, geo 1 0 0 0,
      geo 2 0 0 0, geo 2 0 0 0, geo 2 0 0 0, geo 2 0 0 0]) ∈ located3 ⟨1, true⟩ ⟨1, true⟩ ⟨1, true⟩ (fun _ _ _ => 0)
      fun I J K =>
        (grid3 1 (1 + 1) (1 + 1) fun i j k =>
          geo 0 (I * 1 + i) (Axis.pos ⟨1, true⟩ 1 J j) (Axis.pos ⟨1, true⟩ 1 K k)) ++
        (grid3 (1 + 1) 1 (1 + 1) fun i j k =>
          geo 1 (Axis.pos ⟨1, true⟩ 1 I i) (J * 1 + j) (Axis.pos ⟨1, true⟩ 1 K k)) ++
        (grid3 (1 + 1) (1 + 1) 1 fun i j k =>
          geo 2 (Axis.pos ⟨1, true⟩ 1 I i) (Axis.pos ⟨1, true⟩ 1 J j) (K * 1 + k)) := by decide +kernel
  have := (R.same 0 _ 0 _ _ _ hm hm (List.mem_singleton.2 rfl) (List.mem_singleton.2 rfl) 0 4 _ _ 0 0 rfl rfl rfl rfl).1 rfl
  revert this
  simp [Same, geo]

end Phyem.PoolGM
