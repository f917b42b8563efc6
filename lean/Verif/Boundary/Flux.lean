import Verif.Boundary.Props
import Verif.Reduce.Exact

/-!
C123: the flux of an outer 1-form over a boundary section.
-/

namespace Phyem.Boundary

open Finset Phyem.Poly Phyem.Geometry Phyem.Recon Phyem.Reduce Phyem.Numbering Phyem.LocalDofs Phyem.Incidence

variable {e : El} (h : Good e) {ts ws : List ℝ}

lemma nodup_of {p : ℕ} {xs : List ℝ} (h : RefNodes p xs) : xs.Nodup := h.incr.imp ne_of_lt

/-- A rule that is exact gives one for each edge function. -/
lemma edge_total {p n : ℕ} {xs : List ℝ} (h : RefNodes p xs) (hq : ExactTo n ts ws) (hp : p ≤ n + 1) {i : ℕ} (hi : i < p) :
    (List.zipWith (fun t w => w * edge xs i t) ts ws).sum = 1 := by
  have nd := nodup_of h
  have hl := h.len
  have e : ∀ x, edge xs i x = (-∑ j ∈ Finset.range (i + 1), Polynomial.derivative (L xs j)).eval x := fun x => by
    rw [edge_eq nd (by omega), Polynomial.eval_neg, Polynomial.eval_finsetSum]
  have hF : ∀ x, HasDerivAt (fun t => -∑ j ∈ range (i + 1), lagrange xs j t) (edge xs i x) x := by
    intro x
    rw [edge_eq nd (by omega)]
    exact (HasDerivAt.fun_sum fun j _ => hasDerivAt_lagrange j x).neg
  have hint : ∫ t in (-1 : ℝ)..1, edge xs i t = 1 := by
    rw [intervalIntegral.integral_eq_sub_of_hasDerivAt (fun x _ => hF x)]
    · have ev : ∀ m < xs.length, ∑ j ∈ range (i + 1), lagrange xs j (node xs m) = if m ≤ i then (1 : ℝ) else 0 := by
        intro m hm
        rw [sum_congr rfl fun j hj => lagrange_node nd (by rw [mem_range] at hj; omega) hm]
        unfold unit
        rw [sum_ite_eq']
        simp only [mem_range, Nat.lt_succ_iff]
      have a := ev p (by omega)
      have b := ev 0 (by omega)
      rw [h.last, if_neg (by omega)] at a
      rw [h.first, if_pos (by omega)] at b
      rw [a, b]
      norm_num
    · exact (continuous_edge nd (by omega)).intervalIntegrable _ _
  rw [← hint]
  simp_rw [e]
  refine zip_poly hq _ ?_
  rw [Polynomial.natDegree_neg]
  refine Polynomial.natDegree_sum_le_of_forall_le _ _ fun j hj => ?_
  rw [Finset.mem_range] at hj
  refine le_trans (Polynomial.natDegree_derivative_le _) ?_
  have : (L xs j).natDegree = xs.length - 1 := by
    rw [L, Lagrange.natDegree_basis (Distinct.injOn nd) (Finset.mem_range.2 (by omega)), Finset.card_range]
  omega

lemma onFace_eq (e : El) (c : List ℝ) {f : ℕ} (hf : f < 4) : onFace e c f =
    if f < 2 then ∑ j ∈ range e.q, fn c (snum (ln21o e.p e.q) (0, if f = 0 then 0 else e.p, j, 0))
    else ∑ i ∈ range e.p, fn c (snum (ln21o e.p e.q) (1, i, if f = 2 then 0 else e.q, 0)) := by
  have : f = 0 ∨ f = 1 ∨ f = 2 ∨ f = 3 := by omega
  rcases this with rfl | rfl | rfl | rfl <;>
    simp [onFace, Reversal.faceDofs, Reversal.rowAt, Reversal.colAt, Reversal.dyO, Reversal.dxO, snum, ln21o, fn] <;> rfl

include h in
/-- The component of the reconstruction across a side is made of the dofs of the side. -/
lemma trace_eq {f : ℕ} (hf : f < 4) (c : ℕ → ℝ) (t : ℝ) :
    (if f < 2 then (rec21o e.xs e.ys c (facePoint2 f t).1 (facePoint2 f t).2).1
      else (rec21o e.xs e.ys c (facePoint2 f t).1 (facePoint2 f t).2).2) =
    if f < 2 then ∑ j ∈ range e.q, edge e.ys j t * c (snum (ln21o e.p e.q) (0, if f = 0 then 0 else e.p, j, 0))
    else ∑ i ∈ range e.p, edge e.xs i t * c (snum (ln21o e.p e.q) (1, i, if f = 2 then 0 else e.q, 0)) := by
  have nx := nodup_of h.hx
  have ny := nodup_of h.hy
  have lx := h.hx.len
  have ly := h.hy.len
  have X : ∀ m < e.p + 1, ∀ (g : ℕ → ℕ → ℝ), T2 (fun i => lagrange e.xs i (node e.xs m)) (fun j => edge e.ys j t) e.xs.length
      (e.ys.length - 1) g = ∑ j ∈ range e.q, edge e.ys j t * g m j := fun m hm g => by
    unfold T2
    rw [lx, ly, Nat.add_sub_cancel]
    refine sum_congr rfl fun j _ => ?_
    rw [sum_eq_single m]
    · dsimp only; rw [lagrange_node nx (by omega) (by omega)]; simp [unit]
    · intro b hb' hb; dsimp only; rw [lagrange_node nx (by rw [mem_range] at hb'; omega) (by omega)]; simp [unit, hb]
    · intro hn; exact absurd (mem_range.2 hm) hn
  have Y : ∀ m < e.q + 1, ∀ (g : ℕ → ℕ → ℝ), T2 (fun i => edge e.xs i t) (fun j => lagrange e.ys j (node e.ys m)) (e.xs.length - 1)
      e.ys.length g = ∑ i ∈ range e.p, edge e.xs i t * g i m := fun m hm g => by
    unfold T2
    rw [lx, ly, Nat.add_sub_cancel]
    rw [sum_eq_single m]
    · refine sum_congr rfl fun i _ => ?_
      dsimp only; rw [lagrange_node ny (by omega) (by omega)]; simp [unit]
    · intro b hb' hb
      refine sum_eq_zero fun i _ => ?_
      dsimp only; rw [lagrange_node ny (by rw [mem_range] at hb'; omega) (by omega)]; simp [unit, hb]
    · intro hn; exact absurd (mem_range.2 hm) hn
  have x0 := X 0 (by omega)
  have x1 := X e.p (by omega)
  have y0 := Y 0 (by omega)
  have y1 := Y e.q (by omega)
  rw [h.hx.first] at x0
  rw [h.hx.last] at x1
  rw [h.hy.first] at y0
  rw [h.hy.last] at y1
  rw [rec21o_0 e.xs e.ys lx ly, rec21o_1 e.xs e.ys lx ly]
  have : f = 0 ∨ f = 1 ∨ f = 2 ∨ f = 3 := by omega
  rcases this with rfl | rfl | rfl | rfl <;> norm_num [facePoint2]
  · rw [x0]
  · rw [x1]
  · rw [y0]
  · rw [y1]

lemma mapM_some' {α β : Type} {f : α → Option β} {g : α → β} : ∀ {l : List α}, (∀ a ∈ l, f a = some (g a)) → l.mapM f = some (l.map g)
  | [], _ => rfl
  | a :: l, hl => by
    rw [List.mapM_cons, hl a (by simp), mapM_some' fun b hb => hl b (by simp [hb])]
    rfl

include h in
/-- The flux over a face is the quadrature of `v · n`. -/
lemma faceFlux_eq {f : ℕ} (hf : f < 4) (ht : ∀ t ∈ ts, t ∈ I) {c : List ℝ} (hc : c.length = e.num1) :
    faceFlux ts ws e c f = some (sideRule ts ws e.Φ e.n (fun P m => Reduce.dot2 (e.v1o (fn c) P) m) f) := by
  unfold faceFlux
  rw [if_pos hf]
  rw [mapM_some' (g := fun t => (Reduce.dot2 (e.v1o (fn c) (facePoint2 f t)) (e.n f t), e.len f t)) ?_, Option.map_some]
  · congr 1
    unfold sideRule
    rw [List.zipWith_map_left]
    refine zip_congr _ fun t hq w => ?_
    rw [len_eq h hf (ht t hq)]
    ring
  · intro t hq
    dsimp only
    rw [facePoint_eq hf]
    obtain ⟨r, -⟩ := recon21o h.hx.len h.hy.len c hc (e.iJ (facePoint2 f t).1 (facePoint2 f t).2) false false (by simp) (by simp)
      (facePoint2 f t).1 (facePoint2 f t).2
    rw [Mass.bf21o] at r
    rw [r, Option.map_some]
    simp [Reduce.dot2, El.v1o, mul_comm]

include h in
/-- **C123**: the flux of an outer 1-form through a face is the sum of its dofs on this face, with the sign of the direction the face
is left in: whatever the mapping of the element; as soon as the rule is exact for polynomials of the degrees of the form minus one. -/
theorem face_flux {f n : ℕ} (ht : ∀ t ∈ ts, t ∈ I) (hq : ExactTo n ts ws) (hp : e.p ≤ n + 1) (hp' : e.q ≤ n + 1)
    {c : List ℝ} (hc : c.length = e.num1) {l : List ℕ} (hl : Reversal.faceDofs .quad .outer e.p e.q f = some l) :
    faceFlux ts ws e c f = some ((if f = 0 ∨ f = 2 then -1 else 1) * (l.map fun d => c.getD d 0).sum) := by
  have hf := faces_lt hl
  rw [faceFlux_eq h hf ht hc]
  congr 1
  have h1 : sideRule ts ws e.Φ e.n (fun P m => Reduce.dot2 (e.v1o (fn c) P) m) f =
      (List.zipWith (fun t w => w * ((if f < 2 then (rec21o e.xs e.ys (fn c) (facePoint2 f t).1 (facePoint2 f t).2).1
        else (rec21o e.xs e.ys (fn c) (facePoint2 f t).1 (facePoint2 f t).2).2) * sgn f)) ts ws).sum := by
    refine zip_congr _ fun t hq w => ?_
    have := flux_side h hf (ht t hq) (rec21o e.xs e.ys (fn c) (facePoint2 f t).1 (facePoint2 f t).2)
    dsimp only at this
    rw [← len_eq h hf (ht t hq)]
    simp only [Reduce.dot2, El.v1o]
    rw [this]
    ring
  have h2 : (if f = 0 ∨ f = 2 then -1 else 1) = sgn f := by
    unfold sgn
    congr 1
    simp only [eq_iff_iff]
    omega
  have h3 := onFace_eq e c hf
  unfold onFace at h3
  rw [hl, Option.getD_some] at h3
  rw [h1, zip_mul, h2, h3, mul_comm]
  congr 1
  rw [zip_congr (B := fun t w => w * _) ws fun t _ w => by rw [trace_eq h hf]]
  by_cases h4 : f < 2
  · simp only [if_pos h4]
    rw [Reduce.zip_sum]
    refine sum_congr rfl fun j hj => ?_
    rw [zip_mul, edge_total h.hy hq hp' (mem_range.1 hj), one_mul]
  · simp only [if_neg h4]
    rw [Reduce.zip_sum]
    refine sum_congr rfl fun j hj => ?_
    rw [zip_mul, edge_total h.hx hq hp (mem_range.1 hj), one_mul]

include h in
lemma face_flux' {f n : ℕ} (hf : f < 4) (ht : ∀ t ∈ ts, t ∈ I) (hq : ExactTo n ts ws) (hp : e.p ≤ n + 1) (hp' : e.q ≤ n + 1)
    {c : List ℝ} (hc : c.length = e.num1) : faceFlux ts ws e c f = some (out f * onFace e c f) := by
  obtain ⟨l, hl⟩ := Option.isSome_iff_exists.1 ((outer_find hf e.p e.q).symm ▸
    (found (r := 0)).2.2.2.1.2 ⟨by omega, by omega⟩)
  rw [face_flux h ht hq hp hp' hc hl]
  unfold out onFace
  rw [hl, Option.getD_some]

/-- **C123**: the flux is the sum over all faces of the section, however they are distributed over the ranks. -/
theorem flux_sum {els : ℕ → El} {c : ℕ → List ℝ} {n : ℕ} (ht : ∀ t ∈ ts, t ∈ I) (hq : ExactTo n ts ws) {ranks : List (List (ℕ × ℕ))}
    (hs : Fits els c n ranks.flatten) :
    flux ts ws els c ranks = some ((ranks.flatten.map fun ef => out ef.2 * onFace (els ef.1) (c ef.1) ef.2).sum) := by
  unfold flux
  rw [mapM_some' (g := fun sec => (sec.map fun ef => out ef.2 * onFace (els ef.1) (c ef.1) ef.2).sum) ?_, Option.map_some]
  · rw [List.map_flatten, List.sum_flatten, List.map_map]
    rfl
  · intro sec hsec
    have hm : ∀ ef ∈ sec, ef ∈ ranks.flatten := fun ef hef => List.mem_flatten.2 ⟨sec, hsec, hef⟩
    rw [mapM_some' (g := fun ef => out ef.2 * onFace (els ef.1) (c ef.1) ef.2) fun ef hef =>
      face_flux' (hs.good ef (hm ef hef)) (hs.face ef (hm ef hef)) ht hq (hs.degx ef (hm ef hef)) (hs.degy ef (hm ef hef))
        (hs.len ef (hm ef hef)), Option.map_some]

lemma mapM_none' {α β : Type} {f : α → Option β} {a : α} : ∀ {l : List α}, a ∈ l → f a = none → l.mapM f = none
  | b :: l, hl, hf => by
    rw [List.mapM_cons]
    rcases List.mem_cons.1 hl with rfl | h'
    · rw [hf]; rfl
    · rw [mapM_none' h' hf]
      cases f b <;> rfl

/-- **C123**: a face number an element has not, or a cochain of another length, is refused. -/
theorem flux_refuses {els : ℕ → El} {c : ℕ → List ℝ} (hts : ts ≠ []) {ranks : List (List (ℕ × ℕ))}
    (h : ∃ ef ∈ ranks.flatten, 4 ≤ ef.2 ∨ Good (els ef.1) ∧ (c ef.1).length ≠ (els ef.1).num1) : flux ts ws els c ranks = none := by
  obtain ⟨ef, hef, h⟩ := h
  obtain ⟨sec, hsec, hef⟩ := List.mem_flatten.1 hef
  have key : faceFlux ts ws (els ef.1) (c ef.1) ef.2 = none := by
    unfold faceFlux
    by_cases hf : ef.2 < 4
    · rw [if_pos hf]
      rcases h with h | ⟨hg, h⟩
      · omega
      · obtain ⟨t, ht⟩ := List.exists_mem_of_ne_nil ts hts
        rw [mapM_none' ht]
        · rfl
        · dsimp only
          rw [facePoint_eq hf]
          obtain ⟨r, -⟩ := recon21o_refuses hg.hx.len hg.hy.len (c ef.1) h
            ((els ef.1).iJ (facePoint2 ef.2 t).1 (facePoint2 ef.2 t).2) false false (facePoint2 ef.2 t).1 (facePoint2 ef.2 t).2
          rw [Mass.bf21o] at r
          rw [r]; rfl
    · rw [if_neg hf]
  unfold flux
  rw [mapM_none' hsec]
  · rfl
  · rw [mapM_none' hef key]; rfl

lemma divSum_eq (e : El) (c : List ℝ) : divSum e c = ∑ f ∈ range 4, out f * onFace e c f := by
  unfold divSum
  have h1 : ∑ m ∈ range (nd22 e.p e.q), app (nd21 e.p e.q) (E21o e.p e.q) (fn c) m =
      ∑ j ∈ range e.q, ∑ i ∈ range e.p, app (nd21 e.p e.q) (E21o e.p e.q) (fn c) (snum (ln22 e.p e.q) (0, i, j, 0)) := by
    have key : ∀ (g : ℕ → ℝ) (q : ℕ), ∑ m ∈ range (e.p * q), g m = ∑ j ∈ range q, ∑ i ∈ range e.p, g (i + e.p * j) := by
      intro g q
      induction q with
      | zero => simp
      | succ q ih =>
        rw [Nat.mul_succ, sum_range_add, ih, sum_range_succ]
        congr 1
        exact sum_congr rfl fun i _ => by rw [add_comm]
    rw [show nd22 e.p e.q = e.p * e.q by simp [nd22], key]
    refine sum_congr rfl fun j _ => sum_congr rfl fun i _ => ?_
    simp [snum, ln22, Comp.num]
  rw [show (fun i => c.getD i 0) = fn c from rfl, h1, sum_congr rfl fun j hj => sum_congr rfl fun i hi =>
    (outer2_differences e.p e.q (fn c)).2.2 i j (mem_range.1 hi) (mem_range.1 hj)]
  simp only [sum_add_distrib]
  rw [sum_congr rfl fun j _ => sum_range_sub (fun i => fn c (snum (ln21o e.p e.q) (0, i, j, 0))) e.p]
  rw [sum_comm (s := range e.q), sum_congr (s₁ := range e.p) rfl fun i _ =>
    sum_range_sub (fun j => fn c (snum (ln21o e.p e.q) (1, i, j, 0))) e.q]
  rw [sum_range_succ, sum_range_succ, sum_range_succ, sum_range_one, onFace_eq e c (by norm_num : 0 < 4),
    onFace_eq e c (by norm_num : 1 < 4), onFace_eq e c (by norm_num : 2 < 4), onFace_eq e c (by norm_num : 3 < 4)]
  norm_num [out]
  ring

/-- **C123, the divergence theorem**: `ks` are the elements of a mesh, the section is made of faces of them, and the other faces are
paired: what leaves an element through a face enters another one. Then the flux over the section is the sum of all dofs of the
divergence of the form. -/
theorem flux_divergence {els : ℕ → El} {c : ℕ → List ℝ} {n : ℕ} (ht : ∀ t ∈ ts, t ∈ I) (hq : ExactTo n ts ws)
    {ranks : List (List (ℕ × ℕ))} (hs : Fits els c n ranks.flatten) (hn : ranks.flatten.Nodup) (ks : Finset ℕ)
    (hk : ∀ ef ∈ ranks.flatten, ef.1 ∈ ks) (other : ℕ × ℕ → ℕ × ℕ)
    (ho : ∀ k ∈ ks, ∀ f < 4, (k, f) ∉ ranks.flatten → (other (k, f)).1 ∈ ks ∧ (other (k, f)).2 < 4 ∧ other (k, f) ∉ ranks.flatten ∧
      other (k, f) ≠ (k, f) ∧ other (other (k, f)) = (k, f) ∧
      out f * onFace (els k) (c k) f = -(out (other (k, f)).2 * onFace (els (other (k, f)).1) (c (other (k, f)).1) (other (k, f)).2)) :
    flux ts ws els c ranks = some (∑ k ∈ ks, divSum (els k) (c k)) := by
  rw [flux_sum ht hq hs]
  congr 1
  let g : ℕ × ℕ → ℝ := fun ef => out ef.2 * onFace (els ef.1) (c ef.1) ef.2
  rw [sum_congr rfl fun k _ => divSum_eq (els k) (c k), ← sum_product' ks (range 4) (fun k f => g (k, f))]
  rw [← List.sum_toFinset _ hn]
  have sub : ranks.flatten.toFinset ⊆ ks ×ˢ range 4 := fun ef hef => by
    rw [List.mem_toFinset] at hef
    exact mem_product.2 ⟨hk ef hef, mem_range.2 (hs.face ef hef)⟩
  rw [← sum_sdiff sub]
  have zero : ∑ ef ∈ (ks ×ˢ range 4) \ ranks.flatten.toFinset, g ef = 0 := by
    have inv : ∀ ef ∈ (ks ×ˢ range 4) \ ranks.flatten.toFinset, _ := fun ef hef => by
      rw [mem_sdiff, mem_product, mem_range, List.mem_toFinset] at hef
      exact ho ef.1 hef.1.1 ef.2 hef.1.2 hef.2
    refine sum_involution (fun ef _ => other ef) (fun ef hef => ?_) (fun ef hef _ => (inv ef hef).2.2.2.1) (fun ef hef => ?_)
      (fun ef hef => (inv ef hef).2.2.2.2.1)
    · have := (inv ef hef).2.2.2.2.2
      change g ef = -g (other ef) at this
      rw [this]
      ring
    · rw [mem_sdiff, mem_product, mem_range, List.mem_toFinset]
      exact ⟨⟨(inv ef hef).1, (inv ef hef).2.1⟩, (inv ef hef).2.2.1⟩
  rw [zero, zero_add]

end Phyem.Boundary
