import Verif.Boundary.Spec
import Verif.LocalDofs.Props
import Verif.Reduce.Pull

/-!
Assigning the vectors of the faces, and the geometry of the sides.
-/

namespace Phyem.Boundary

open Finset Phyem.Poly Phyem.Geometry Phyem.Recon Phyem.Reduce

/-! ### Assigning -/

lemma assign_length (old : List ℝ) (l : List ℕ) (v : List ℝ) : (assign old l v).length = old.length := by
  unfold assign
  generalize l.zip v = z
  induction z generalizing old with
  | nil => rfl
  | cons a z ih => rw [List.foldl_cons, ih, List.length_set]

lemma assign_at (g : ℕ → ℝ) (l : List ℕ) : ∀ (old : List ℝ) (d : ℕ), d < old.length →
    (assign old l (l.map g)).getD d 0 = if d ∈ l then g d else old.getD d 0 := by
  unfold assign
  induction l with
  | nil => intro old d _; simp
  | cons a l ih =>
    intro old d hd
    rw [List.map_cons, List.zip_cons_cons, List.foldl_cons, ih _ _ (by rwa [List.length_set])]
    by_cases h1 : d ∈ l
    · simp [h1]
    · by_cases h2 : d = a
      · subst h2
        simp [h1, List.getD_eq_getElem?_getD, List.getElem?_set_self hd]
      · simp [h1, h2, List.getD_eq_getElem?_getD, List.getElem?_set_ne (Ne.symm h2)]

/-- The value left at dof `d` by the faces `fs`, in this order. -/
def left (l : ℕ → List ℕ) (g : ℕ → ℕ → ℝ) (fs : List ℕ) (d : ℕ) : ℝ :=
  fs.foldl (fun x f => if d ∈ l f then g f d else x) 0

lemma facesOf_append (sec : List (ℕ × ℕ)) (ef : ℕ × ℕ) (k : ℕ) :
    facesOf (sec ++ [ef]) k = facesOf sec k ++ if ef.1 = k then [ef.2] else [] := by
  unfold facesOf
  rw [List.filter_append, List.map_append]
  congr 1
  by_cases h : ef.1 = k <;> simp [h]

lemma mem_facesOf {sec : List (ℕ × ℕ)} {k f : ℕ} : f ∈ facesOf sec k ↔ (k, f) ∈ sec := by
  simp only [facesOf, List.mem_map, List.mem_filter, decide_eq_true_eq]
  constructor
  · rintro ⟨⟨a, b⟩, ⟨h, rfl⟩, rfl⟩; exact h
  · intro h; exact ⟨(k, f), ⟨h, rfl⟩, rfl⟩

lemma facesOf_nodup {sec : List (ℕ × ℕ)} (h : sec.Nodup) (k : ℕ) : (facesOf sec k).Nodup := by
  refine List.Nodup.map_on ?_ (h.filter _)
  rintro ⟨a, b⟩ ha ⟨a', b'⟩ ha' e
  simp only [List.mem_filter, decide_eq_true_eq] at ha ha'
  exact Prod.ext (ha.2.trans ha'.2.symm) e

/-- The dictionary after all faces. -/
lemma bi_eq {face : ℕ → ℕ → Option (List ℕ × List ℝ)} {num : ℕ → ℕ} {l : ℕ → ℕ → List ℕ} {g : ℕ → ℕ → ℕ → ℝ}
    (sec : List (ℕ × ℕ)) (h : ∀ ef ∈ sec, face ef.1 ef.2 = some (l ef.1 ef.2, (l ef.1 ef.2).map (g ef.1 ef.2))) :
    ∃ data, bi face num sec = some data ∧ ∀ k, (facesOf sec k = [] → data k = none) ∧
      (facesOf sec k ≠ [] → ∃ a, data k = some a ∧ a.length = num k ∧
        ∀ d < num k, a.getD d 0 = left (l k) (g k) (facesOf sec k) d) := by
  induction sec using List.reverseRecOn with
  | nil => exact ⟨_, rfl, fun k => ⟨fun _ => rfl, fun h => absurd rfl h⟩⟩
  | append_singleton sec ef ih =>
    obtain ⟨data, e, hd⟩ := ih fun x hx => h x (by simp [hx])
    have hf := h ef (by simp)
    unfold bi at e ⊢
    rw [List.foldlM_append, e]
    simp only [Option.bind_eq_bind, Option.bind_some, List.foldlM_cons, List.foldlM_nil, hf]
    obtain ⟨h0, h1⟩ := hd ef.1
    have key : ∃ old, start (num ef.1) (data ef.1) = some old ∧ old.length = num ef.1 ∧
        ∀ d < num ef.1, old.getD d 0 = left (l ef.1) (g ef.1) (facesOf sec ef.1) d := by
      by_cases c : facesOf sec ef.1 = []
      · rw [h0 c]
        refine ⟨_, rfl, by simp, fun d hd => ?_⟩
        rw [c]
        simp [left, List.getD_eq_getElem?_getD, List.getElem?_replicate, hd]
      · obtain ⟨a, ha, la, va⟩ := h1 c
        rw [ha]
        exact ⟨a, by rw [start, if_pos la], la, va⟩
    obtain ⟨old, eo, lo, vo⟩ := key
    rw [eo]
    refine ⟨_, rfl, fun k => ?_⟩
    rw [facesOf_append]
    by_cases c : ef.1 = k
    · subst c
      simp only [if_true]
      refine ⟨fun h => by simp at h, fun _ => ⟨_, rfl, by rw [assign_length, lo], fun d hd => ?_⟩⟩
      rw [assign_at _ _ _ _ (by omega), vo d hd]
      simp [left, List.foldl_append]
    · rw [if_neg c, List.append_nil]
      dsimp only
      rw [if_neg (Ne.symm c)]
      exact hd k

/-- If no two faces share the dof, the values of the faces are added. -/
lemma left_sum {l : ℕ → List ℕ} {g : ℕ → ℕ → ℝ} {d : ℕ} {fs : List ℕ}
    (h : fs.Pairwise fun f f' => ¬ (d ∈ l f ∧ d ∈ l f')) :
    left l g fs d = (fs.map fun f => if d ∈ l f then g f d else 0).sum := by
  induction fs using List.reverseRecOn with
  | nil => rfl
  | append_singleton fs f ih =>
    rw [List.pairwise_append] at h
    obtain ⟨h1, -, h2⟩ := h
    have ih := ih h1
    unfold left at ih ⊢
    rw [List.foldl_append, List.map_append, List.sum_append, ← ih]
    simp only [List.foldl_cons, List.foldl_nil, List.map_cons, List.map_nil, List.sum_cons, List.sum_nil, add_zero]
    by_cases c : d ∈ l f
    · rw [if_pos c, if_pos c, ih]
      have : (fs.map fun f => if d ∈ l f then g f d else 0).sum = 0 := by
        refine List.sum_eq_zero fun x hx => ?_
        obtain ⟨f', hf', rfl⟩ := List.mem_map.1 hx
        rw [if_neg fun h' => h2 f' hf' f (by simp) ⟨h', c⟩]
      rw [this, zero_add]
    · rw [if_neg c, if_neg c, add_zero]

lemma sum_swap (fs : List ℕ) (N : ℕ) (F : ℕ → ℕ → ℝ) (c : ℕ → ℝ) :
    ∑ d ∈ range N, (fs.map fun f => F f d).sum * c d = (fs.map fun f => ∑ d ∈ range N, F f d * c d).sum := by
  induction fs with
  | nil => simp
  | cons f fs ih => simp only [List.map_cons, List.sum_cons, add_mul, sum_add_distrib, ih]

lemma zip_swap (N : ℕ) (A B : ℝ → ℝ) (T : ℝ → ℕ → ℝ) (c : ℕ → ℝ) : ∀ ts ws : List ℝ,
    ∑ d ∈ range N, (List.zipWith (fun t w => A t * T t d * w * B t) ts ws).sum * c d =
      (List.zipWith (fun t w => A t * (∑ d ∈ range N, T t d * c d) * w * B t) ts ws).sum := by
  intro ts
  induction ts with
  | nil => simp
  | cons t ts ih =>
    intro ws
    match ws with
    | [] => simp
    | w :: ws =>
      simp only [List.zipWith_cons_cons, List.sum_cons, add_mul, sum_add_distrib, ih, mul_sum, sum_mul]
      congr 1
      exact sum_congr rfl fun d _ => by ring

lemma zip_congr {A B : ℝ → ℝ → ℝ} : ∀ {ts : List ℝ} (ws : List ℝ), (∀ t ∈ ts, ∀ w, A t w = B t w) →
    (List.zipWith A ts ws).sum = (List.zipWith B ts ws).sum := by
  intro ts
  induction ts with
  | nil => intro ws _; simp
  | cons t ts ih =>
    intro ws h
    match ws with
    | [] => simp
    | w :: ws =>
      simp only [List.zipWith_cons_cons, List.sum_cons]
      rw [h t (by simp), ih ws fun t ht w => h t (by simp [ht]) w]

/-- The vectors of the faces of an element, if the traces of the dofs that are not on a face vanish there and no two faces share a
dof. -/
lemma element_sum {N : ℕ} {l : ℕ → List ℕ} {fs : List ℕ} {ts ws : List ℝ} {A B : ℕ → ℝ → ℝ} {T : ℕ → ℝ → ℕ → ℝ}
    (hd : ∀ d < N, fs.Pairwise fun f f' => ¬ (d ∈ l f ∧ d ∈ l f'))
    (hz : ∀ f ∈ fs, ∀ t ∈ ts, ∀ d < N, d ∉ l f → T f t d * B f t = 0) (c : ℕ → ℝ) :
    ∑ d ∈ range N, left l (fun f d => (List.zipWith (fun t w => A f t * T f t d * w * B f t) ts ws).sum) fs d * c d =
      (fs.map fun f => (List.zipWith (fun t w => A f t * (∑ d ∈ range N, T f t d * c d) * w * B f t) ts ws).sum).sum := by
  rw [sum_congr rfl fun d hd' => by rw [left_sum (hd d (mem_range.1 hd'))], sum_swap fs N (fun f d => if d ∈ l f then _ else 0) c]
  congr 1
  refine List.map_congr_left fun f hf => ?_
  rw [← zip_swap]
  refine sum_congr rfl fun d hd' => ?_
  by_cases h : d ∈ l f
  · rw [if_pos h]
  · rw [if_neg h]
    congr 1
    refine (List.sum_eq_zero fun x hx => ?_).symm
    obtain ⟨i, hi, rfl⟩ := List.mem_iff_getElem.1 hx
    rw [List.getElem_zipWith]
    have := hz f hf (ts[i]'(by simp at hi; omega)) (List.getElem_mem _) d (mem_range.1 hd') h
    linear_combination (A f (ts[i]'(by simp at hi; omega)) * ws[i]'(by simp at hi; omega)) * this

/-! ### Rows of the matrices of the reconstruction -/

lemma dot_append (a b : List ℝ) (o : ℕ) (c : ℕ → ℝ) : dot (a ++ b) o c = dot a o c + dot b (o + a.length) c := by
  induction a generalizing o with
  | nil => simp [Poly.dot]
  | cons x a ih =>
    rw [List.cons_append, Triangle.dot_cons, Triangle.dot_cons, ih]
    simp only [List.length_cons]
    rw [show o + 1 + a.length = o + (a.length + 1) by omega]
    ring

lemma row_sum {row : List ℝ} {N : ℕ} (h : row.length = N) (c : ℕ → ℝ) : ∑ d ∈ range N, row.getD d 0 * c d = dot row 0 c := by
  subst h
  simp only [Poly.dot, Nat.zero_add]
  generalize (fun i => row.getD i 0 * c i) = F
  induction row.length with
  | zero => simp
  | succ n ih => rw [sum_range_succ, ih, List.range_succ, List.map_append, List.sum_append]; simp

lemma rm21o_row {xs ys : List ℝ} {p q : ℕ} (px : xs.length = p + 1) (py : ys.length = q + 1) (iJ : ℕ → ℕ → ℝ) (x y : ℝ) (c : ℕ → ℝ) :
    let rm := Recon.rm21o iJ [kron (edges ys y) (nodes xs x), kron (nodes ys y) (edges xs x)]
    let v := push21o iJ (rec21o xs ys c x y)
    ∑ d ∈ range ((p + 1) * q + p * (q + 1)), entry rm 0 d * c d = v.1 ∧
      ∑ d ∈ range ((p + 1) * q + p * (q + 1)), entry rm 1 d * c d = v.2 := by
  have l0 := len21y xs ys px py x y
  have l1 := len21x xs ys px py x y
  constructor
  · simp only [entry, Recon.rm21o, List.getD_cons_zero, List.getD_cons_succ]
    rw [row_sum (by simp [scale_length, l0, l1]), dot_append, dot_scale, dot_scale, dot_neg, scale_length, l0]
    simp only [push21o, rec21o, n21o, px, py, Nat.add_sub_cancel, Nat.zero_add]
    ring
  · simp only [entry, Recon.rm21o, List.getD_cons_zero, List.getD_cons_succ]
    rw [row_sum (by simp [scale_length, l0, l1]), dot_append, dot_scale, dot_scale, dot_neg, scale_length, List.length_map, l0]
    simp only [push21o, rec21o, n21o, px, py, Nat.add_sub_cancel, Nat.zero_add]

lemma rm21i_row {xs ys : List ℝ} {p q : ℕ} (px : xs.length = p + 1) (py : ys.length = q + 1) (iJ : ℕ → ℕ → ℝ) (x y : ℝ) (c : ℕ → ℝ) :
    let rm := Recon.rm21i iJ [kron (nodes ys y) (edges xs x), kron (edges ys y) (nodes xs x)]
    let v := push21i iJ (rec21i xs ys c x y)
    ∑ d ∈ range ((p + 1) * q + p * (q + 1)), entry rm 0 d * c d = v.1 ∧
      ∑ d ∈ range ((p + 1) * q + p * (q + 1)), entry rm 1 d * c d = v.2 := by
  have l0 := len21y xs ys px py x y
  have l1 := len21x xs ys px py x y
  constructor
  · simp only [entry, Recon.rm21i, List.getD_cons_zero, List.getD_cons_succ]
    rw [row_sum (by simp [scale_length, l0, l1]; ring), dot_append, dot_scale, dot_scale, scale_length, l1]
    simp only [push21i, rec21i, n21i, px, py, Nat.add_sub_cancel, Nat.zero_add]
  · simp only [entry, Recon.rm21i, List.getD_cons_zero, List.getD_cons_succ]
    rw [row_sum (by simp [scale_length, l0, l1]; ring), dot_append, dot_scale, dot_scale, scale_length, l1]
    simp only [push21i, rec21i, n21i, px, py, Nat.add_sub_cancel, Nat.zero_add]

lemma rm20_row {xs ys : List ℝ} {p q : ℕ} (px : xs.length = p + 1) (py : ys.length = q + 1) (x y : ℝ) (c : ℕ → ℝ) :
    ∑ d ∈ range ((p + 1) * (q + 1)), entry (Recon.rm0 [kron (nodes ys y) (nodes xs x)]) 0 d * c d = rec20 xs ys c x y := by
  simp only [entry, Recon.rm0, List.getD_cons_zero]
  rw [row_sum (by rw [kron_length, nodes_length, nodes_length, px, py]; ring)]
  rfl

/-! ### The geometry of the sides -/

/-- The point of a face is that of `rm_nodes`. -/
lemma facePoint_eq {f : ℕ} (hf : f < 4) (t : ℝ) :
    (if f = 0 then (-1, t) else if f = 1 then (1, t) else if f = 2 then (t, -1) else (t, 1)) = facePoint2 f t := by
  have : f = 0 ∨ f = 1 ∨ f = 2 ∨ f = 3 := by omega
  rcases this with rfl | rfl | rfl | rfl <;> norm_num [facePoint2]

lemma facePoint_in {f : ℕ} {t : ℝ} (ht : t ∈ I) : (facePoint2 f t).1 ∈ I ∧ (facePoint2 f t).2 ∈ I := by
  have h1 : (1 : ℝ) ∈ I := ⟨by norm_num, le_refl _⟩
  have h2 : (-1 : ℝ) ∈ I := ⟨le_refl _, by norm_num⟩
  unfold facePoint2
  split_ifs <;> exact ⟨by assumption, by assumption⟩

variable {e : El} (h : Good e)

/-- The Jacobian matrix at a point of the reference square. -/
noncomputable abbrev El.M (e : El) (x y : ℝ) : ℕ → ℕ → ℝ := Geometry.at2 (e.J x y)

include h in
lemma fderiv_eq {x y : ℝ} (hx : x ∈ I) (hy : y ∈ I) :
    HasFDerivAt (fun P : ℝ × ℝ => e.Φ P.1 P.2) (lin2 (e.J x y)) (x, y) := by
  have h1 := ((h.elem.smooth x hx y hy).differentiableAt (by norm_num)).hasFDerivAt
  obtain ⟨j0, j1⟩ := h.elem.jac x hx y hy
  have key : lin2 (e.J x y) = fderiv ℝ (fun P : ℝ × ℝ => e.Φ P.1 P.2) (x, y) := by
    refine ContinuousLinearMap.ext fun u => ?_
    rw [lin2_apply, split2 (fderiv ℝ _ _) u, j0, j1]
    simp only [Prod.smul_mk, smul_eq_mul, Prod.mk_add_mk, Prod.mk.injEq]
    constructor <;> ring
  rwa [key]

include h in
lemma det_pos {x y : ℝ} (hx : x ∈ I) (hy : y ∈ I) : 0 < e.M x y 0 0 * e.M x y 1 1 - e.M x y 0 1 * e.M x y 1 0 := by
  have := h.pos x hx y hy
  obtain ⟨j0, j1⟩ := h.elem.jac x hx y hy
  simp only [tan2, j0, j1, cross2] at this
  simp only [El.M]
  linarith

/-- The tangent of a side. -/
noncomputable def El.tang (e : El) (f : ℕ) (t : ℝ) : ℝ × ℝ :=
  let M := e.M (facePoint2 f t).1 (facePoint2 f t).2
  if f < 2 then (M 0 1, M 1 1) else (M 0 0, M 1 0)

lemma faceJ_eq {f : ℕ} (hf : f < 4) (t : ℝ) : faceJ2 e.J f t = some (e.tang f t) := by
  have : f = 0 ∨ f = 1 ∨ f = 2 ∨ f = 3 := by omega
  rcases this with rfl | rfl | rfl | rfl <;> norm_num [faceJ2, El.tang]

lemma side_deriv (f : ℕ) (hf : f < 4) (t : ℝ) : HasDerivAt (facePoint2 f) (along2 f) t := by
  have : f = 0 ∨ f = 1 ∨ f = 2 ∨ f = 3 := by omega
  rcases this with rfl | rfl | rfl | rfl <;> simp only [along2] <;> norm_num
  · exact ((hasDerivAt_const t (-1 : ℝ)).prodMk (hasDerivAt_id t)).congr_of_eventuallyEq
      (Filter.Eventually.of_forall fun s => by norm_num [facePoint2])
  · exact ((hasDerivAt_const t (1 : ℝ)).prodMk (hasDerivAt_id t)).congr_of_eventuallyEq
      (Filter.Eventually.of_forall fun s => by norm_num [facePoint2])
  · exact ((hasDerivAt_id t).prodMk (hasDerivAt_const t (-1 : ℝ))).congr_of_eventuallyEq
      (Filter.Eventually.of_forall fun s => by norm_num [facePoint2])
  · exact ((hasDerivAt_id t).prodMk (hasDerivAt_const t (1 : ℝ))).congr_of_eventuallyEq
      (Filter.Eventually.of_forall fun s => by norm_num [facePoint2])

include h in
lemma len_eq {f : ℕ} (hf : f < 4) {t : ℝ} (ht : t ∈ I) : e.len f t = speed e.Φ f t := by
  obtain ⟨i0, i1⟩ := facePoint_in (f := f) ht
  have hF : HasFDerivAt (fun P : ℝ × ℝ => e.Φ P.1 P.2) (lin2 (e.J (facePoint2 f t).1 (facePoint2 f t).2)) (facePoint2 f t) :=
    fderiv_eq h i0 i1
  have d := HasFDerivAt.comp_hasDerivAt (f := facePoint2 f) t hF (side_deriv f hf t)
  have e1 : deriv (fun s => e.Φ (facePoint2 f s).1 (facePoint2 f s).2) t = e.tang f t := by
    refine d.deriv.trans ?_
    rw [lin2_apply]
    unfold along2 El.tang
    split_ifs <;> simp [El.M]
  unfold El.len speed
  rw [faceJ_eq hf, e1]
  rfl

lemma n_eq {f : ℕ} (hf : f < 4) (t : ℝ) :
    e.n f t = normalise2 (if f = 0 ∨ f = 3 then (-(e.tang f t).2, (e.tang f t).1) else ((e.tang f t).2, -(e.tang f t).1)) := by
  unfold El.n normal2
  rw [faceJ_eq hf]
  have : f = 0 ∨ f = 1 ∨ f = 2 ∨ f = 3 := by omega
  rcases this with rfl | rfl | rfl | rfl <;> norm_num

include h in
lemma normals : Normals e.Φ e.n := by
  intro f hf t ht
  obtain ⟨i0, i1⟩ := facePoint_in (f := f) ht
  rw [n_eq hf]
  have dp := det_pos h i0 i1
  refine outward2_normalise (fderiv_eq h i0 i1) ?_ ?_ <;> rw [lin2_apply]
  · have : f = 0 ∨ f = 1 ∨ f = 2 ∨ f = 3 := by omega
    rcases this with rfl | rfl | rfl | rfl <;> norm_num [along2, El.tang, Geometry.dot2, El.M] <;> ring
  · have : f = 0 ∨ f = 1 ∨ f = 2 ∨ f = 3 := by omega
    rcases this with rfl | rfl | rfl | rfl <;> norm_num [out2, El.tang, Geometry.dot2, El.M] at dp ⊢ <;> linarith

include h in
lemma tang_ne {f : ℕ} {t : ℝ} (ht : t ∈ I) : 0 < (e.tang f t).1 ^ 2 + (e.tang f t).2 ^ 2 := by
  obtain ⟨i0, i1⟩ := facePoint_in (f := f) ht
  have dp := det_pos h i0 i1
  unfold El.tang
  by_contra hc
  have h1 : (e.tang f t).1 = 0 ∧ (e.tang f t).2 = 0 := by
    unfold El.tang
    constructor <;> nlinarith
  unfold El.tang at h1
  split_ifs at h1 <;> simp only at h1 <;> rw [h1.1, h1.2] at dp <;> simp at dp

/-- Two vectors of length one perpendicular to a third one that is not zero are the same or opposite. -/
lemma perp_unit {T v v' : ℝ × ℝ} (hT : 0 < T.1 ^ 2 + T.2 ^ 2) (h : Geometry.dot2 v v = 1) (h' : Geometry.dot2 v' v' = 1)
    (o : Geometry.dot2 T v = 0) (o' : Geometry.dot2 T v' = 0) : v' = v ∨ v' = -v := by
  simp only [Geometry.dot2] at h h' o o'
  have key : v.1 * v'.2 = v.2 * v'.1 := by
    have h1 : T.1 * (v.1 * v'.2 - v.2 * v'.1) = 0 := by linear_combination v'.2 * o - v.2 * o'
    have h2 : T.2 * (v.1 * v'.2 - v.2 * v'.1) = 0 := by linear_combination v.1 * o' - v'.1 * o
    have h3 : (T.1 ^ 2 + T.2 ^ 2) * (v.1 * v'.2 - v.2 * v'.1) = 0 := by linear_combination T.1 * h1 + T.2 * h2
    rcases mul_eq_zero.1 h3 with h4 | h4 <;> linarith
  have sq : (v.1 * v'.1 + v.2 * v'.2) ^ 2 = 1 := by
    linear_combination (v'.1 * v'.1 + v'.2 * v'.2) * h + h' - (v.1 * v'.2 - v.2 * v'.1) * key
  have hs : v.1 * v'.1 + v.2 * v'.2 = 1 ∨ v.1 * v'.1 + v.2 * v'.2 = -1 := by
    have : (v.1 * v'.1 + v.2 * v'.2 - 1) * (v.1 * v'.1 + v.2 * v'.2 + 1) = 0 := by linear_combination sq
    rcases mul_eq_zero.1 this with h5 | h5
    · left; linarith
    · right; linarith
  rcases hs with s | s
  · left
    refine Prod.ext ?_ ?_
    · linear_combination v.1 * s - v'.1 * h - v.2 * key
    · linear_combination v.2 * s - v'.2 * h + v.1 * key
  · right
    refine Prod.ext ?_ ?_
    · simp only [Prod.fst_neg]; linear_combination v.1 * s - v'.1 * h - v.2 * key
    · simp only [Prod.snd_neg]; linear_combination v.2 * s - v'.2 * h + v.1 * key

include h in
/-- There is only one outward unit normal vector. -/
lemma normals_unique {n : ℕ → ℝ → ℝ × ℝ} (hn : Normals e.Φ n) {f : ℕ} (hf : f < 4) {t : ℝ} (ht : t ∈ I) : n f t = e.n f t := by
  have a := hn f hf t ht
  have b := normals h f hf t ht
  obtain ⟨i0, i1⟩ := facePoint_in (f := f) ht
  have hF : HasFDerivAt (fun P : ℝ × ℝ => e.Φ P.1 P.2) (lin2 (e.J (facePoint2 f t).1 (facePoint2 f t).2)) (facePoint2 f t) :=
    fderiv_eq h i0 i1
  have hT : lin2 (e.J (facePoint2 f t).1 (facePoint2 f t).2) (along2 f) = e.tang f t := by
    rw [lin2_apply]
    unfold along2 El.tang
    split_ifs <;> simp [El.M]
  have per : ∀ v, OutwardUnitNormal2 (fun P => e.Φ P.1 P.2) (facePoint2 f t) (along2 f) (out2 f) v →
      Geometry.dot2 (e.tang f t) v = 0 := fun v hv => by
    have hd := moving hF (v.1 • ContinuousLinearMap.fst ℝ ℝ ℝ + v.2 • ContinuousLinearMap.snd ℝ ℝ ℝ) (along2 f)
    have hu := hd.unique (hv.perp.congr_of_eventuallyEq (Filter.Eventually.of_forall fun s => by
      simp [Geometry.dot2, mul_comm]))
    rw [hT] at hu
    simpa [Geometry.dot2, mul_comm] using hu
  rcases perp_unit (tang_ne h ht) b.unit a.unit (per _ b) (per _ a) with hc | hc
  · exact hc
  · exfalso
    have := (a.outward.and b.outward).exists
    obtain ⟨s, s1, s2⟩ := this
    rw [hc] at s1
    simp only [Geometry.dot2, Prod.fst_neg, Prod.snd_neg] at s1 s2
    linarith

/-- The outward direction of a side, as a sign. -/
def sgn (f : ℕ) : ℝ := if f % 2 = 0 then -1 else 1

include h in
/-- The flux through a side: its component in the reference element. -/
lemma flux_side {f : ℕ} (hf : f < 4) {t : ℝ} (ht : t ∈ I) (u : ℝ × ℝ) :
    let P := facePoint2 f t
    let v := push21o (e.iJ P.1 P.2) u
    (v.1 * (e.n f t).1 + v.2 * (e.n f t).2) * e.len f t = sgn f * (if f < 2 then u.1 else u.2) := by
  obtain ⟨i0, i1⟩ := facePoint_in (f := f) ht
  obtain ⟨o0, o1⟩ := outer_flux (h.inv _ i0 _ i1) u
  have tp := tang_ne h (f := f) ht
  have hs := Real.sqrt_pos.2 tp
  dsimp only
  rw [n_eq hf]
  unfold El.len
  rw [faceJ_eq hf]
  simp only [Option.getD_some]
  have : f = 0 ∨ f = 1 ∨ f = 2 ∨ f = 3 := by omega
  rcases this with rfl | rfl | rfl | rfl <;> norm_num [normalise2, sgn] <;>
    norm_num at tp hs <;> rw [add_comm ((e.tang _ _).2 ^ 2)] <;> field_simp <;> norm_num [El.tang, El.M] <;> norm_num at o0 o1 <;>
    linarith

include h in
/-- The circulation along a side. -/
lemma circ_side {f : ℕ} (hf : f < 4) {t : ℝ} (ht : t ∈ I) (u : ℝ × ℝ) :
    let P := facePoint2 f t
    let v := push21i (e.iJ P.1 P.2) u
    (v.1 * (e.n f t).2 - v.2 * (e.n f t).1) * e.len f t = (if f = 0 ∨ f = 3 then 1 else -1) * (if f < 2 then u.2 else u.1) := by
  obtain ⟨i0, i1⟩ := facePoint_in (f := f) ht
  obtain ⟨o0, o1⟩ := inner_covariant (h.inv _ i0 _ i1) u
  have tp := tang_ne h (f := f) ht
  have hs := Real.sqrt_pos.2 tp
  dsimp only
  rw [n_eq hf]
  unfold El.len
  rw [faceJ_eq hf]
  simp only [Option.getD_some]
  have : f = 0 ∨ f = 1 ∨ f = 2 ∨ f = 3 := by omega
  rcases this with rfl | rfl | rfl | rfl <;> norm_num [normalise2] <;>
    norm_num at tp hs <;> rw [add_comm ((e.tang _ _).2 ^ 2)] <;> field_simp <;> norm_num [El.tang, El.M] <;> norm_num at o0 o1 <;>
    linarith

end Phyem.Boundary
