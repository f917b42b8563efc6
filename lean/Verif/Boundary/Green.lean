import Verif.Boundary.Props
import Verif.Reduce.Commute2
import Verif.Norms.Change

/-!
C122: the boundary integral over the whole boundary of an element is the term of the integration by parts.
-/

namespace Phyem.Boundary

open Finset Phyem.Poly Phyem.Geometry Phyem.Recon Phyem.Reduce Phyem.Norms

variable {e : El} (h : Good e)

include h in
/-- A normal component times the length is the component across the tangent. -/
lemma normal_len {f : ℕ} (hf : f < 4) {t : ℝ} (ht : t ∈ I) (w : ℝ × ℝ) :
    Reduce.dot2 w (e.n f t) * e.len f t = (if f = 0 ∨ f = 3 then -1 else 1) * cross2 w (e.tang f t) := by
  have tp := tang_ne h (f := f) ht
  have hs := Real.sqrt_pos.2 tp
  rw [n_eq hf]
  unfold El.len
  rw [faceJ_eq hf]
  simp only [Option.getD_some]
  have : f = 0 ∨ f = 1 ∨ f = 2 ∨ f = 3 := by omega
  rcases this with rfl | rfl | rfl | rfl <;> norm_num [normalise2, Reduce.dot2, cross2] <;>
    norm_num at tp hs <;> rw [add_comm ((e.tang _ _).2 ^ 2)] <;> field_simp <;> ring

include h in
lemma tang_eq {f : ℕ} {t : ℝ} (ht : t ∈ I) :
    e.tang f t = tan2 e.Φ (facePoint2 f t).1 (facePoint2 f t).2 (if f < 2 then (0, 1) else (1, 0)) := by
  obtain ⟨i0, i1⟩ := facePoint_in (f := f) ht
  obtain ⟨j0, j1⟩ := h.elem.jac _ i0 _ i1
  unfold El.tang tan2
  split_ifs
  · exact j1.symm
  · exact j0.symm

include h in
/-- The divergence theorem on an element. -/
lemma divergence (hinj : Set.InjOn (fun P : ℝ × ℝ => e.Φ P.1 P.2) O2) {w : ℝ × ℝ → ℝ × ℝ} (hw : SmoothOn2 e.Φ w) :
    ∑ f ∈ range 4, sideInt e.Φ e.n (fun P m => Reduce.dot2 (w (e.Φ P.1 P.2)) m) f = ∫ P in Region2 e.Φ, Reduce.div2 w P := by
  have h1 : (1 : ℝ) ∈ I := ⟨by norm_num, le_refl _⟩
  have h2 : (-1 : ℝ) ∈ I := ⟨le_refl _, by norm_num⟩
  have sub : ∀ {x : ℝ}, x ∈ Set.Ioo (-1 : ℝ) 1 → x ∈ I := fun hx => ⟨hx.1.le, hx.2.le⟩
  have chart : Chart2 e.Φ (fun x y => Geometry.at2 (e.J x y)) :=
    ⟨fun x hx y hy => (h.elem.smooth x (sub hx) y (sub hy)).differentiableAt (by norm_num),
      fun x hx y hy => h.elem.jac x (sub hx) y (sub hy), hinj,
      fun x hx y hy => (det_pos h (sub hx) (sub hy)).le⟩
  have sub' : ∀ {x : ℝ}, x ∈ Set.uIcc (-1 : ℝ) 1 → x ∈ I := fun hx => by
    rwa [Set.uIcc_of_le (by norm_num)] at hx
  have G := green_sides (A := fun P : ℝ × ℝ => cross2 (w (e.Φ P.1 P.2)) (tan2 e.Φ P.1 P.2 (1, 0)))
    (B := fun P : ℝ × ℝ => cross2 (w (e.Φ P.1 P.2)) (tan2 e.Φ P.1 P.2 (0, 1))) (γ := fun x y => (x, y)) (by fun_prop)
    (fun x y => dx2 y x) (fun x y => dy2 x y)
    (fun x hx y hy => cross2_smooth (pull_smooth (h.elem.smooth x hx y hy) (hw x hx y hy)) (tan_smooth (h.elem.smooth x hx y hy) _))
    (fun x hx y hy => cross2_smooth (pull_smooth (h.elem.smooth x hx y hy) (hw x hx y hy)) (tan_smooth (h.elem.smooth x hx y hy) _))
    h2 h1 h2 h1
  have pt : ∀ x ∈ I, ∀ y ∈ I, Reduce.div2 w (e.Φ x y) * cross2 (tan2 e.Φ x y (1, 0)) (tan2 e.Φ x y (0, 1)) =
      det2 (Geometry.at2 (e.J x y)) * Reduce.div2 w (e.Φ x y) := fun x hx y hy => by
    obtain ⟨j0, j1⟩ := h.elem.jac x hx y hy
    unfold tan2
    rw [j0, j1]
    simp only [cross2, det2]
    ring
  have E : ∫ x in (-1 : ℝ)..1, ∫ y in (-1 : ℝ)..1, det2 (Geometry.at2 (e.J x y)) * Reduce.div2 w (e.Φ x y) = _ :=
    (intervalIntegral.integral_congr fun x hx => intervalIntegral.integral_congr fun y hy => by
      rw [← pt x (sub' hx) y (sub' hy)]
      exact (div_pull (h.elem.smooth x (sub' hx) y (sub' hy)) (hw x (sub' hx) y (sub' hy)) (1, 0) (0, 1)).symm).trans G
  have side : ∀ f < 4, sideInt e.Φ e.n (fun P m => Reduce.dot2 (w (e.Φ P.1 P.2)) m) f = (if f = 0 ∨ f = 3 then -1 else 1) *
      ∫ t in (-1 : ℝ)..1, cross2 (w (e.Φ (facePoint2 f t).1 (facePoint2 f t).2))
        (tan2 e.Φ (facePoint2 f t).1 (facePoint2 f t).2 (if f < 2 then (0, 1) else (1, 0))) := fun f hf => by
    unfold sideInt
    rw [← intervalIntegral.integral_const_mul]
    refine intervalIntegral.integral_congr fun t ht => ?_
    dsimp only
    rw [← len_eq h hf (sub' ht), normal_len h hf (sub' ht), tang_eq h (sub' ht)]
  rw [integral_region2 chart, integral_O2 (fun x y => det2 (Geometry.at2 (e.J x y)) * Reduce.div2 w (e.Φ x y)), E]
  · rw [sum_range_succ, sum_range_succ, sum_range_succ, sum_range_one, side 0 (by norm_num), side 1 (by norm_num),
      side 2 (by norm_num), side 3 (by norm_num)]
    norm_num [facePoint2]
    ring
  · have hc : ContinuousOn (fun P : ℝ × ℝ => det2 (Geometry.at2 (e.J P.1 P.2)) * Reduce.div2 w (e.Φ P.1 P.2)) (I ×ˢ I) := by
      have : ContinuousOn (fun P : ℝ × ℝ => Reduce.div2 w (e.Φ P.1 P.2) * cross2 (tan2 e.Φ P.1 P.2 (1, 0)) (tan2 e.Φ P.1 P.2 (0, 1)))
          (I ×ˢ I) := by
        intro P hP
        refine ContinuousAt.continuousWithinAt ?_
        have hs := h.elem.smooth P.1 hP.1 P.2 hP.2
        have hv := hw P.1 hP.1 P.2 hP.2
        refine ContinuousAt.mul ?_ ?_
        · have : ContinuousAt (fderiv ℝ w) (e.Φ P.1 P.2) := hv.continuousAt_fderiv (by norm_num)
          have c1 := ContinuousAt.comp (f := fun P : ℝ × ℝ => e.Φ P.1 P.2) this hs.continuousAt
          exact (c1.clm_apply continuousAt_const).fst.add (c1.clm_apply continuousAt_const).snd
        · exact (cross2_smooth (tan_smooth hs _) (tan_smooth hs _)).continuousAt
      exact this.congr fun P hP => (pt P.1 hP.1 P.2 hP.2).symm
    exact (hc.integrableOn_compact (isCompact_Icc.prod isCompact_Icc)).mono_set
      (Set.prod_mono Set.Ioo_subset_Icc_self Set.Ioo_subset_Icc_self)

lemma div_smul {φ : ℝ × ℝ → ℝ} {v : ℝ × ℝ → ℝ × ℝ} {P : ℝ × ℝ} (hφ : ContDiffAt ℝ 1 φ P) (hv : ContDiffAt ℝ 1 v P) :
    Reduce.div2 (fun P => φ P • v P) P = φ P * Reduce.div2 v P + Reduce.dot2 (Reduce.grad2 φ P) (v P) := by
  have := (hφ.differentiableAt (by norm_num)).hasFDerivAt.smul (hv.differentiableAt (by norm_num)).hasFDerivAt
  unfold Reduce.div2
  rw [show (fun P => φ P • v P) = φ • v from rfl, this.fderiv]
  simp [Reduce.dot2, Reduce.grad2]
  ring

include h in
lemma measurableSet_region2 (hinj : Set.InjOn (fun P : ℝ × ℝ => e.Φ P.1 P.2) O2) : MeasurableSet (Region2 e.Φ) := by
  refine measurableSet_O2.image_of_continuousOn_injOn (fun P hP => ?_) hinj
  exact (h.elem.smooth P.1 ⟨hP.1.1.le, hP.1.2.le⟩ P.2 ⟨hP.2.1.le, hP.2.2.le⟩).continuousAt.continuousWithinAt

lemma faces_sum {l : List ℕ} (hn : l.Nodup) (hl : ∀ f, f ∈ l ↔ f < 4) (g : ℕ → ℝ) : (l.map g).sum = ∑ f ∈ range 4, g f := by
  rw [← List.sum_toFinset g hn]
  refine sum_congr (Finset.ext fun f => ?_) fun _ _ => rfl
  rw [List.mem_toFinset, hl, mem_range]

/-- What both kinds of 1-forms have in common. -/
lemma whole {els : ℕ → El} {Q : Rule} {n : ℕ → ℕ → ℝ → ℝ × ℝ} {num : El → ℕ} {H : El → (ℕ → ℝ) → ℝ × ℝ → ℝ × ℝ → ℝ}
    {sec : List (ℕ × ℕ)} (hn : sec.Nodup) {data : ℕ → Option (List ℝ)} (hd : IsBI els Q n num H sec data) {k : ℕ}
    (hk : ∀ f, (k, f) ∈ sec ↔ f < 4) (c : ℕ → ℝ) {ε X : ℝ}
    (herr : ∀ f < 4, |sideRule (Q (max (els k).p (els k).q + 1)).1 (Q (max (els k).p (els k).q + 1)).2 (els k).Φ (n k) (H (els k) c) f -
      sideInt (els k).Φ (n k) (H (els k) c) f| ≤ ε) (hX : ∑ f ∈ range 4, sideInt (els k).Φ (n k) (H (els k) c) f = X) :
    ∃ a, data k = some a ∧ a.length = num (els k) ∧ |∑ d ∈ range (num (els k)), a.getD d 0 * c d - X| ≤ 4 * ε := by
  have hl : ∀ f, f ∈ facesOf sec k ↔ f < 4 := fun f => mem_facesOf.trans (hk f)
  obtain ⟨a, ha, la, va⟩ := (hd k).2 fun h0 => by
    have := (hl 0).2 (by norm_num)
    rw [h0] at this
    simp at this
  refine ⟨a, ha, la, ?_⟩
  rw [va c, faces_sum (facesOf_nodup hn k) hl, ← hX, ← sum_sub_distrib]
  refine (abs_sum_le_sum_abs _ _).trans ((sum_le_sum fun f hf => herr f (mem_range.1 hf)).trans ?_)
  rw [sum_const, card_range, nsmul_eq_mul]
  norm_num

lemma sideInt_congr {e : El} (h : Good e) {n : ℕ → ℝ → ℝ × ℝ} (hN : Normals e.Φ n) {H H' : ℝ × ℝ → ℝ × ℝ → ℝ} {f : ℕ} (hf : f < 4)
    (hH : ∀ x ∈ I, ∀ y ∈ I, ∀ m, H (x, y) m = H' (x, y) m) : sideInt e.Φ n H f = sideInt e.Φ e.n H' f := by
  unfold sideInt
  refine intervalIntegral.integral_congr fun t ht => ?_
  rw [Set.uIcc_of_le (by norm_num)] at ht
  obtain ⟨i0, i1⟩ := facePoint_in (f := f) ht
  rw [normals_unique h hN hf ht]
  congr 1
  exact hH _ i0 _ i1 _

/-- **C122**: over the whole boundary of an element the boundary integral of an outer 1-form `v` is the term of the integration by
parts, `∫ φ div v + grad φ · v` over the element, up to the errors of the quadrature on the sides. -/
theorem bi21o_green (els : ℕ → El) (Q : Rule) (hQ : Inside Q) (φ : ℝ × ℝ → ℝ) (sec : List (ℕ × ℕ)) (hn : sec.Nodup)
    (hs : ∀ ef ∈ sec, ef.2 < 4 ∧ Good (els ef.1)) (n : ℕ → ℕ → ℝ → ℝ × ℝ) (hN : ∀ ef ∈ sec, Normals (els ef.1).Φ (n ef.1))
    (k : ℕ) (hk : ∀ f < 4, (k, f) ∈ sec) (hinj : Set.InjOn (fun P : ℝ × ℝ => (els k).Φ P.1 P.2) O2)
    (hφ : SmoothOn2 (els k).Φ φ) (v : ℝ × ℝ → ℝ × ℝ) (hv : SmoothOn2 (els k).Φ v) (c : ℕ → ℝ)
    (hc : ∀ x ∈ I, ∀ y ∈ I, (els k).v1o c (x, y) = v ((els k).Φ x y)) {ε : ℝ}
    (herr : ∀ f < 4, |sideRule (Q (max (els k).p (els k).q + 1)).1 (Q (max (els k).p (els k).q + 1)).2 (els k).Φ (n k)
        (fun P m => φ ((els k).Φ P.1 P.2) * Reduce.dot2 ((els k).v1o c P) m) f -
      sideInt (els k).Φ (n k) (fun P m => φ ((els k).Φ P.1 P.2) * Reduce.dot2 ((els k).v1o c P) m) f| ≤ ε) :
    ∃ data a, bi (fun k => face21o Q φ (els k)) (fun k => (els k).num1) sec = some data ∧ data k = some a ∧
      a.length = (els k).num1 ∧
      |∑ d ∈ range (els k).num1, a.getD d 0 * c d -
        ∫ P in Region2 (els k).Φ, (φ P * Reduce.div2 v P + Reduce.dot2 (Reduce.grad2 φ P) (v P))| ≤ 4 * ε := by
  obtain ⟨data, e1, hd⟩ := bi21o els Q hQ φ sec hn hs n hN
  have hg := (hs _ (hk 0 (by norm_num))).2
  have hNk := hN _ (hk 0 (by norm_num))
  dsimp only at hg hNk
  have hw : SmoothOn2 (els k).Φ fun P => φ P • v P := fun x hx y hy => (hφ x hx y hy).smul (hv x hx y hy)
  obtain ⟨a, ha, la, va⟩ := whole hn hd (k := k) (fun f => ⟨fun hf => (hs _ hf).1, hk f⟩) c herr
    (X := ∫ P in Region2 (els k).Φ, (φ P * Reduce.div2 v P + Reduce.dot2 (Reduce.grad2 φ P) (v P))) (by
      rw [sum_congr rfl fun f hf => sideInt_congr hg hNk (mem_range.1 hf)
        (H' := fun P m => Reduce.dot2 (φ ((els k).Φ P.1 P.2) • v ((els k).Φ P.1 P.2)) m) fun x hx y hy m => by
          dsimp only
          rw [hc x hx y hy]
          simp only [Reduce.dot2, Prod.smul_fst, Prod.smul_snd, smul_eq_mul]
          ring]
      rw [divergence hg hinj hw]
      refine MeasureTheory.setIntegral_congr_fun (measurableSet_region2 hg hinj) fun P hP => ?_
      obtain ⟨R, hR, rfl⟩ := hP
      have hx : R.1 ∈ I := ⟨hR.1.1.le, hR.1.2.le⟩
      have hy : R.2 ∈ I := ⟨hR.2.1.le, hR.2.2.le⟩
      exact div_smul (hφ _ hx _ hy) (hv _ hx _ hy))
  exact ⟨data, a, e1, ha, la, va⟩

/-- A vector turned by a right angle. -/
def turn (a : ℝ × ℝ) : ℝ × ℝ := (-a.2, a.1)

lemma turn_smooth {v : ℝ × ℝ → ℝ × ℝ} {P : ℝ × ℝ} (hv : ContDiffAt ℝ 1 v P) : ContDiffAt ℝ 1 (fun P => turn (v P)) P :=
  hv.snd.neg.prodMk hv.fst

lemma div_turn {v : ℝ × ℝ → ℝ × ℝ} {P : ℝ × ℝ} (hv : ContDiffAt ℝ 1 v P) : Reduce.div2 (fun P => turn (v P)) P = -Reduce.rot2 v P := by
  have h1 := (hv.differentiableAt (by norm_num)).hasFDerivAt
  have : HasFDerivAt (fun P => (-(v P).2, (v P).1)) _ P := h1.snd.neg.prodMk h1.fst
  unfold Reduce.div2 Reduce.rot2
  rw [show (fun P => turn (v P)) = fun P => (-(v P).2, (v P).1) from rfl, this.fderiv]
  simp
  ring

/-- **C122**: the same for an inner 1-form `v`: `∫ v · curl φ - φ rot v`. -/
theorem bi21i_green (els : ℕ → El) (Q : Rule) (hQ : Inside Q) (φ : ℝ × ℝ → ℝ) (sec : List (ℕ × ℕ)) (hn : sec.Nodup)
    (hs : ∀ ef ∈ sec, ef.2 < 4 ∧ Good (els ef.1)) (n : ℕ → ℕ → ℝ → ℝ × ℝ) (hN : ∀ ef ∈ sec, Normals (els ef.1).Φ (n ef.1))
    (k : ℕ) (hk : ∀ f < 4, (k, f) ∈ sec) (hinj : Set.InjOn (fun P : ℝ × ℝ => (els k).Φ P.1 P.2) O2)
    (hφ : SmoothOn2 (els k).Φ φ) (v : ℝ × ℝ → ℝ × ℝ) (hv : SmoothOn2 (els k).Φ v) (c : ℕ → ℝ)
    (hc : ∀ x ∈ I, ∀ y ∈ I, (els k).v1i c (x, y) = v ((els k).Φ x y)) {ε : ℝ}
    (herr : ∀ f < 4, |sideRule (Q (max (els k).p (els k).q + 1)).1 (Q (max (els k).p (els k).q + 1)).2 (els k).Φ (n k)
        (fun P m => φ ((els k).Φ P.1 P.2) * cross2 ((els k).v1i c P) m) f -
      sideInt (els k).Φ (n k) (fun P m => φ ((els k).Φ P.1 P.2) * cross2 ((els k).v1i c P) m) f| ≤ ε) :
    ∃ data a, bi (fun k => face21i Q φ (els k)) (fun k => (els k).num1) sec = some data ∧ data k = some a ∧
      a.length = (els k).num1 ∧
      |∑ d ∈ range (els k).num1, a.getD d 0 * c d -
        ∫ P in Region2 (els k).Φ, (Reduce.dot2 (v P) (Reduce.curl2 φ P) - φ P * Reduce.rot2 v P)| ≤ 4 * ε := by
  obtain ⟨data, e1, hd⟩ := bi21i els Q hQ φ sec hn hs n hN
  have hg := (hs _ (hk 0 (by norm_num))).2
  have hNk := hN _ (hk 0 (by norm_num))
  dsimp only at hg hNk
  have hw : SmoothOn2 (els k).Φ fun P => φ P • turn (v P) := fun x hx y hy => (hφ x hx y hy).smul (turn_smooth (hv x hx y hy))
  obtain ⟨a, ha, la, va⟩ := whole hn hd (k := k) (fun f => ⟨fun hf => (hs _ hf).1, hk f⟩) c herr
    (X := ∫ P in Region2 (els k).Φ, (Reduce.dot2 (v P) (Reduce.curl2 φ P) - φ P * Reduce.rot2 v P)) (by
      rw [sum_congr rfl fun f hf => sideInt_congr hg hNk (mem_range.1 hf)
        (H' := fun P m => Reduce.dot2 (φ ((els k).Φ P.1 P.2) • turn (v ((els k).Φ P.1 P.2))) m) fun x hx y hy m => by
          dsimp only
          rw [hc x hx y hy]
          simp only [Reduce.dot2, cross2, turn, Prod.smul_mk, smul_eq_mul]
          ring]
      rw [divergence hg hinj hw]
      refine MeasureTheory.setIntegral_congr_fun (measurableSet_region2 hg hinj) fun P hP => ?_
      obtain ⟨R, hR, rfl⟩ := hP
      have hx : R.1 ∈ I := ⟨hR.1.1.le, hR.1.2.le⟩
      have hy : R.2 ∈ I := ⟨hR.2.1.le, hR.2.2.le⟩
      dsimp only
      rw [div_smul (hφ _ hx _ hy) (turn_smooth (hv _ hx _ hy)), div_turn (hv _ hx _ hy)]
      simp only [Reduce.dot2, Reduce.curl2, Reduce.grad2, turn]
      ring)
  exact ⟨data, a, e1, ha, la, va⟩

end Phyem.Boundary
