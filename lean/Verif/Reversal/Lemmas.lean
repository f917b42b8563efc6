import Verif.Reversal.Spec
import Verif.Triangle.Lemmas

namespace Phyem.Reversal

open Phyem.Numbering Phyem.Incidence Phyem.Triangle

/-- The list of dofs found is the set of dofs on the face. -/
theorem mem_faceDofs {s : Shape} {o : Ori} {p q f : ℕ} {l : List ℕ} (h : faceDofs s o p q f = some l) (d : ℕ) :
    d ∈ l ↔ OnFace s o p q f d := by
  cases s <;> cases o <;> rcases f with _ | _ | _ | _ | f <;>
    simp [faceDofs] at h <;> subst h <;>
    simp [OnFace, rowAt, colAt, dyO, dxO, dyI, dxI, etaEdge, xiEdge, snum, ln21i, ln21o, lnT1i, lnT1o, eq_comm]

theorem faceDofs_some {s : Shape} {o : Ori} {p q f : ℕ} (h : f < nFaces s) : ∃ l, faceDofs s o p q f = some l := by
  cases s <;> simp only [nFaces] at h <;> cases o <;> rcases f with _ | _ | _ | _ | f <;>
    first | omega | exact ⟨_, rfl⟩

theorem faceDofs_none {s : Shape} {o : Ori} {p q f : ℕ} (h : ¬ f < nFaces s) : faceDofs s o p q f = none := by
  cases s <;> simp only [nFaces] at h <;> cases o <;> simp only [faceDofs] <;> split_ifs <;> first | omega | rfl

theorem stk (s : Shape) (o : Ori) (p q : ℕ) : Stacked 0 (edgesOf s o p q) (len0 s o p q + len1 s o p q) := by
  cases s <;> cases o <;> simp [edgesOf, len0, len1, Stacked, Comp.size, ln21i, ln21o, lnT1i, lnT1o] 

theorem snum_inj {xs : List Comp} {e : ℕ} (st : Stacked 0 xs e) {t t' i j i' j' : ℕ} {x x' : Comp}
    (h : xs[t]? = some x) (h' : xs[t']? = some x') (hv : x.valid i j 0) (hv' : x'.valid i' j' 0)
    (e : snum xs (t, i, j, 0) = snum xs (t', i', j', 0)) : t = t' ∧ i = i' ∧ j = j' := by
  have e1 : snum xs (t, i, j, 0) = x.num i j 0 := by simp [snum, h]
  have e2 : snum xs (t', i', j', 0) = x'.num i' j' 0 := by simp [snum, h']
  obtain ⟨t0, x0, i0, j0, k0, _, hu⟩ := st.bijective.2 _ (st.bijective.1 _ x _ _ _ h hv)
  have a := hu _ x _ _ _ h hv rfl
  have b := hu _ x' _ _ _ h' hv' (by rw [← e1, ← e2, e])
  omega

/-- No edge is on two faces. -/
theorem face_unique {s : Shape} {o : Ori} {p q f f' d : ℕ} (hp : 0 < p) (hq : 0 < q) (h : OnFace s o p q f d)
    (h' : OnFace s o p q f' d) : f = f' := by
  have key := @snum_inj _ _ (stk s o p q)
  cases s <;> cases o <;> rcases f with _ | _ | _ | _ | f <;> rcases f' with _ | _ | _ | _ | f' <;>
    simp only [OnFace, edgesOf, etaEdge, xiEdge] at h h' key <;> first
    | rfl
    | (obtain ⟨a, ha, rfl⟩ := h
       obtain ⟨b, hb, e⟩ := h'
       exfalso
       have := key rfl rfl (by simp only [Comp.valid]; omega) (by simp only [Comp.valid]; omega) e
       omega)

theorem foldl_max_le {l : List ℕ} {m a : ℕ} (ha : a ≤ m) (h : ∀ x ∈ l, x ≤ m) : l.foldl max a ≤ m := by
  induction l generalizing a with
  | nil => simpa
  | cons x l ih => exact ih (by simp [ha, h x]) fun y hy => h y (by simp [hy])

theorem le_foldl_max {l : List ℕ} {a : ℕ} : a ≤ l.foldl max a ∧ ∀ x ∈ l, x ≤ l.foldl max a := by
  induction l generalizing a with
  | nil => simp
  | cons x l ih =>
    have := @ih (max a x)
    simp only [List.foldl_cons, List.mem_cons, forall_eq_or_imp]
    refine ⟨?_, ?_, this.2⟩ <;> have := this.1 <;> omega

theorem top_eq (x : Comp) (ha : 0 < x.a) (hb : 0 < x.b) : top x = x.base + x.a * x.b := by
  unfold top
  obtain ⟨a, ha'⟩ := Nat.exists_eq_succ_of_ne_zero ha.ne'
  obtain ⟨b, hb'⟩ := Nat.exists_eq_succ_of_ne_zero hb.ne'
  have h1 := le_foldl_max (a := 0) (l := (List.range x.b).flatMap fun j => (List.range x.a).map fun i => x.num i j 0)
  have h2 : ((List.range x.b).flatMap fun j => (List.range x.a).map fun i => x.num i j 0).foldl max 0 ≤
      x.base + x.a * x.b - 1 := by
    refine foldl_max_le (by omega) ?_
    intro y hy
    simp only [List.mem_flatMap, List.mem_range, List.mem_map] at hy
    obtain ⟨j, hj, i, hi, rfl⟩ := hy
    have : i + x.a * j < x.a * x.b := by
      calc i + x.a * j < x.a + x.a * j := by omega
        _ = x.a * (j + 1) := by ring
        _ ≤ _ := Nat.mul_le_mul_left _ hj
    simp only [Comp.num, Nat.mul_zero, Nat.add_zero]
    omega
  have h3 := h1.2 (x.num a b 0) (by
    simp only [List.mem_flatMap, List.mem_range, List.mem_map]
    exact ⟨b, by omega, a, by omega, rfl⟩)
  have h4 : x.num a b 0 = x.base + x.a * x.b - 1 := by
    simp only [Comp.num, ha', hb', Nat.succ_eq_add_one]
    rw [show (a + 1) * (b + 1) = a + (a + 1) * b + 1 by ring]
    simp
  have h5 : 0 < x.a * x.b := Nat.mul_pos ha hb
  omega

theorem num_lt2 (x : Comp) {i j : ℕ} (hi : i < x.a) (hj : j < x.b) : i + x.a * j < x.a * x.b := by
  calc i + x.a * j < x.a + x.a * j := by omega
    _ = x.a * (j + 1) := by ring
    _ ≤ _ := Nat.mul_le_mul_left _ hj

theorem mem_map_sub {l : List ℕ} {n : ℕ} {P : ℕ → Prop} (hl : ∀ d, d ∈ l ↔ P d) (hn : ∀ d, P d → n ≤ d) (d : ℕ) :
    d ∈ l.map (fun d => d - n) ↔ P (n + d) := by
  rw [List.mem_map]
  constructor
  · rintro ⟨y, hy, rfl⟩
    have := hn y ((hl y).1 hy)
    rw [Nat.add_sub_cancel' this]
    exact (hl y).1 hy
  · intro h
    exact ⟨n + d, (hl _).2 h, by omega⟩

/-- The component of a face. -/
def compOf : Shape → Ori → ℕ → ℕ
  | .quad, .outer, f => if f = 2 ∨ f = 3 then 1 else 0
  | .tri, .outer, f => if f = 0 ∨ f = 2 then 1 else 0
  | .quad, .inner, f => if f = 2 ∨ f = 3 then 0 else 1
  | .tri, .inner, f => if f = 0 ∨ f = 2 then 0 else 1

theorem bound0 {s : Shape} {o : Ori} {p q f d : ℕ} (hp : 0 < p) (hq : 0 < q) (hf : compOf s o f = 0)
    (h : OnFace s o p q f d) : d < len0 s o p q := by
  cases s <;> cases o <;> rcases f with _ | _ | _ | _ | f <;> simp [compOf] at hf <;>
    simp only [OnFace] at h <;> obtain ⟨a, ha, rfl⟩ := h <;>
    simp only [etaEdge, xiEdge, len0, snum, ln21i, ln21o, lnT1i, lnT1o, List.getElem?_cons_zero, Comp.num, Nat.mul_zero,
      Nat.add_zero, Nat.zero_add]
  · have := num_lt2 ⟨0, p, q + 1, 1⟩ (i := a) (j := 0) ha (by simp); simpa using this
  · have := num_lt2 ⟨0, p, q + 1, 1⟩ (i := a) (j := q) ha (by simp); simpa using this
  · have := num_lt2 ⟨0, p + 1, q, 1⟩ (i := 0) (j := a) (by simp) ha; simpa using this
  · have := num_lt2 ⟨0, p + 1, q, 1⟩ (i := p) (j := a) (by simp) ha; simpa using this
  · have := num_lt2 ⟨0, p, q + 1, 1⟩ (i := a) (j := 0) ha (by simp); simpa using this
  · have := num_lt2 ⟨0, p, q + 1, 1⟩ (i := a) (j := q) ha (by simp); simpa using this
  · have := num_lt2 ⟨0, p, q, 1⟩ (i := p - 1) (j := a) (by simp; omega) ha; simpa using this

theorem bound1 {s : Shape} {o : Ori} {p q f d : ℕ} (hf : compOf s o f = 1)
    (h : OnFace s o p q f d) : len0 s o p q ≤ d := by
  cases s <;> cases o <;> rcases f with _ | _ | _ | _ | f <;> simp [compOf] at hf <;>
    simp only [OnFace] at h <;> obtain ⟨a, ha, rfl⟩ := h <;>
    simp [etaEdge, xiEdge, len0, snum, ln21i, ln21o, lnT1i, lnT1o, Comp.num]

theorem faceDofsC_eq {s : Shape} {o : Ori} {p q f : ℕ} (hp : 0 < p) (hq : 0 < q) :
    faceDofsC s o p q f = (faceDofs s o p q f).map fun l =>
      (compOf s o f, if compOf s o f = 1 then l.map fun d => d - len0 s o p q else l) := by
  cases s <;> cases o <;> simp only [faceDofsC] <;> congr 1 <;> funext l <;>
    (try rw [top_eq _ (by simp [dxI, dyO, hp]) (by simp [dxI, dyO, hq])]) <;>
    simp only [compOf, dxI, dyO, len0, Nat.zero_add] <;> split_ifs <;> simp_all

/-- The component-wise list: the same dofs, counted from the first one of their component. -/
theorem mem_faceDofsC {s : Shape} {o : Ori} {p q f : ℕ} (hp : 0 < p) (hq : 0 < q) {tl : ℕ × List ℕ}
    (h : faceDofsC s o p q f = some tl) :
    (tl.1 = 0 ∧ (∀ d, d ∈ tl.2 ↔ OnFace s o p q f d) ∧ (∀ d, OnFace s o p q f d → d < len0 s o p q)) ∨
    (tl.1 = 1 ∧ (∀ d, d ∈ tl.2 ↔ OnFace s o p q f (len0 s o p q + d)) ∧
      (∀ d, OnFace s o p q f d → len0 s o p q ≤ d)) := by
  rw [faceDofsC_eq hp hq, Option.map_eq_some_iff] at h
  obtain ⟨l, hl, rfl⟩ := h
  have hc : compOf s o f = 0 ∨ compOf s o f = 1 := by
    cases s <;> cases o <;> simp only [compOf] <;> split_ifs <;> simp
  rcases hc with hc | hc
  · refine Or.inl ⟨hc, ?_, fun d => bound0 hp hq hc⟩
    simpa [hc] using mem_faceDofs hl
  · refine Or.inr ⟨hc, ?_, fun d => bound1 hc⟩
    simp only [hc, if_true]
    exact mem_map_sub (mem_faceDofs hl) fun d => bound1 hc

theorem faceDofsC_some {s : Shape} {o : Ori} {p q f : ℕ} (h : f < nFaces s) : ∃ l, faceDofsC s o p q f = some l := by
  obtain ⟨l, hl⟩ := @faceDofs_some s o p q f h
  cases s <;> cases o <;> simp [faceDofsC, hl]

theorem faceDofsC_none {s : Shape} {o : Ori} {p q f : ℕ} (h : ¬ f < nFaces s) : faceDofsC s o p q f = none := by
  have hl := @faceDofs_none s o p q f h
  cases s <;> cases o <;> simp [faceDofsC, hl]

theorem onFace_lt {s : Shape} {o : Ori} {p q f d : ℕ} (hp : 0 < p) (h : OnFace s o p q f d) :
    d < len0 s o p q + len1 s o p q := by
  have key : ∀ (t i j : ℕ) (x : Comp), (edgesOf s o p q)[t]? = some x → x.valid i j 0 →
      snum (edgesOf s o p q) (t, i, j, 0) < len0 s o p q + len1 s o p q := by
    intro t i j x hx hv
    have := (stk s o p q).bijective.1 t x i j 0 hx hv
    simpa [snum, hx] using this
  cases s <;> cases o <;> rcases f with _ | _ | _ | _ | f <;>
    simp only [OnFace, etaEdge, xiEdge] at h <;>
    (obtain ⟨a, ha, rfl⟩ := h
     exact key _ _ _ _ rfl (by simp only [Comp.valid]; omega))

theorem faceDofs_nodup {s : Shape} {o : Ori} {p q f : ℕ} (hp : 0 < p) {l : List ℕ} (h : faceDofs s o p q f = some l) :
    l.Nodup := by
  have row : ∀ (x : Comp) (i : ℕ), 0 < x.a → (rowAt x i).Nodup := by
    intro x i ha
    refine List.Nodup.map (fun j j' e => ?_) List.nodup_range
    simp only [Comp.num, Nat.mul_zero, Nat.add_zero] at e
    exact Nat.eq_of_mul_eq_mul_left ha (by omega)
  have col : ∀ (x : Comp) (j : ℕ), (colAt x j).Nodup := by
    intro x j
    refine List.Nodup.map (fun j j' e => ?_) List.nodup_range
    simp only [Comp.num] at e
    omega
  cases s <;> cases o <;> simp only [faceDofs] at h <;> split_ifs at h <;> simp only [Option.some.injEq] at h <;>
    subst h <;> first | exact col _ _ | exact row _ _ (by simp [dyO, dyI, hp])

/-! ### The loops over the reversed faces -/

open Classical in
theorem revRows_fold (s : Shape) (o : Ori) (p q : ℕ) (E : Mat) : ∀ (faces : List ℕ) (new : Mat),
    (∀ f ∈ faces, f < nFaces s) →
    faces.foldlM (fun new f => (faceDofs s o p q f).map fun l => fun r c => if r ∈ l then -1 * E r c else new r c) new =
      some fun r c => if ∃ f ∈ faces, OnFace s o p q f r then -1 * E r c else new r c
  | [], new, _ => by simp
  | f :: fs, new, h => by
    obtain ⟨l, hl⟩ := @faceDofs_some s o p q f (h f (by simp))
    rw [List.foldlM_cons, hl]
    simp only [Option.map_some, Option.bind_eq_bind, Option.bind_some]
    rw [revRows_fold s o p q E fs _ fun g hg => h g (by simp [hg])]
    congr 1; funext r c
    have hm := mem_faceDofs hl r
    by_cases h1 : ∃ f ∈ fs, OnFace s o p q f r
    · simp [h1]
    · by_cases h2 : OnFace s o p q f r <;> simp [h1, h2, hm]

open Classical in
theorem revCols_fold (s : Shape) (o : Ori) (p q : ℕ) (E : Mat) : ∀ (faces : List ℕ) (new : Mat),
    (∀ f ∈ faces, f < nFaces s) →
    faces.foldlM (fun new f => (faceDofs s o p q f).map fun l => fun r c => if c ∈ l then -1 * E r c else new r c) new =
      some fun r c => if ∃ f ∈ faces, OnFace s o p q f c then -1 * E r c else new r c
  | [], new, _ => by simp
  | f :: fs, new, h => by
    obtain ⟨l, hl⟩ := @faceDofs_some s o p q f (h f (by simp))
    rw [List.foldlM_cons, hl]
    simp only [Option.map_some, Option.bind_eq_bind, Option.bind_some]
    rw [revCols_fold s o p q E fs _ fun g hg => h g (by simp [hg])]
    congr 1; funext r c
    have hm := mem_faceDofs hl c
    by_cases h1 : ∃ f ∈ fs, OnFace s o p q f c
    · simp [h1]
    · by_cases h2 : OnFace s o p q f c <;> simp [h1, h2, hm]

theorem foldlM_none {α β : Type} (g : β → α → Option β) (bad : α → Prop) (hb : ∀ b a, bad a → g b a = none) :
    ∀ (l : List α) (b : β), (∃ a ∈ l, bad a) → l.foldlM g b = none
  | [], _, h => by simp at h
  | a :: l, b, h => by
    rw [List.foldlM_cons]
    by_cases ha : bad a
    · rw [hb b a ha]; rfl
    · obtain ⟨x, hx, hbx⟩ := h
      have hl : ∃ a ∈ l, bad a := by
        rcases List.mem_cons.1 hx with rfl | hx
        · exact absurd hbx ha
        · exact ⟨x, hx, hbx⟩
      cases hg : g b a with
      | none => rfl
      | some b' => exact foldlM_none g bad hb l b' hl

variable {K : Type} [Field K]

theorem assignNeg_length (old new : List K) (l : List ℕ) : (assignNeg old new l).length = new.length := by
  simp [assignNeg]

theorem assignNeg_getD (old new : List K) (l : List ℕ) {i : ℕ} (h : i < new.length) :
    (assignNeg old new l).getD i 0 = if i ∈ l then -old.getD i 0 else new.getD i 0 := by
  simp [assignNeg, List.getD_eq_getElem?_getD, h]

open Classical in
theorem revBf_fold {s : Shape} {o : Ori} {p q : ℕ} (hp : 0 < p) (hq : 0 < q) (bf : List K × List K) :
    ∀ (faces : List ℕ) (new : List K × List K), (∀ f ∈ faces, f < nFaces s) →
    new.1.length = len0 s o p q → new.2.length = len1 s o p q →
    ∃ b, faces.foldlM (fun new f => (faceDofsC s o p q f).bind fun tl =>
      if tl.1 = 0 then some (assignNeg bf.1 new.1 tl.2, new.2)
      else if tl.1 = 1 then some (new.1, assignNeg bf.2 new.2 tl.2)
      else none) new = some b ∧ b.1.length = len0 s o p q ∧ b.2.length = len1 s o p q ∧
      (∀ i < len0 s o p q, b.1.getD i 0 =
        if ∃ f ∈ faces, OnFace s o p q f i then -bf.1.getD i 0 else new.1.getD i 0) ∧
      (∀ i < len1 s o p q, b.2.getD i 0 =
        if ∃ f ∈ faces, OnFace s o p q f (len0 s o p q + i) then -bf.2.getD i 0 else new.2.getD i 0)
  | [], new, _, h0, h1 => ⟨new, by simp [h0, h1]⟩
  | f :: fs, new, h, h0, h1 => by
    obtain ⟨tl, hl⟩ := @faceDofsC_some s o p q f (h f (by simp))
    have hfs : ∀ g ∈ fs, g < nFaces s := fun g hg => h g (by simp [hg])
    rw [List.foldlM_cons, hl]
    simp only [Option.bind_some]
    rcases mem_faceDofsC hp hq hl with ⟨ht, hm, hb⟩ | ⟨ht, hm, hb⟩
    · obtain ⟨b, e, l0, l1, g0, g1⟩ := revBf_fold hp hq bf fs (assignNeg bf.1 new.1 tl.2, new.2) hfs
        (by simp [assignNeg_length, h0]) h1
      refine ⟨b, by simpa [ht] using e, l0, l1, ?_, ?_⟩
      · intro i hi
        rw [g0 i hi]
        simp only [assignNeg_getD _ _ _ (h0 ▸ hi), hm]
        by_cases a : ∃ f ∈ fs, OnFace s o p q f i
        · simp [a]
        · by_cases b : OnFace s o p q f i <;> simp [a, b]
      · intro i hi
        rw [g1 i hi]
        have : ¬ OnFace s o p q f (len0 s o p q + i) := fun h => by have := hb _ h; omega
        simp [this]
    · obtain ⟨b, e, l0, l1, g0, g1⟩ := revBf_fold hp hq bf fs (new.1, assignNeg bf.2 new.2 tl.2) hfs h0
        (by simp [assignNeg_length, h1])
      refine ⟨b, by simpa [ht] using e, l0, l1, ?_, ?_⟩
      · intro i hi
        rw [g0 i hi]
        have : ¬ OnFace s o p q f i := fun h => by have := hb _ h; omega
        simp [this]
      · intro i hi
        rw [g1 i hi]
        simp only [assignNeg_getD _ _ _ (h1 ▸ hi), hm]
        by_cases a : ∃ f ∈ fs, OnFace s o p q f (len0 s o p q + i)
        · simp [a]
        · by_cases b : OnFace s o p q f (len0 s o p q + i) <;> simp [a, b]

open Classical in
theorem revCochain_fold {s : Shape} {o : Ori} {p q : ℕ} (hp : 0 < p) (hq : 0 < q) :
    ∀ (faces : List ℕ) (new : List K × List K), (∀ f ∈ faces, f < nFaces s) → faces.Nodup →
    new.1.length = len0 s o p q → new.2.length = len1 s o p q →
    ∃ b, faces.foldlM (fun new f => (faceDofsC s o p q f).bind fun tl =>
      if tl.1 = 0 then some (assignNeg new.1 new.1 tl.2, new.2)
      else if tl.1 = 1 then some (new.1, assignNeg new.2 new.2 tl.2)
      else none) new = some b ∧ b.1.length = len0 s o p q ∧ b.2.length = len1 s o p q ∧
      (∀ i < len0 s o p q, b.1.getD i 0 =
        if ∃ f ∈ faces, OnFace s o p q f i then -new.1.getD i 0 else new.1.getD i 0) ∧
      (∀ i < len1 s o p q, b.2.getD i 0 =
        if ∃ f ∈ faces, OnFace s o p q f (len0 s o p q + i) then -new.2.getD i 0 else new.2.getD i 0)
  | [], new, _, _, h0, h1 => ⟨new, by simp [h0, h1]⟩
  | f :: fs, new, h, hn, h0, h1 => by
    obtain ⟨tl, hl⟩ := @faceDofsC_some s o p q f (h f (by simp))
    have hfs : ∀ g ∈ fs, g < nFaces s := fun g hg => h g (by simp [hg])
    have hnot : ∀ d, OnFace s o p q f d → ¬ ∃ f ∈ fs, OnFace s o p q f d := by
      rintro d hd ⟨g, hg, hd'⟩
      exact (List.nodup_cons.1 hn).1 (face_unique hp hq hd hd' ▸ hg)
    rw [List.foldlM_cons, hl]
    simp only [Option.bind_some]
    rcases mem_faceDofsC hp hq hl with ⟨ht, hm, hb⟩ | ⟨ht, hm, hb⟩
    · obtain ⟨b, e, l0, l1, g0, g1⟩ := revCochain_fold hp hq fs (assignNeg new.1 new.1 tl.2, new.2) hfs
        (List.nodup_cons.1 hn).2 (by simp [assignNeg_length, h0]) h1
      refine ⟨b, by simpa [ht] using e, l0, l1, ?_, ?_⟩
      · intro i hi
        rw [g0 i hi]
        simp only [assignNeg_getD _ _ _ (h0 ▸ hi), hm]
        by_cases b : OnFace s o p q f i
        · simp [b, hnot i b]
        · simp [b]
      · intro i hi
        rw [g1 i hi]
        have : ¬ OnFace s o p q f (len0 s o p q + i) := fun h => by have := hb _ h; omega
        simp [this]
    · obtain ⟨b, e, l0, l1, g0, g1⟩ := revCochain_fold hp hq fs (new.1, assignNeg new.2 new.2 tl.2) hfs
        (List.nodup_cons.1 hn).2 h0 (by simp [assignNeg_length, h1])
      refine ⟨b, by simpa [ht] using e, l0, l1, ?_, ?_⟩
      · intro i hi
        rw [g0 i hi]
        have : ¬ OnFace s o p q f i := fun h => by have := hb _ h; omega
        simp [this]
      · intro i hi
        rw [g1 i hi]
        simp only [assignNeg_getD _ _ _ (h1 ▸ hi), hm]
        by_cases b : OnFace s o p q f (len0 s o p q + i)
        · simp [b, hnot _ b]
        · simp [b]

end Phyem.Reversal
