import Verif.Reversal.Lemmas
import Verif.Triangle.Commute
import Verif.Incidence.Props

/-!
C87: reversing the dofs of faces changes their signs and nothing else. `sgn faces d` is `-1` for the dofs on the reversed faces and
`1` for the others (`Spec.lean`).
-/

namespace Phyem.Reversal

open Phyem.Numbering Phyem.Incidence Phyem.Triangle Finset Poly

variable {s : Shape} {o : Ori} {p q : ℕ} {faces : List ℕ}

/-- The dofs found on a face are those of its edges, each once, in both ways of asking; unknown faces are refused. -/
theorem face_dofs (hp : 0 < p) (hq : 0 < q) (f : ℕ) :
    (f < nFaces s → ∃ l t l', faceDofs s o p q f = some l ∧ faceDofsC s o p q f = some (t, l') ∧
      l.Nodup ∧ (∀ d, d ∈ l ↔ OnFace s o p q f d) ∧
      (t = 0 ∧ l' = l ∧ (∀ d ∈ l, d < len0 s o p q) ∨
        t = 1 ∧ l = l'.map (fun d => len0 s o p q + d) ∧ ∀ d ∈ l', d < len1 s o p q)) ∧
    (¬ f < nFaces s → faceDofs s o p q f = none ∧ faceDofsC s o p q f = none) := by
  refine ⟨fun h => ?_, fun h => ⟨faceDofs_none h, faceDofsC_none h⟩⟩
  obtain ⟨l, hl⟩ := @faceDofs_some s o p q f h
  have hm := mem_faceDofs hl
  have hC := faceDofsC_eq (s := s) (o := o) (f := f) hp hq
  rw [hl, Option.map_some] at hC
  refine ⟨l, _, _, hl, hC, faceDofs_nodup hp hl, hm, ?_⟩
  have hc : compOf s o f = 0 ∨ compOf s o f = 1 := by
    cases s <;> cases o <;> simp only [compOf] <;> split_ifs <;> simp
  rcases hc with hc | hc
  · exact Or.inl ⟨hc, by simp [hc], fun d hd => bound0 hp hq hc ((hm d).1 hd)⟩
  · refine Or.inr ⟨hc, ?_, ?_⟩
    · simp only [hc, if_true, List.map_map]
      conv_lhs => rw [← List.map_id l]
      refine List.map_congr_left fun d hd => ?_
      have := bound1 hc ((hm d).1 hd)
      simp only [id, Function.comp]
      omega
    · simp only [hc, if_true]
      intro d hd
      have := onFace_lt hp ((mem_map_sub hm (fun d => bound1 hc) d).1 hd)
      omega

/-- Faces of a square with degrees 2 and 2; in the second component they are counted from the first dof there. -/
example : faceDofs .quad .inner 2 2 1 = some [8, 11] ∧ faceDofsC .quad .inner 2 2 1 = some (1, [2, 5]) ∧
    faceDofs .tri .outer 2 2 2 = some [8, 9] ∧ faceDofsC .tri .outer 2 2 2 = some (1, [4, 5]) := by decide +kernel

/-- Incidence matrix from nodes to edges: the rows of the dofs change sign. -/
theorem rows_sign (hf : ∀ f ∈ faces, f < nFaces s) (E : Mat) :
    ∃ E', revRows s o p q E faces = some E' ∧ ∀ r c, E' r c = sgn s o p q faces r * E r c := by
  refine ⟨_, revRows_fold s o p q E faces E hf, fun r c => ?_⟩
  unfold sgn
  split_ifs <;> simp

/-- Incidence matrix from edges to cells: the columns of the dofs change sign. -/
theorem cols_sign (hf : ∀ f ∈ faces, f < nFaces s) (E : Mat) :
    ∃ E', revCols s o p q E faces = some E' ∧ ∀ r c, E' r c = sgn s o p q faces c * E r c := by
  refine ⟨_, revCols_fold s o p q E faces E hf, fun r c => ?_⟩
  unfold sgn
  split_ifs <;> simp

section
variable {K : Type} [Field K]

/-- Basis functions: those of the dofs change sign. -/
theorem basis_sign (hp : 0 < p) (hq : 0 < q) (hf : ∀ f ∈ faces, f < nFaces s) (b : List K × List K)
    (h0 : b.1.length = len0 s o p q) (h1 : b.2.length = len1 s o p q) :
    ∃ b', revBf s o p q b faces = some b' ∧ b'.1.length = len0 s o p q ∧ b'.2.length = len1 s o p q ∧
      (∀ i < len0 s o p q, b'.1.getD i 0 = (sgn s o p q faces i : K) * b.1.getD i 0) ∧
      ∀ i < len1 s o p q, b'.2.getD i 0 = (sgn s o p q faces (len0 s o p q + i) : K) * b.2.getD i 0 := by
  obtain ⟨b', e, l0, l1, g0, g1⟩ := revBf_fold hp hq b faces b hf h0 h1
  refine ⟨b', e, l0, l1, fun i hi => ?_, fun i hi => ?_⟩
  · rw [g0 i hi]; unfold sgn; split_ifs <;> simp
  · rw [g1 i hi]; unfold sgn; split_ifs <;> simp

/-- Reduction: the dofs on the reversed faces change sign. -/
theorem cochain_sign (hp : 0 < p) (hq : 0 < q) (hf : ∀ f ∈ faces, f < nFaces s) (hn : faces.Nodup) (c : List K × List K)
    (h0 : c.1.length = len0 s o p q) (h1 : c.2.length = len1 s o p q) :
    ∃ c', revCochain s o p q c faces = some c' ∧ c'.length = len0 s o p q + len1 s o p q ∧
      ∀ d < len0 s o p q + len1 s o p q, c'.getD d 0 = (sgn s o p q faces d : K) * (c.1 ++ c.2).getD d 0 := by
  obtain ⟨b, e, l0, l1, g0, g1⟩ := revCochain_fold hp hq faces c hf hn h0 h1
  refine ⟨b.1 ++ b.2, by unfold revCochain; rw [e]; rfl, by simp [l0, l1], fun d hd => ?_⟩
  rcases lt_or_ge d (len0 s o p q) with h | h
  · rw [List.getD_append _ _ _ _ (by omega), List.getD_append _ _ _ _ (by omega), g0 d h]
    unfold sgn; split_ifs <;> simp
  · rw [List.getD_append_right _ _ _ _ (by omega), List.getD_append_right _ _ _ _ (by omega), l0, h0,
      g1 _ (by omega), Nat.add_sub_cancel' h]
    unfold sgn; split_ifs <;> simp

/-- A face index that the element does not have is refused by all of them. -/
theorem refused (hf : ¬ ∀ f ∈ faces, f < nFaces s) (E : Mat) (b : List K × List K) :
    revRows s o p q E faces = none ∧ revCols s o p q E faces = none ∧ revBf s o p q b faces = none ∧
      revCochain s o p q b faces = none := by
  push Not at hf
  refine ⟨foldlM_none _ (fun f => nFaces s ≤ f) ?_ _ _ hf, foldlM_none _ (fun f => nFaces s ≤ f) ?_ _ _ hf,
    foldlM_none _ (fun f => nFaces s ≤ f) ?_ _ _ hf, ?_⟩
  · intro b f h; rw [faceDofs_none (by omega)]; rfl
  · intro b f h; rw [faceDofs_none (by omega)]; rfl
  · intro b f h; rw [faceDofsC_none (by omega)]; rfl
  · unfold revCochain
    rw [foldlM_none _ (fun f => nFaces s ≤ f) ?_ _ _ hf]
    · rfl
    · intro b f h; rw [faceDofsC_none (by omega)]; rfl

theorem sgn_sq (s : Shape) (o : Ori) (p q : ℕ) (faces : List ℕ) (d : ℕ) :
    (sgn s o p q faces d : K) * sgn s o p q faces d = 1 := by
  unfold sgn; split_ifs <;> simp

theorem len_sum (s : Shape) (o : Ori) (p q : ℕ) : len0 s o p q + len1 s o p q = n1 s p q := by
  cases s <;> cases o <;> simp [len0, len1, n1, nd21, nT1, Nat.add_comm]

/-- The field with cochain `c` in the reversed basis is the one with the signs of `c` changed in the original basis. -/
theorem field_sign (hp : 0 < p) (hq : 0 < q) (hf : ∀ f ∈ faces, f < nFaces s) (b b' : List K × List K)
    (h0 : b.1.length = len0 s o p q) (h1 : b.2.length = len1 s o p q) (hb : revBf s o p q b faces = some b')
    (c : ℕ → K) :
    field b' (len0 s o p q) c = field b (len0 s o p q) fun d => (sgn s o p q faces d : K) * c d := by
  obtain ⟨b'', e, l0, l1, g0, g1⟩ := basis_sign hp hq hf b h0 h1
  obtain rfl : b'' = b' := by rw [hb] at e; exact (Option.some.inj e).symm
  simp only [field, dot, sum_range_list, l0, l1, h0, h1, Prod.mk.injEq]
  constructor
  · refine sum_congr rfl fun i hi => ?_
    rw [g0 i (mem_range.1 hi), Nat.zero_add]; ring
  · refine sum_congr rfl fun i hi => ?_
    rw [g1 i (mem_range.1 hi)]; ring

/-- Reducing and reconstructing gives the same field with and without reversal. -/
theorem reduction_unchanged (hp : 0 < p) (hq : 0 < q) (hf : ∀ f ∈ faces, f < nFaces s) (hn : faces.Nodup)
    (b b' c : List K × List K) (c' : List K)
    (h0 : b.1.length = len0 s o p q) (h1 : b.2.length = len1 s o p q) (hb : revBf s o p q b faces = some b')
    (k0 : c.1.length = len0 s o p q) (k1 : c.2.length = len1 s o p q) (hc : revCochain s o p q c faces = some c') :
    field b' (len0 s o p q) (fun d => c'.getD d 0) = field b (len0 s o p q) fun d => (c.1 ++ c.2).getD d 0 := by
  rw [field_sign hp hq hf b b' h0 h1 hb]
  obtain ⟨c'', e, l, g⟩ := cochain_sign hp hq hf hn c k0 k1
  obtain rfl : c'' = c' := by rw [hc] at e; exact (Option.some.inj e).symm
  have key : ∀ d < len0 s o p q + len1 s o p q, (sgn s o p q faces d : K) * c''.getD d 0 = (c.1 ++ c.2).getD d 0 := by
    intro d hd
    rw [g d hd, ← mul_assoc, sgn_sq, one_mul]
  simp only [field, dot, sum_range_list, h0, h1, Prod.mk.injEq]
  constructor
  · refine sum_congr rfl fun i hi => ?_
    rw [mem_range] at hi
    rw [key _ (by omega)]
  · refine sum_congr rfl fun i hi => ?_
    rw [mem_range] at hi
    rw [key _ (by omega)]

/-- The field of a gradient (curl) is the same with and without reversal. -/
theorem derivative_unchanged (hp : 0 < p) (hq : 0 < q) (hf : ∀ f ∈ faces, f < nFaces s) (b b' : List K × List K) (E E' : Mat)
    (h0 : b.1.length = len0 s o p q) (h1 : b.2.length = len1 s o p q) (hb : revBf s o p q b faces = some b')
    (hE : revRows s o p q E faces = some E') (n : ℕ) (v : ℕ → K) :
    field b' (len0 s o p q) (app n E' v) = field b (len0 s o p q) (app n E v) := by
  rw [field_sign hp hq hf b b' h0 h1 hb]
  obtain ⟨E'', e, g⟩ := rows_sign (o := o) (p := p) (q := q) hf E
  obtain rfl : E'' = E' := by rw [hE] at e; exact (Option.some.inj e).symm
  congr 1
  funext d
  simp only [app, g, Int.cast_mul, mul_assoc, ← mul_sum]
  rw [← mul_assoc, sgn_sq, one_mul]

/-- The rotation (divergence) of a reversed cochain is that of the cochain. -/
theorem rotation_unchanged (hf : ∀ f ∈ faces, f < nFaces s) (E E' : Mat)
    (hE : revCols s o p q E faces = some E') (n : ℕ) (c : ℕ → K) (r : ℕ) :
    app n E' (fun d => (sgn s o p q faces d : K) * c d) r = app n E c r := by
  obtain ⟨E'', e, g⟩ := cols_sign (o := o) (p := p) (q := q) hf E
  obtain rfl : E'' = E' := by rw [hE] at e; exact (Option.some.inj e).symm
  simp only [app, g, Int.cast_mul]
  refine sum_congr rfl fun d _ => ?_
  linear_combination (E r d : K) * c d * sgn_sq (K := K) s o p q faces d

/-- With reversal, rotation of gradient and divergence of curl still vanish. -/
theorem complex (hf : ∀ f ∈ faces, f < nFaces s) (A B : Mat)
    (hA : revRows s o p q (E0 s o p q) faces = some A) (hB : revCols s o p q (E1 s o p q) faces = some B)
    (v : ℕ → K) (r : ℕ) (hr : r < p * q) :
    app (n1 s p q) B (app (n0 s p q) A v) r = 0 := by
  obtain ⟨A', e, g⟩ := rows_sign (o := o) (p := p) (q := q) hf (E0 s o p q)
  obtain rfl : A' = A := by rw [hA] at e; exact (Option.some.inj e).symm
  have h : app (n0 s p q) A' v = fun d => (sgn s o p q faces d : K) * app (n0 s p q) (E0 s o p q) v d := by
    funext d
    simp only [app, g, Int.cast_mul, mul_assoc, ← mul_sum]
  rw [h, rotation_unchanged hf _ _ hB]
  cases s <;> cases o
  · exact Incidence.rot_grad_zero p q v r hr
  · exact Incidence.div_curl_outer_zero p q v r hr
  · exact Triangle.rot_grad_zero p q v r hr
  · exact Triangle.div_curl_zero p q v r hr

/-- The basis functions of an element have the lengths that are assumed above. -/
theorem basis_lengths (s : Shape) (o : Ori) {xs ys : List K} (px : xs.length = p + 1) (py : ys.length = q + 1) (x y : K) :
    ((basis s o xs ys x y).getD 0 []).length = len0 s o p q ∧
    ((basis s o xs ys x y).getD 1 []).length = len1 s o p q := by
  have hk : ∀ u v : List K, (kron u v).length = u.length * v.length := by
    intro u v
    simp [kron, List.length_flatMap, Nat.mul_comm]
  have hn : ∀ (l : List K) (t : K), (nodes l t).length = l.length := by intro l t; simp [nodes]
  have he : ∀ (l : List K) (t : K), (edges l t).length = l.length - 1 := by intro l t; simp [edges]
  cases s <;> cases o <;>
    simp [basis, Mass.bf21i, Mass.bf21o, bfT1i, bfT1o, hk, hn, he, px, py, len0, len1, Nat.mul_comm]

/-- Mass matrices of quadrilaterals with reversed faces: row and column of a dof change sign. -/
theorem mass_sign (hp : 0 < p) (hq : 0 < q) (hf : ∀ f ∈ faces, f < nFaces s) (pts pts' : List (Mass.Pt K))
    (h0 : ∀ m ∈ pts, (m.bf.getD 0 []).length = len0 s o p q ∧ (m.bf.getD 1 []).length = len1 s o p q)
    (h : pts.mapM (revPt s o p q faces) = some pts') (diag : Bool) {i j : ℕ} (hi : i < n1 s p q) (hj : j < n1 s p q) :
    Mass.mass21i diag pts' (len0 s o p q) i j =
      (sgn s o p q faces i : K) * sgn s o p q faces j * Mass.mass21i diag pts (len0 s o p q) i j ∧
    Mass.mass21o diag pts' (len0 s o p q) i j =
      (sgn s o p q faces i : K) * sgn s o p q faces j * Mass.mass21o diag pts (len0 s o p q) i j := by
  set N := len0 s o p q with hN
  -- sign of basis function `i` of component `r`
  let sg : ℕ → ℕ → K := fun r i => if r = 0 then (sgn s o p q faces i : K) else (sgn s o p q faces (N + i) : K)
  have lenr : ∀ r, r < 2 → ∀ i, i < (if r = 0 then len0 s o p q else len1 s o p q) → ∀ m m', m ∈ pts →
      revPt s o p q faces m = some m' → Mass.comp m' r i = sg r i * Mass.comp m r i ∧ m'.w = m.w ∧ m'.jm = m.jm := by
    intro r hr i hi m m' hm e
    obtain ⟨b', eb, _, _, g0, g1⟩ := basis_sign hp hq hf (m.bf.getD 0 [], m.bf.getD 1 []) (h0 m hm).1 (h0 m hm).2
    unfold revPt at e
    rw [eb, Option.map_some] at e
    obtain rfl := Option.some.inj e
    refine ⟨?_, rfl, rfl⟩
    have : r = 0 ∨ r = 1 := by omega
    rcases this with rfl | rfl
    · simpa [Mass.comp, sg] using g0 i (by simpa using hi)
    · simpa [Mass.comp, sg] using g1 i (by simpa using hi)
  have ein : ∀ (met : Mass.Pt K → K) (hmet : ∀ m m' : Mass.Pt K, m'.w = m.w → m'.jm = m.jm → met m' = met m) (r t i j : ℕ),
      r < 2 → t < 2 → i < (if r = 0 then len0 s o p q else len1 s o p q) →
      j < (if t = 0 then len0 s o p q else len1 s o p q) →
      Mass.einsum pts' met r t i j = sg r i * sg t j * Mass.einsum pts met r t i j := by
    intro met hmet r t i j hr ht hi hj
    have aux : ∀ (l l' : List (Mass.Pt K)), (∀ m ∈ l, m ∈ pts) → l.mapM (revPt s o p q faces) = some l' →
        Mass.einsum l' met r t i j = sg r i * sg t j * Mass.einsum l met r t i j := by
      intro l
      induction l with
      | nil => intro l' _ e; simp at e; subst e; simp [Mass.einsum]
      | cons m l ih =>
        intro l' hl e
        rw [List.mapM_cons] at e
        simp only [Option.bind_eq_bind, Option.bind_eq_some_iff, Option.pure_def, Option.some.injEq] at e
        obtain ⟨m', em, l'', el, rfl⟩ := e
        have hm := hl m (by simp)
        have hrest := ih l'' (fun a ha => hl a (by simp [ha])) el
        obtain ⟨c1, w1, j1⟩ := lenr r hr i hi m m' hm em
        obtain ⟨c2, _, _⟩ := lenr t ht j hj m m' hm em
        simp only [Mass.einsum, List.map_cons, List.sum_cons] at hrest ⊢
        rw [hrest, c1, c2, hmet m m' w1 j1]
        ring
    exact aux pts pts' (fun m hm => hm) h
  have hdet : ∀ m m' : Mass.Pt K, m'.jm = m.jm → Mass.det 2 m' = Mass.det 2 m := by
    intro m m' b; simp only [Mass.det, b]
  have hg : ∀ (a c : ℕ) (m m' : Mass.Pt K), m'.jm = m.jm → Mass.g 2 m' a c = Mass.g 2 m a c := by
    intro a c m m' b; simp only [Mass.g, b]
  have met : ∀ (a c : ℕ) (m m' : Mass.Pt K), m'.w = m.w → m'.jm = m.jm →
      m'.w * Mass.det 2 m' * Mass.g 2 m' a c = m.w * Mass.det 2 m * Mass.g 2 m a c := by
    intro a c m m' w b; rw [w, hdet m m' b, hg a c m m' b]
  rw [← len_sum s o p q] at hi hj
  unfold Mass.mass21i Mass.mass21o Mass.block2
  rcases lt_or_ge i N with hi' | hi' <;> rcases lt_or_ge j N with hj' | hj'
  · simp only [hi', hj', if_true, and_self]
    refine ⟨?_, ?_⟩ <;> rw [ein _ (met _ _) 0 0 i j (by omega) (by omega) (by simpa) (by simpa)] <;> simp [sg]
  · simp only [hi', if_true, not_lt.2 hj', if_false]
    cases diag
    · refine ⟨?_, ?_⟩ <;> simp <;>
        rw [ein _ (met _ _) 0 1 i (j - N) (by omega) (by omega) (by simpa) (by simp; omega)] <;>
        simp [sg, Nat.add_sub_cancel' hj']
    · simp
  · simp only [hj', if_true, not_lt.2 hi', if_false]
    cases diag
    · refine ⟨?_, ?_⟩ <;> simp <;>
        rw [ein _ (met _ _) 0 1 j (i - N) (by omega) (by omega) (by simpa) (by simp; omega)] <;>
        simp only [sg, if_true, one_ne_zero, if_false, Nat.add_sub_cancel' hi'] <;> ring
    · simp
  · simp only [not_lt.2 hi', not_lt.2 hj', if_false]
    refine ⟨?_, ?_⟩ <;> simp <;>
      rw [ein _ (met _ _) 1 1 (i - N) (j - N) (by omega) (by omega) (by simp; omega) (by simp; omega)] <;>
      simp [sg, Nat.add_sub_cancel' hi', Nat.add_sub_cancel' hj']

end

section
variable {K : Type} [NontriviallyNormedField K] {xs ys : List K} (hx : xs.Nodup) (hy : ys.Nodup)
  (px : xs.length = p + 1) (py : ys.length = q + 1)

theorem field_basis (s : Shape) (o : Ori) (px : xs.length = p + 1) (py : ys.length = q + 1) (c : ℕ → K) (x y : K) :
    field ((basis s o xs ys x y).getD 0 [], (basis s o xs ys x y).getD 1 []) (len0 s o p q) c =
      match s, o with
      | .quad, .inner => rec21i xs ys c x y
      | .quad, .outer => rec21o xs ys c x y
      | .tri, .inner => recT1i xs ys c x y
      | .tri, .outer => recT1o xs ys c x y := by
  cases s <;> cases o <;>
    simp [field, basis, len0, rec21i, rec21o, recT1i, recT1o, n21i, n21o, px, py, Mass.bf21i, Mass.bf21o]

/-- The 0-form with node values `v`. -/
def potential : Shape → List K → List K → (ℕ → K) → K → K → K
  | .quad, xs, ys, v, x, y => rec20 xs ys v x y
  | .tri, xs, ys, v, x, y => recT0 xs ys v x y

include hx hy px py in
/-- With reversed faces, inner forms: the field of the reversed incidence matrix in the reversed basis is the gradient. -/
theorem gradient_right (hp : 0 < p) (hq : 0 < q) (hf : ∀ f ∈ faces, f < nFaces s) (E' : Mat)
    (hE : revRows s .inner p q (E0 s .inner p q) faces = some E') (v : ℕ → K) (x y : K) :
    ∃ b', revBf s .inner p q ((basis s .inner xs ys x y).getD 0 [], (basis s .inner xs ys x y).getD 1 []) faces = some b' ∧
      HasDerivAt (fun t => potential s xs ys v t y) (field b' (len0 s .inner p q) (app (n0 s p q) E' v)).1 x ∧
      HasDerivAt (fun t => potential s xs ys v x t) (field b' (len0 s .inner p q) (app (n0 s p q) E' v)).2 y := by
  obtain ⟨h0, h1⟩ := basis_lengths s .inner px py x y
  obtain ⟨b', hb, -⟩ := basis_sign hp hq hf
    ((basis s .inner xs ys x y).getD 0 [], (basis s .inner xs ys x y).getD 1 []) h0 h1
  refine ⟨b', hb, ?_⟩
  rw [derivative_unchanged hp hq hf _ b' _ E' h0 h1 hb hE, field_basis s .inner px py]
  cases s
  · exact grad2 hx hy px py v x y
  · exact Triangle.grad hx hy px py v x y

include hx hy px py in
/-- Outer forms: the field of the reversed incidence matrix in the reversed basis is the curl. -/
theorem curl_right (hp : 0 < p) (hq : 0 < q) (hf : ∀ f ∈ faces, f < nFaces s) (E' : Mat)
    (hE : revRows s .outer p q (E0 s .outer p q) faces = some E') (v : ℕ → K) (x y : K) :
    ∃ b', revBf s .outer p q ((basis s .outer xs ys x y).getD 0 [], (basis s .outer xs ys x y).getD 1 []) faces = some b' ∧
      HasDerivAt (fun t => potential s xs ys v x t) (field b' (len0 s .outer p q) (app (n0 s p q) E' v)).1 y ∧
      HasDerivAt (fun t => potential s xs ys v t y) (-(field b' (len0 s .outer p q) (app (n0 s p q) E' v)).2) x := by
  obtain ⟨h0, h1⟩ := basis_lengths s .outer px py x y
  obtain ⟨b', hb, -⟩ := basis_sign hp hq hf
    ((basis s .outer xs ys x y).getD 0 [], (basis s .outer xs ys x y).getD 1 []) h0 h1
  refine ⟨b', hb, ?_⟩
  rw [derivative_unchanged hp hq hf _ b' _ E' h0 h1 hb hE, field_basis s .outer px py]
  cases s
  · exact curl2 hx hy px py v x y
  · exact Triangle.curl hx hy px py v x y

end

/-- A concrete case: the outer incidence matrix of a triangle with degrees 1 and 2 whose side `eta = -1` is reversed. -/
example : ∃ E', revRows .tri .outer 1 2 (E0 .tri .outer 1 2) [0] = some E' ∧
    E' 2 0 = -1 ∧ E0 .tri .outer 1 2 2 0 = 1 ∧ E' 3 0 = 1 := ⟨_, rfl, by decide +kernel⟩

example : (revBf .quad .inner 1 1 (([1, 2], [3, 4]) : List ℚ × List ℚ) [0, 3]).isSome = true ∧
    revCochain .quad .inner 1 1 (([1, 2], [3, 4]) : List ℚ × List ℚ) [0, 3] = some [1, -2, -3, 4] := by decide +kernel

end Phyem.Reversal
