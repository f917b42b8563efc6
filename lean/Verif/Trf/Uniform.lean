import Verif.Trf.Shape
import Verif.Trf.History
import Verif.Trf.Config

/-! Refining all cells by a number of levels. -/

namespace Phyem.Trf

variable {B : Base} {L : List Elem}

/-! Triangles with a side of the cell as coordinate axis. -/

/-- A point by its distance from a side and its position along it. -/
def loc : Dir → Pt → Pt
  | .N, p => ⟨-1 + p.x, p.y⟩
  | .S, p => ⟨1 - p.x, p.y⟩
  | .W, p => ⟨p.y, -1 + p.x⟩
  | .E, p => ⟨p.y, 1 - p.x⟩

def locT (d : Dir) (V : Three) : Three := ⟨loc d V.a, loc d V.b, loc d V.c⟩

def swapT (V : Three) : Three := ⟨V.a, V.c, V.b⟩

def Half.flip : Half → Half
  | .zero => .two
  | .two => .zero

lemma loc_mid (d : Dir) (p q : Pt) : loc d (mid p q) = mid (loc d p) (loc d q) := by
  cases d <;> ext <;> simp only [loc, mid] <;> ring

lemma loc_fold (d : Dir) (l : List Half) (V : Three) : l.foldl bisect (locT d V) = locT d (l.foldl bisect V) := by
  induction l generalizing V with
  | nil => rfl
  | cons k l ih =>
    rw [List.foldl_cons, List.foldl_cons, ← ih]
    congr 1
    cases k <;> simp only [bisect, locT, loc_mid]

lemma swap_fold (l : List Half) (V : Three) : (l.map Half.flip).foldl bisect (swapT V) = swapT (l.foldl bisect V) := by
  induction l generalizing V with
  | nil => rfl
  | cons k l ih =>
    rw [List.map_cons, List.foldl_cons, List.foldl_cons, ← ih]
    congr 1
    cases k <;> simp only [bisect, swapT, Half.flip, mid_comm V.c V.b]

/-- The triangle at a side of length two, in the coordinates of the side. -/
def sideT : Three := ⟨⟨1, 0⟩, ⟨0, 1⟩, ⟨0, -1⟩⟩

lemma start_loc (d : Dir) : start d = locT d sideT ∨ start d = locT d (swapT sideT) := by
  cases d
  · left; simp only [start, locT, loc, sideT]; norm_num
  · right; simp only [start, locT, loc, sideT, swapT]; norm_num
  · left; simp only [start, locT, loc, sideT]; norm_num
  · right; simp only [start, locT, loc, sideT, swapT]; norm_num

lemma loc_sidePt (d : Dir) (t : ℚ) : sidePt d t = loc d ⟨0, t⟩ := by
  cases d <;> simp only [sidePt, loc] <;> norm_num

lemma loc_inj {d : Dir} {p q : Pt} (h : loc d p = loc d q) : p = q := by
  obtain ⟨a, b⟩ := p
  obtain ⟨a', b'⟩ := q
  cases d <;> simp only [loc, Pt.mk.injEq] at h ⊢ <;> constructor <;> linarith [h.1, h.2]

/-- A triangle at one side of a cell has a counterpart at every side. -/
lemma counterpart (t : Tri) (c : ℕ) (d : Dir) {tb tc : ℚ} (eb : (verts t).b = sidePt t.dir tb)
    (ec : (verts t).c = sidePt t.dir tc) : ∃ t' : Tri, t'.cell = c ∧ t'.dir = d ∧ t'.path.length = t.path.length ∧
      (((verts t').b = sidePt d tb ∧ (verts t').c = sidePt d tc) ∨
       ((verts t').b = sidePt d tc ∧ (verts t').c = sidePt d tb)) := by
  obtain ⟨V0, hV0, hv⟩ : ∃ V0, (V0 = sideT ∨ V0 = swapT sideT) ∧ verts t = locT t.dir (t.path.foldl bisect V0) := by
    rcases start_loc t.dir with e | e
    · exact ⟨_, Or.inl rfl, by rw [verts, e, loc_fold]⟩
    · exact ⟨_, Or.inr rfl, by rw [verts, e, loc_fold]⟩
  rw [hv] at eb ec
  simp only [locT, loc_sidePt] at eb ec
  replace eb := loc_inj eb
  replace ec := loc_inj ec
  have hsw : swapT (swapT sideT) = sideT := rfl
  obtain ⟨V1, hV1, hst⟩ : ∃ V1, (V1 = V0 ∨ V1 = swapT V0) ∧ start d = locT d V1 := by
    rcases start_loc d with e | e <;> rcases hV0 with rfl | rfl
    · exact ⟨_, Or.inl rfl, e⟩
    · exact ⟨_, Or.inr rfl, e⟩
    · exact ⟨_, Or.inr rfl, e⟩
    · exact ⟨_, Or.inl rfl, e⟩
  rcases hV1 with rfl | rfl
  · refine ⟨⟨c, d, t.path⟩, rfl, rfl, rfl, Or.inl ?_⟩
    simp only [verts, hst]
    rw [loc_fold]
    simp only [locT, eb, ec, loc_sidePt, and_self]
  · refine ⟨⟨c, d, t.path.map Half.flip⟩, rfl, rfl, by simp, Or.inr ?_⟩
    simp only [verts, hst]
    rw [loc_fold, swap_fold]
    simp only [locT, swapT, eb, ec, loc_sidePt, and_self]

/-- A triangle whose bottom edge is not on a side has a triangle of the same level on the other side. -/
lemma inner_opposite (n : ℕ) : ∀ t : Tri, t.path.length = n → ¬ OnSide t →
    ∃ t' : Tri, t'.cell = t.cell ∧ t'.path.length = n ∧ (verts t').b = (verts t).c ∧ (verts t').c = (verts t).b := by
  induction n using Nat.strong_induction_on with
  | _ n ih =>
    rintro ⟨c, d, p⟩ hl hn
    rcases List.eq_nil_or_concat p with rfl | ⟨p1, k1, rfl⟩
    · exfalso
      apply hn
      cases d
      · exact ⟨.N, 1, -1, rfl, rfl⟩
      · exact ⟨.W, -1, 1, rfl, rfl⟩
      · exact ⟨.E, 1, -1, rfl, rfl⟩
      · exact ⟨.S, -1, 1, rfl, rfl⟩
    rcases List.eq_nil_or_concat p1 with rfl | ⟨p2, k2, rfl⟩
    · simp only [List.concat_eq_append, List.nil_append, List.length_singleton] at hl
      subst hl
      -- the legs of the four triangles
      cases d <;> cases k1
      · exact ⟨⟨c, .E, [.two]⟩, rfl, rfl, by norm_num [verts, start, bisect], by norm_num [verts, start, bisect]⟩
      · exact ⟨⟨c, .W, [.zero]⟩, rfl, rfl, by norm_num [verts, start, bisect], by norm_num [verts, start, bisect]⟩
      · exact ⟨⟨c, .N, [.two]⟩, rfl, rfl, by norm_num [verts, start, bisect], by norm_num [verts, start, bisect]⟩
      · exact ⟨⟨c, .S, [.zero]⟩, rfl, rfl, by norm_num [verts, start, bisect], by norm_num [verts, start, bisect]⟩
      · exact ⟨⟨c, .S, [.two]⟩, rfl, rfl, by norm_num [verts, start, bisect], by norm_num [verts, start, bisect]⟩
      · exact ⟨⟨c, .N, [.zero]⟩, rfl, rfl, by norm_num [verts, start, bisect], by norm_num [verts, start, bisect]⟩
      · exact ⟨⟨c, .W, [.two]⟩, rfl, rfl, by norm_num [verts, start, bisect], by norm_num [verts, start, bisect]⟩
      · exact ⟨⟨c, .E, [.zero]⟩, rfl, rfl, by norm_num [verts, start, bisect], by norm_num [verts, start, bisect]⟩
    · have hl2 : n = p2.length + 2 := by
        rw [← hl]; simp
      let u : Tri := ⟨c, d, p2⟩
      have hv : ∀ k k', verts ⟨c, d, (p2.concat k).concat k'⟩ = bisect (bisect (verts u) k) k' := by
        intro k k'
        simp [verts, u, List.concat_eq_append]
      have hv' : ∀ (w : Tri) k k', verts (child (child w k) k') = bisect (bisect (verts w) k) k' := by
        intro w k k'
        rw [verts_child, verts_child]
      rw [hv] at *
      have hlen : ∀ (w : Tri) k k', (child (child w k) k').path.length = w.path.length + 2 := by
        intro w k k'; simp [child]
      cases k2 <;> cases k1
      · -- the leg to the first vertex: the other half
        refine ⟨child (child u .two) .two, rfl, by rw [hlen, hl2], ?_, ?_⟩ <;> rw [hv'] <;> simp only [bisect]
      · by_cases hs : OnSide u
        · exfalso
          apply hn
          obtain ⟨e, tb, tc, e1, e2⟩ := hs
          refine ⟨e, tb, (tb + tc) / 2, ?_, ?_⟩
          · rw [hv]; simp only [bisect, e1]
          · rw [hv]; simp only [bisect, e1, e2, mid_side]
        · obtain ⟨u', c1, l1, b1, d1⟩ := ih p2.length (by omega) u rfl hs
          refine ⟨child (child u' .two) .zero, c1, by rw [hlen, hl2, l1], ?_, ?_⟩ <;> rw [hv'] <;>
            simp only [bisect, b1, d1]
          rw [mid_comm]
      · by_cases hs : OnSide u
        · exfalso
          apply hn
          obtain ⟨e, tb, tc, e1, e2⟩ := hs
          refine ⟨e, (tb + tc) / 2, tc, ?_, ?_⟩
          · rw [hv]; simp only [bisect, e1, e2, mid_side]
          · rw [hv]; simp only [bisect, e2]
        · obtain ⟨u', c1, l1, b1, d1⟩ := ih p2.length (by omega) u rfl hs
          refine ⟨child (child u' .zero) .two, c1, by rw [hlen, hl2, l1], ?_, ?_⟩ <;> rw [hv'] <;>
            simp only [bisect, b1, d1]
          rw [mid_comm]
      · refine ⟨child (child u .zero) .zero, rfl, by rw [hlen, hl2], ?_, ?_⟩ <;> rw [hv'] <;> simp only [bisect]

/-- All triangles of one level in all cells. -/
def Uniform (B : Base) (n : ℕ) (L : List Elem) : Prop :=
  ∀ e, e ∈ L ↔ ∃ t : Tri, e = .tri t ∧ t.cell ∈ B.map Prod.fst ∧ t.path.length = n

lemma uniform_mate (hp : Proper B) (hal : Aligned B) {n : ℕ} (h : Uniform B n L) {t : Tri} (ht : Elem.tri t ∈ L) :
    Bnd B t ∨ ∃ t', Elem.tri t' ∈ L ∧ Mate B t t' := by
  obtain ⟨_, e, hc, hl⟩ := (h _).mp ht
  injection e with e
  subst e
  rw [List.mem_map] at hc
  obtain ⟨⟨c, m⟩, hm, e⟩ := hc
  simp only at e
  subst e
  by_cases hs : OnSide t
  · obtain ⟨d, tb, tc, e1, e2⟩ := hs
    have hd : d = t.dir := by
      have sb := sidePt_in (e1 ▸ in_square (in_vb (verts t)))
      have sc := sidePt_in (e2 ▸ in_square (in_vc (verts t)))
      have hne : tb ≠ tc := by
        rintro rfl
        exact bc_ne t (e1.trans e2.symm)
      have hm : In (verts t) (sidePt d ((tb + tc) / 2)) := by
        rw [← mid_side, ← e1, ← e2]
        exact in_convex (size_pos t) (in_vb _) (in_vc _) (mid_between _ _)
      obtain ⟨u, hu⟩ := on_side hm (by cases d <;> simp [sidePt])
      refine sidePt_strict ?_ ?_ hu
      · by_contra hx
        exact hne (by linarith [sb.1, sc.1])
      · by_contra hx
        exact hne (by linarith [sb.2, sc.2])
    subst hd
    by_cases hcnt : (allFaces B).count (faceNodes m t.dir) = 1
    · exact Or.inl ⟨m, t.dir, tb, tc, hm, e1, e2, hcnt⟩
    · right
      rw [count_one_iff hp.keys hm] at hcnt
      push Not at hcnt
      obtain ⟨m', c', d', hm', he, hne⟩ := hcnt
      obtain ⟨t', ct, dt, lt, hh⟩ := counterpart t c' d' e1 e2
      have hends : ends m' d' = ends m t.dir := he.resolve_right (fun e => hal _ hm' _ hm d' t.dir e)
      refine ⟨t', (h _).mpr ⟨t', rfl, by rw [ct]; exact List.mem_map_of_mem hm', by rw [lt, hl]⟩, ?_, m, m', hm, ct ▸ hm', ?_⟩
      · rintro rfl
        exact hne ct.symm dt.symm
      · have hkey : ∀ u, InSquare (sidePt t.dir u) → InSquare (sidePt d' u) →
            keyAt m t.cell (sidePt t.dir u) = keyAt m' t'.cell (sidePt d' u) := by
          intro u h1 h2
          rw [key_on_side m t.cell t.dir h1, key_on_side m' t'.cell d' h2, hends]
        have sb := in_square (in_vb (verts t))
        have sc := in_square (in_vc (verts t))
        have sb' := in_square (in_vb (verts t'))
        have sc' := in_square (in_vc (verts t'))
        rw [e1] at sb ⊢
        rw [e2] at sc ⊢
        rcases hh with ⟨h1, h2⟩ | ⟨h1, h2⟩
        · rw [h1] at sb' ⊢
          rw [h2] at sc' ⊢
          exact Or.inl ⟨hkey _ sb sb', hkey _ sc sc'⟩
        · rw [h1] at sb' ⊢
          rw [h2] at sc' ⊢
          exact Or.inr ⟨hkey _ sb sc', hkey _ sc sb'⟩
  · right
    obtain ⟨t', ct, lt, h1, h2⟩ := inner_opposite n t hl hs
    refine ⟨t', (h _).mpr ⟨t', rfl, by rw [ct]; exact List.mem_map_of_mem hm, lt⟩, ?_, m, m, hm, by rw [ct]; exact hm, ?_⟩
    · rintro rfl
      exact bc_ne _ h1
    · exact Or.inr ⟨by rw [ct, h2], by rw [ct, h1]⟩

/-- Every value reaches every threshold. -/
lemma reaches_of {w : World} {m : Method} (hn : w.number = true ∨ m = .middle) {r : ℚ}
    (h : ∀ p, ∃ v, w.rff p = some v ∧ r ≤ v) (t : Tri) : Reaches w m r t := by
  cases m with
  | center =>
    obtain ⟨v, h1, h2⟩ := h (w.map t.cell (centerOf (verts t)))
    refine ⟨v, ?_, h2⟩
    simp only [triValue]
    rw [if_pos (hn.resolve_right (by simp)), h1]
  | middle =>
    have key : ∀ l : List Pt, l ≠ [] → ∃ v, maxAt (fun p => w.rff (w.map t.cell p)) l = some v ∧ r ≤ v := by
      intro l
      induction l with
      | nil => intro h; exact absurd rfl h
      | cons p l ih =>
        intro _
        obtain ⟨v, h1, h2⟩ := h (w.map t.cell p)
        cases l with
        | nil => exact ⟨v, h1, h2⟩
        | cons q l =>
          obtain ⟨v', h3, h4⟩ := ih (by simp)
          refine ⟨max v v', ?_, le_max_of_le_left h2⟩
          rw [maxAt]
          · rw [h1, h3]; rfl
          · simp
    exact key _ (by simp [sevenOf])

lemma cell_reaches {w : World} (m : Method) {r : ℚ} (h : ∀ p, ∃ v, w.rff p = some v ∧ r ≤ v) (c : ℕ) {v : ℚ}
    (hv : cellValue w m c = some v) : r ≤ v := by
  have key : ∀ l : List Pt, ∀ v, maxAt (fun p => w.rff (w.map c p)) l = some v → r ≤ v := by
    intro l
    induction l with
    | nil => intro v hv; simp [maxAt] at hv
    | cons p l ih =>
      intro v hv
      obtain ⟨v1, h1, h2⟩ := h (w.map c p)
      cases l with
      | nil =>
        simp only [maxAt, h1, Option.some.injEq] at hv
        rw [← hv]; exact h2
      | cons q l =>
        rw [maxAt] at hv
        · simp only [h1, Option.bind_some, Option.map_eq_some_iff] at hv
          obtain ⟨_, _, e⟩ := hv
          rw [← e]; exact le_max_of_le_left h2
        · simp
  cases m with
  | center =>
    obtain ⟨v1, h1, h2⟩ := h (w.map c ⟨0, 0⟩)
    simp only [cellValue, h1, Option.some.injEq] at hv
    rw [← hv]; exact h2
  | middle => exact key _ _ hv

lemma uniform_levels (hp : Proper B) (hal : Aligned B) {w : World} {m : Method} (hn : w.number = true ∨ m = .middle) :
    ∀ rft : List ℚ, rft ≠ [] → (∀ r ∈ rft, ∀ p, ∃ v, w.rff p = some v ∧ r ≤ v) →
      ∃ L, Reached B w m rft L ∧ Uniform B (rft.length - 1) L := by
  intro rft
  induction rft using List.reverseRecOn with
  | nil => intro h; exact absurd rfl h
  | append_singleton rs r ih =>
    intro _ hr
    have hsome : ∀ p, (w.rff p).isSome := fun p => by
      obtain ⟨v, h, _⟩ := hr r (by simp) p
      rw [h]; rfl
    obtain ⟨L', hL'⟩ := refining_succeeds_partial hp hal m (rft := rs ++ [r]) (by simp) hsome hn (s := ⟨none⟩) rfl
    have hR : Reached B w m (rs ++ [r]) L' := by rw [Reached, hL']
    refine ⟨L', hR, ?_⟩
    rcases rs with _ | ⟨r0, rs⟩
    · intro e
      obtain ⟨_, _, hcell, _⟩ := refined_covers hp.keys hL'
      constructor
      · intro he
        rcases first_level hp.keys hL' e.cell (hcell e he) with ⟨_, h⟩ | ⟨⟨v, h1, h2⟩, _⟩
        · obtain ⟨d, hd⟩ := (h e rfl).mp he
          refine ⟨_, hd, hcell e he, by simp⟩
        · exact absurd (cell_reaches m (hr r (by simp)) _ h1) (not_le.mpr h2)
      · rintro ⟨⟨c, d, p⟩, rfl, hc, hl⟩
        simp only [List.nil_append, List.length_singleton, Nat.sub_self, List.length_eq_zero_iff] at hl
        subst hl
        rcases first_level hp.keys hL' c hc with ⟨_, h⟩ | ⟨⟨v, h1, h2⟩, _⟩
        · exact (h _ rfl).mpr ⟨d, rfl⟩
        · exact absurd (cell_reaches m (hr r (by simp)) _ h1) (not_le.mpr h2)
    · obtain ⟨L, hL, hU⟩ := ih (by simp) (fun r' h => hr r' (by simp at h ⊢; tauto))
      have hnext := next_level_partial hp hal (by simp) hL hR
      have hcond : ∀ t, Elem.tri t ∈ L → (OnBoundary B t ∧ Reaches w m r t) ∨
          ∃ t', Elem.tri t' ∈ L ∧ Opposite B t t' ∧ (Reaches w m r t ∨ Reaches w m r t') := by
        intro t ht
        have hre := reaches_of hn (hr r (by simp)) t
        rcases uniform_mate hp hal hU ht with h | ⟨t', h1, h2⟩
        · exact Or.inl ⟨(bnd_iff hp.keys t).mp h, hre⟩
        · obtain ⟨_, e, hc, _⟩ := (hU _).mp ht
          injection e with e
          subst e
          obtain ⟨_, e, hc', _⟩ := (hU _).mp h1
          injection e with e
          subst e
          exact Or.inr ⟨_, h1, (mate_iff hp hal hc hc').mp h2, Or.inl hre⟩
      intro e
      rw [hnext]
      constructor
      · rintro (⟨he, hno⟩ | ⟨t, k, ht, rfl, _⟩)
        · obtain ⟨t, rfl, _⟩ := (hU _).mp he
          exact absurd (hcond t he) (hno t rfl)
        · obtain ⟨_, e, hc, hl⟩ := (hU _).mp ht
          injection e with e
          subst e
          refine ⟨_, rfl, hc, ?_⟩
          simp only [child, List.length_append, List.length_singleton, List.length_cons] at hl ⊢
          omega
      · rintro ⟨⟨c, d, p⟩, rfl, hc, hl⟩
        right
        simp only [List.length_append, List.length_singleton, List.length_cons] at hl
        rcases List.eq_nil_or_concat p with rfl | ⟨p, k, rfl⟩
        · simp at hl
        · have ht : Elem.tri ⟨c, d, p⟩ ∈ L := (hU _).mpr ⟨_, rfl, hc, by
            simp only [List.concat_eq_append, List.length_append, List.length_singleton, List.length_cons] at hl ⊢
            omega⟩
          exact ⟨⟨c, d, p⟩, k, ht, by simp [child, List.concat_eq_append], hcond _ ht⟩

end Phyem.Trf
