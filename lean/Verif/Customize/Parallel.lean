import Verif.Customize.Props

/-!
Setting dofs of a distributed linear system: property C32.
-/

namespace Phyem.Customize

open Chaining Assembly

/-! ### Lemmas -/

/-- The assembled matrix of all ranks. -/
def totH (g : DGM) (A : List (Loc Mat)) (i j : ℕ) : ℚ :=
  (List.zipWith (fun d M => tot (rankRows d) M.get i j) g A).sum

/-- The assembled vector of all ranks. -/
def vtotH (g : DGM) (b : List (Loc (ℕ → ℚ))) (i : ℕ) : ℚ :=
  (List.zipWith (fun d b => vtot (rankRows d) b.get i) g b).sum

theorem sum_at {k : ℕ} {x : ℚ} : ∀ {l : List ℚ}, l[k]? = some x → (∀ j y, l[j]? = some y → j ≠ k → y = 0) → l.sum = x := by
  intro l
  induction l generalizing k with
  | nil => intro h; simp at h
  | cons a l ih =>
    intro h h0
    rw [List.sum_cons]
    cases k with
    | zero =>
      have hz : ∀ y ∈ l, y = 0 := by
        intro y hy
        obtain ⟨j, hj⟩ := List.mem_iff_getElem?.mp hy
        exact h0 (j + 1) y (by simpa using hj) (by omega)
      have : (l.map id).sum = 0 := sum_map_zero id hz
      rw [List.map_id] at this
      rw [this, add_zero]
      simpa using h
    | succ k =>
      rw [h0 0 a rfl (by omega), zero_add]
      exact ih (by simpa using h) fun j y hj hne => h0 (j + 1) y (by simpa using hj) (by omega)

theorem getElem?_zipWith_some {α β γ : Type} {f : α → β → γ} {l : List α} {l' : List β} {k : ℕ} {c : γ}
    (h : (List.zipWith f l l')[k]? = some c) : ∃ a b, l[k]? = some a ∧ l'[k]? = some b ∧ f a b = c := by
  rw [List.getElem?_zipWith] at h
  cases ha : l[k]? with
  | none => rw [ha] at h; simp at h
  | some a =>
    cases hb : l'[k]? with
    | none => rw [ha, hb] at h; simp at h
    | some b => rw [ha, hb] at h; exact ⟨a, b, rfl, rfl, by simpa using h⟩

theorem zipWith_congr {α β γ : Type} {f f' : α → β → γ} {l : List α} {l₁ l₂ : List β} (hl : l₁.length = l₂.length)
    (h : ∀ (k : ℕ) a b₁ b₂, l[k]? = some a → l₁[k]? = some b₁ → l₂[k]? = some b₂ → f a b₁ = f' a b₂) :
    List.zipWith f l l₁ = List.zipWith f' l l₂ := by
  apply List.ext_getElem?
  intro k
  rw [List.getElem?_zipWith, List.getElem?_zipWith]
  cases ha : l[k]? with
  | none => simp
  | some a =>
    by_cases hk : k < l₁.length
    · rw [List.getElem?_eq_getElem hk, List.getElem?_eq_getElem (by omega : k < l₂.length)]
      simp only [Option.some.injEq]
      exact h k a _ _ ha (List.getElem?_eq_getElem hk) (List.getElem?_eq_getElem (by omega))
    · rw [List.getElem?_eq_none (by omega), List.getElem?_eq_none (by omega)]

theorem keys_rank {g : DGM} (h : Distinct g) : ∀ d ∈ g, (Dict.keys d).Nodup := by
  intro d hd
  unfold Distinct DGM.keys at h
  exact (List.nodup_flatten.mp h).1 _ (List.mem_map_of_mem hd)

theorem keys_rankRows {d : Dict ℕ (List ℕ)} (h : (Dict.keys d).Nodup) : ((rankRows d).map Prod.fst).Nodup := by
  unfold rankRows
  rw [List.map_map]
  exact h

theorem square_rankRows (d : Dict ℕ (List ℕ)) : ∀ x ∈ rankRows d, x.2.2 = x.2.1 := by
  unfold rankRows
  simp only [List.mem_map]
  rintro x ⟨p, _, rfl⟩; rfl

theorem num_le {g : DGM} {n : ℕ} (h : n ∈ g.nums) : n < g.num := by
  unfold DGM.num
  generalize g.nums = l at h
  induction l with
  | nil => simp at h
  | cons a l ih =>
    rw [List.foldr_cons]
    rcases List.mem_cons.mp h with rfl | h
    · omega
    · have := ih h; omega

theorem ranks_matrix {g : DGM} (hk : ∀ d ∈ g, (Dict.keys d).Nodup) {n : ℕ} (hn : n ∈ g.nums)
    (A : List (Loc Mat)) (hl : A.length = g.length) :
    ∃ A', ranksEdit unitRow zeroRow g n 0 g A = some A' ∧ A'.length = g.length ∧
      (∀ j, totH g A' n j = if j = n then 1 else 0) ∧ ∀ d ≠ n, ∀ j, totH g A' d j = totH g A d j := by
  rw [unitRow_ed, zeroRow_ed]
  obtain ⟨A', e1, e2, k₀, d₀, q₀, hd₀, hq₀, h⟩ := ranksEdit_places hk hn
    (fun (l c : ℕ) => if c = l then (1 : ℚ) else 0) (fun _ _ => 0) A hl
  refine ⟨A', e1, e2, ?_, ?_⟩
  · intro j
    have hk₀ := (List.getElem?_eq_some_iff.mp hd₀).1
    have hA : A'[k₀]? = some (A'[k₀]'(by omega)) := List.getElem?_eq_getElem _
    have hM : A[k₀]? = some (A[k₀]'(by omega)) := List.getElem?_eq_getElem _
    have hE := h k₀ d₀ _ _ hd₀ hM hA
    unfold RankEdited at hE
    rw [if_pos rfl] at hE
    unfold totH
    apply sum_at (k := k₀)
    · rw [List.getElem?_zipWith, hd₀, hA]
      simp only [Option.some.injEq]
      refine tot_unit (keys_rankRows (hk d₀ (List.mem_of_getElem? hd₀))) (square_rankRows d₀) (e₀ := q₀.1)
        (l₀ := q₀.2) (at_rankRows.mpr hq₀) ?_ ?_ j
      · intro c
        rw [hE, if_pos rfl]
      · intro e l c hat hne
        rw [hE, if_neg hne, if_pos (at_rankRows.mp hat)]
    · intro k y hy hne
      obtain ⟨d, M', hd, hM', rfl⟩ := getElem?_zipWith_some hy
      have hkk := (List.getElem?_eq_some_iff.mp hd).1
      have hE' := h k d _ _ hd (List.getElem?_eq_getElem (by omega)) hM'
      unfold RankEdited at hE'
      rw [if_neg hne] at hE'
      apply tot_zero
      intro e l c hat
      rw [hE', if_pos (at_rankRows.mp hat)]
  · intro m hm j
    unfold totH
    congr 1
    apply zipWith_congr (by omega)
    intro k d M' M hd hM' hM
    apply tot_same
    intro e l c hat
    have hnot : (e, l) ∉ rankPlaces d n := by
      intro h2
      rw [at_rankRows, mem_rankPlaces] at hat
      rw [mem_rankPlaces] at h2
      obtain ⟨r1, a1, a2⟩ := hat
      obtain ⟨r2, b1, b2⟩ := h2
      have := List.inj_on_of_nodup_map (hk d (List.mem_of_getElem? hd)) a1 b1 rfl
      rw [Prod.mk.injEq] at this
      rw [this.2, b2] at a2
      exact hm (Option.some.inj a2).symm
    have hE := h k d M M' hd hM hM'
    unfold RankEdited at hE
    by_cases hkk : k = k₀
    · rw [if_pos hkk] at hE
      subst hkk
      rw [hd] at hd₀; cases hd₀
      rw [hE, if_neg (fun q : (e, l) = q₀ => hnot (q ▸ hq₀)), if_neg hnot]
    · rw [if_neg hkk] at hE
      rw [hE, if_neg hnot]

theorem ranks_vector {g : DGM} (hk : ∀ d ∈ g, (Dict.keys d).Nodup) {n : ℕ} (hn : n ∈ g.nums) (v : ℚ)
    (b : List (Loc (ℕ → ℚ))) (hl : b.length = g.length) :
    ∃ b', ranksEdit (fun d l => setEntry d l v) (fun d l => setEntry d l 0) g n 0 g b = some b' ∧
      b'.length = g.length ∧ vtotH g b' n = v ∧ ∀ d ≠ n, vtotH g b' d = vtotH g b d := by
  rw [setEntry_ed, setEntry_ed]
  obtain ⟨b', e1, e2, k₀, d₀, q₀, hd₀, hq₀, h⟩ := ranksEdit_places hk hn (fun _ => v) (fun _ => (0 : ℚ)) b hl
  refine ⟨b', e1, e2, ?_, ?_⟩
  · have hk₀ := (List.getElem?_eq_some_iff.mp hd₀).1
    have hA : b'[k₀]? = some (b'[k₀]'(by omega)) := List.getElem?_eq_getElem _
    have hM : b[k₀]? = some (b[k₀]'(by omega)) := List.getElem?_eq_getElem _
    have hE := h k₀ d₀ _ _ hd₀ hM hA
    unfold RankEdited at hE
    rw [if_pos rfl] at hE
    unfold vtotH
    apply sum_at (k := k₀)
    · rw [List.getElem?_zipWith, hd₀, hA]
      simp only [Option.some.injEq]
      rw [vtot_single (keys_rankRows (hk d₀ (List.mem_of_getElem? hd₀))) (e₀ := q₀.1) (l₀ := q₀.2)
        (at_rankRows.mpr hq₀)]
      · rw [hE, if_pos rfl]
      · intro e l hat hne
        rw [hE, if_neg hne, if_pos (at_rankRows.mp hat)]
    · intro k y hy hne
      obtain ⟨d, M', hd, hM', rfl⟩ := getElem?_zipWith_some hy
      have hkk := (List.getElem?_eq_some_iff.mp hd).1
      have hE' := h k d _ _ hd (List.getElem?_eq_getElem (by omega)) hM'
      unfold RankEdited at hE'
      rw [if_neg hne] at hE'
      apply vtot_zero
      intro e l hat
      rw [hE', if_pos (at_rankRows.mp hat)]
  · intro m hm
    unfold vtotH
    congr 1
    apply zipWith_congr (by omega)
    intro k d M' M hd hM' hM
    apply vtot_same
    intro e l hat
    have hnot : (e, l) ∉ rankPlaces d n := by
      intro h2
      rw [at_rankRows, mem_rankPlaces] at hat
      rw [mem_rankPlaces] at h2
      obtain ⟨r1, a1, a2⟩ := hat
      obtain ⟨r2, b1, b2⟩ := h2
      have := List.inj_on_of_nodup_map (hk d (List.mem_of_getElem? hd)) a1 b1 rfl
      rw [Prod.mk.injEq] at this
      rw [this.2, b2] at a2
      exact hm (Option.some.inj a2).symm
    have hE := h k d M M' hd hM hM'
    unfold RankEdited at hE
    by_cases hkk : k = k₀
    · rw [if_pos hkk] at hE
      subst hkk
      rw [hd] at hd₀; cases hd₀
      rw [hE, if_neg (fun q : (e, l) = q₀ => hnot (q ▸ hq₀)), if_neg hnot]
    · rw [if_neg hkk] at hE
      rw [hE, if_neg hnot]

theorem setDofH_step {g : DGM} (hk : ∀ d ∈ g, (Dict.keys d).Nodup) (hc : Contiguous g.nums g.num) (s : SysH)
    (hA : s.A.length = g.length) (hb : s.b.length = g.length) {i : ℤ} (hi : -(g.num : ℤ) ≤ i ∧ i < g.num) (v : ℚ) :
    ∃ s', setDofH g s i v = some s' ∧ s'.A.length = g.length ∧ s'.b.length = g.length ∧
      (∀ j, totH g s'.A (dofOf g.num i) j = if j = dofOf g.num i then 1 else 0) ∧
      (∀ d ≠ dofOf g.num i, ∀ j, totH g s'.A d j = totH g s.A d j) ∧
      vtotH g s'.b (dofOf g.num i) = v ∧ ∀ d ≠ dofOf g.num i, vtotH g s'.b d = vtotH g s.b d := by
  obtain ⟨h1, h2, h3, h4⟩ := dof_norm hi
  have hnorm : normDofH g i = some (dofOf g.num i) := by
    unfold normDofH
    rw [if_pos ⟨h1, h2⟩, h3]
  have hmem := (hc (dofOf g.num i)).mpr h4
  obtain ⟨A', a1, a2, a3, a4⟩ := ranks_matrix hk hmem s.A hA
  obtain ⟨b', b1, b2, b3, b4⟩ := ranks_vector hk hmem v s.b hb
  refine ⟨⟨A', b'⟩, ?_, a2, b2, a3, a4, b3, b4⟩
  unfold setDofH identifyRowH setValueH
  rw [hnorm, Option.bind_some, a1, Option.bind_some, Option.bind_some, b1]
  rfl

theorem setDofsH_tot {g : DGM} (hk : ∀ d ∈ g, (Dict.keys d).Nodup) (hc : Contiguous g.nums g.num) :
    ∀ (cs : List (ℤ × ℚ)) (s : SysH), s.A.length = g.length → s.b.length = g.length →
      (∀ c ∈ cs, -(g.num : ℤ) ≤ c.1 ∧ c.1 < g.num) → ∃ s', setDofsH g s cs = some s' ∧
      s'.A.length = g.length ∧ s'.b.length = g.length ∧
      (∀ i j, totH g s'.A i j =
        if (lastSet g.num cs i).isSome then (if j = i then 1 else 0) else totH g s.A i j) ∧
      (∀ i, vtotH g s'.b i = (lastSet g.num cs i).getD (vtotH g s.b i)) := by
  intro cs
  induction cs with
  | nil => intro s hA hb _; exact ⟨s, rfl, hA, hb, fun i j => rfl, fun i => rfl⟩
  | cons c cs ih =>
    intro s hA hb h
    obtain ⟨s₁, e1, hA₁, hb₁, u1, u2, w1, w2⟩ := setDofH_step hk hc s hA hb (h c (by simp)) c.2
    obtain ⟨s', e2, hA', hb', t1, t2⟩ := ih s₁ hA₁ hb₁ fun x hx => h x (by simp [hx])
    refine ⟨s', by simp only [setDofsH, e1, Option.bind_some, e2], hA', hb', ?_, ?_⟩
    · intro i j
      rw [t1, lastSet_cons]
      cases hl : lastSet g.num cs i with
      | some x => simp
      | none =>
        by_cases hd : dofOf g.num c.1 = i
        · subst hd; simp [u1]
        · have : i ≠ dofOf g.num c.1 := fun q => hd q.symm
          simp [u2 i this, hd]
    · intro i
      rw [t2, lastSet_cons]
      cases hl : lastSet g.num cs i with
      | some x => simp
      | none =>
        by_cases hd : dofOf g.num c.1 = i
        · subst hd; simp [w1]
        · have : i ≠ dofOf g.num c.1 := fun q => hd q.symm
          simp [w2 i this, hd]

theorem storesH_assemble {dep wid : ℕ} : ∀ {g : DGM} {A : List (Loc Mat)} {ess : List (List El)},
    StoresH g A dep wid ess → ∃ Ts, allSome (ess.map (Assembly.assemble none dep wid)) = some Ts ∧
      ∀ i j, entryH Ts i j = totH g A i j := by
  intro g
  induction g with
  | nil =>
    rintro A ess ⟨h1, h2, _⟩
    obtain rfl : A = [] := by simpa using h1
    obtain rfl : ess = [] := by simpa using h2
    exact ⟨[], rfl, fun i j => rfl⟩
  | cons d g ih =>
    rintro A ess ⟨h1, h2, h3⟩
    cases A with
    | nil => simp at h1
    | cons M A =>
      cases ess with
      | nil => simp at h2
      | cons es ess =>
        obtain ⟨T, e1, e2⟩ := stores_assemble (h3 0 d M es rfl rfl rfl)
        obtain ⟨Ts, f1, f2⟩ := ih (A := A) (ess := ess) ⟨by simpa using h1, by simpa using h2, fun k d' M' es' a b c =>
          h3 (k + 1) d' M' es' (by simpa using a) (by simpa using b) (by simpa using c)⟩
        refine ⟨T :: Ts, by simp [allSome, e1, f1], ?_⟩
        intro i j
        have := f2 i j
        unfold entryH totH at this ⊢
        rw [List.map_cons, List.sum_cons, this, e2]
        rfl

theorem vecsH_assemble {num : ℕ} : ∀ {g : DGM} {b : List (Loc (ℕ → ℚ))}, b.length = g.length →
    (∀ n ∈ g.nums, n < num) → (∀ d ∈ g, ∀ p ∈ d, p.2.Nodup) →
    ∃ vs, allSome (List.zipWith (fun d b => vassemble num (vecs (rankRows d) b)) g b) = some vs ∧
      ∀ i < num, ventryH vs i = vtotH g b i := by
  intro g
  induction g with
  | nil => intro b h _ _; exact ⟨[], by simp [allSome], fun i _ => rfl⟩
  | cons d g ih =>
    intro b h hr hn
    cases b with
    | nil => simp at h
    | cons b₀ b =>
      have hmem : ∀ x ∈ rankRows d, (x.1, x.2.1) ∈ d := by
        unfold rankRows
        simp only [List.mem_map]
        rintro x ⟨p, hp, rfl⟩; exact hp
      obtain ⟨v, e1, e2, e3⟩ := vecs_assemble (rows := rankRows d) (b := b₀) (num := num)
        (by
          intro x hx n hx'
          apply hr
          unfold DGM.nums
          simp only [List.mem_flatMap]
          exact ⟨d, by simp, _, hmem x hx, hx'⟩)
        (fun x hx => hn d (by simp) _ (hmem x hx))
      obtain ⟨vs, f1, f2⟩ := ih (b := b) (by simpa using h) (by
        intro n hx
        apply hr
        unfold DGM.nums at hx ⊢
        rw [List.flatMap_cons]
        exact List.mem_append_right _ hx) (fun d' hd' => hn d' (by simp [hd']))
      refine ⟨v :: vs, by simp [allSome, e1, f1], ?_⟩
      intro i hi
      have := f2 i hi
      unfold ventryH vtotH at this ⊢
      rw [List.map_cons, List.sum_cons, this, List.getD_eq_getElem?_getD, e3 i hi]
      rfl

/-! ### C32 -/

/-- **C32**, matrix: after any sequence of `set_dof` calls made on all ranks, the sum over the ranks of the row of
each dof that was set is the unit row, and the sums of all other rows are as before; on any number of ranks and for
any distribution of the elements. -/
theorem set_dof_parallel_matrix {g : DGM} (hd : Distinct g) (hc : Contiguous g.nums g.num) (s : SysH)
    (hA : s.A.length = g.length) (hb : s.b.length = g.length) (cs : List (ℤ × ℚ))
    (hcs : ∀ c ∈ cs, -(g.num : ℤ) ≤ c.1 ∧ c.1 < g.num) :
    ∃ s', setDofsH g s cs = some s' ∧ ∀ {dep wid : ℕ} {ess ess' : List (List El)},
      StoresH g s.A dep wid ess → StoresH g s'.A dep wid ess' →
      ∃ Ts Ts', allSome (ess.map (Assembly.assemble none dep wid)) = some Ts ∧
        allSome (ess'.map (Assembly.assemble none dep wid)) = some Ts' ∧ ∀ i j,
        ((lastSet g.num cs i).isSome → entryH Ts' i j = if j = i then 1 else 0) ∧
        (lastSet g.num cs i = none → entryH Ts' i j = entryH Ts i j) := by
  obtain ⟨s', h1, _, _, h2, _⟩ := setDofsH_tot (keys_rank hd) hc cs s hA hb hcs
  refine ⟨s', h1, ?_⟩
  intro dep wid ess ess' hs hs'
  obtain ⟨Ts, e1, e2⟩ := storesH_assemble hs
  obtain ⟨Ts', e3, e4⟩ := storesH_assemble hs'
  refine ⟨Ts, Ts', e1, e3, ?_⟩
  intro i j
  rw [e4, e2, h2]
  constructor
  · intro h; rw [if_pos h]
  · intro h; simp [h]

/-- **C32**, right hand side, for gathering matrices whose rows have no repeated numbers: the sum over the ranks of
the entry of each dof that was set is the value set last, the sums of all other entries are as before. -/
theorem set_dof_parallel_rhs_partial {g : DGM} (hd : Distinct g) (hc : Contiguous g.nums g.num) (s : SysH)
    (hA : s.A.length = g.length) (hb : s.b.length = g.length) (cs : List (ℤ × ℚ))
    (hcs : ∀ c ∈ cs, -(g.num : ℤ) ≤ c.1 ∧ c.1 < g.num) (hn : ∀ d ∈ g, ∀ p ∈ d, p.2.Nodup) :
    ∃ s', setDofsH g s cs = some s' ∧ ∃ vs vs',
      allSome (List.zipWith (fun d b => vassemble g.num (vecs (rankRows d) b)) g s.b) = some vs ∧
      allSome (List.zipWith (fun d b => vassemble g.num (vecs (rankRows d) b)) g s'.b) = some vs' ∧ ∀ i < g.num,
        (∀ x, lastSet g.num cs i = some x → ventryH vs' i = x) ∧
        (lastSet g.num cs i = none → ventryH vs' i = ventryH vs i) := by
  obtain ⟨s', h1, _, hb', _, h2⟩ := setDofsH_tot (keys_rank hd) hc cs s hA hb hcs
  obtain ⟨vs, e1, e2⟩ := vecsH_assemble hb (fun n h => num_le h) hn
  obtain ⟨vs', e3, e4⟩ := vecsH_assemble hb' (fun n h => num_le h) hn
  refine ⟨s', h1, vs, vs', e1, e3, ?_⟩
  intro i hi
  rw [e4 i hi, e2 i hi, h2]
  constructor
  · intro x h; rw [h]; rfl
  · intro h; rw [h]; rfl

/-- Two ranks whose elements share dof 1, and an element on rank 0 with no shared dof. -/
def gY : DGM := [[(0, [0, 1]), (2, [3, 4])], [(1, [1, 2])]]

/-- A system on them. -/
def sY : SysH := ⟨[⟨fun e r c => e + 2 * r + c + 1, []⟩, ⟨fun e r c => e + r + c, []⟩], [⟨fun e r => e + r + 1, []⟩, ⟨fun e r => e + r, []⟩]⟩

example : Distinct gY ∧ Contiguous gY.nums gY.num ∧ sY.A.length = gY.length ∧ sY.b.length = gY.length ∧
    (∀ d ∈ gY, ∀ p ∈ d, p.2.Nodup) ∧
    ∀ c ∈ [((1 : ℤ), (7 : ℚ)), (-1, 5)], -(gY.num : ℤ) ≤ c.1 ∧ c.1 < gY.num := by
  refine ⟨by unfold Distinct; decide, ?_, rfl, rfl, by decide, by decide +kernel⟩
  intro v
  have h1 : gY.nums = [0, 1, 3, 4, 1, 2] := by decide
  have h2 : gY.num = 5 := by decide
  rw [h1, h2]
  simp; omega

example : ((setDofsH gY sY [(1, 7), (-1, 5)]).bind fun s =>
    allSome (List.zipWith (fun d b => vassemble gY.num (vecs (rankRows d) b)) gY s.b)) =
      some [[1, 7, 0, 3, 5], [0, 0, 2, 0, 0]] := by
  decide +kernel

/-- The right hand side of **C32** is not what is set when a number is repeated in a row. -/
theorem set_dof_parallel_rhs_refuted : ∃ (g : DGM) (s : SysH) (x : ℚ), Distinct g ∧ Contiguous g.nums g.num ∧
    g.num = 1 ∧ x ≠ 0 ∧ ((setDofH g s 0 x).bind fun s =>
      allSome (List.zipWith (fun d b => vassemble g.num (vecs (rankRows d) b)) g s.b)) = some [[0], [0]] := by
  refine ⟨[[(0, [0, 0])], []], sY, 5, by unfold Distinct; decide, ?_, by decide, by norm_num, by decide +kernel⟩
  intro v
  have h1 : DGM.nums [[(0, [0, 0])], []] = [0, 0] := by decide
  have h2 : DGM.num [[(0, [0, 0])], []] = 1 := by decide
  rw [h1, h2]
  simp

/-- A call with a number out of range raises on all ranks. -/
theorem set_dof_parallel_range {g : DGM} (s : SysH) {i : ℤ} (hi : i < -(g.num : ℤ) ∨ (g.num : ℤ) ≤ i) (x : ℚ) :
    setDofH g s i x = none := by
  have : normDofH g i = none := by
    unfold normDofH
    rw [if_neg]
    split_ifs <;> omega
  unfold setDofH identifyRowH
  rw [this]
  rfl

/-- `zero_row` on all ranks: the sum over the ranks of the row is zero, all other rows are as before. -/
theorem zero_row_parallel {g : DGM} (hd : Distinct g) (A : List (Loc Mat)) (hA : A.length = g.length) {i : ℤ}
    (hi : -(g.num : ℤ) ≤ i ∧ i < g.num) :
    ∃ A', zeroRowH g A i = some A' ∧ ∀ {dep wid : ℕ} {ess ess' : List (List El)},
      StoresH g A dep wid ess → StoresH g A' dep wid ess' →
      ∃ Ts Ts', allSome (ess.map (Assembly.assemble none dep wid)) = some Ts ∧
        allSome (ess'.map (Assembly.assemble none dep wid)) = some Ts' ∧
        (∀ j, entryH Ts' (dofOf g.num i) j = 0) ∧
        ∀ d ≠ dofOf g.num i, ∀ j, entryH Ts' d j = entryH Ts d j := by
  obtain ⟨h1, h2, h3, h4⟩ := dof_norm hi
  have hnorm : normDofH g i = some (dofOf g.num i) := by
    unfold normDofH
    rw [if_pos ⟨h1, h2⟩, h3]
  refine ⟨_, by unfold zeroRowH; rw [hnorm]; rfl, ?_⟩
  intro dep wid ess ess' hs hs'
  obtain ⟨Ts, e1, e2⟩ := storesH_assemble hs
  obtain ⟨Ts', e3, e4⟩ := storesH_assemble hs'
  refine ⟨Ts, Ts', e1, e3, ?_, ?_⟩
  · intro j
    rw [e4]
    unfold totH
    have : ∀ (l : List ℚ), (∀ y ∈ l, y = 0) → l.sum = 0 := by
      intro l h
      have := sum_map_zero id h
      rwa [List.map_id] at this
    apply this
    intro y hy
    obtain ⟨k, hk⟩ := List.mem_iff_getElem?.mp hy
    obtain ⟨d, M, hd', hM, rfl⟩ := getElem?_zipWith_some hk
    obtain ⟨d', M', hd'', hM', rfl⟩ := getElem?_zipWith_some hM
    rw [hd'] at hd''; cases hd''
    apply tot_zero
    intro e l c hat
    rw [zeroRow_ed, edit_get, if_pos (at_rankRows.mp hat)]
  · intro m hm j
    rw [e4, e2]
    unfold totH
    congr 1
    apply zipWith_congr (by simp [hA])
    intro k d M' M hd' hM' hM
    obtain ⟨d', M'', hd'', hM'', rfl⟩ := getElem?_zipWith_some hM'
    rw [hd'] at hd''; cases hd''
    rw [hM] at hM''; cases hM''
    apply tot_same
    intro e l c hat
    rw [zeroRow_ed, edit_get, if_neg]
    intro h2
    rw [at_rankRows, mem_rankPlaces] at hat
    rw [mem_rankPlaces] at h2
    obtain ⟨r1, a1, a2⟩ := hat
    obtain ⟨r2, b1, b2⟩ := h2
    have := List.inj_on_of_nodup_map (keys_rank hd d (List.mem_of_getElem? hd')) a1 b1 rfl
    rw [Prod.mk.injEq] at this
    rw [this.2, b2] at a2
    exact hm (Option.some.inj a2).symm

end Phyem.Customize
