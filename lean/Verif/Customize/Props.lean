import Verif.Customize.Rank

/-!
Setting dofs of a linear system: properties C31 and C32.
-/

namespace Phyem.Customize

open Chaining Assembly

/-! ### Lemmas -/

theorem dof_norm {n : ℕ} {i : ℤ} (h : -(n : ℤ) ≤ i ∧ i < n) :
    0 ≤ (if i < 0 then i + n else i) ∧ (if i < 0 then i + n else i) < n ∧
      (if i < 0 then i + n else i).toNat = dofOf n i ∧ dofOf n i < n := by
  unfold dofOf
  split_ifs <;> omega

theorem lastSet_cons (n : ℕ) (c : ℤ × ℚ) (cs : List (ℤ × ℚ)) (d : ℕ) :
    lastSet n (c :: cs) d = (lastSet n cs d).or (if dofOf n c.1 = d then some c.2 else none) := by
  unfold lastSet
  rw [List.reverse_cons, List.find?_append]
  cases h : cs.reverse.find? fun c => decide (dofOf n c.1 = d) with
  | some x => simp
  | none =>
    by_cases hd : dofOf n c.1 = d
    · simp [hd]
    · simp [hd]

theorem setDof_step {g : GM} {n : ℕ} (hn : numDofs g = some n) (hc : Contiguous g.flatten n) (s : Sys) {i : ℤ}
    (hi : -(n : ℤ) ≤ i ∧ i < n) (v : ℚ) : ∃ s', setDof g g s i v = some s' ∧
      (∀ j, tot (gmRows g g) s'.A.get (dofOf n i) j = if j = dofOf n i then 1 else 0) ∧
      (∀ d ≠ dofOf n i, ∀ j, tot (gmRows g g) s'.A.get d j = tot (gmRows g g) s.A.get d j) ∧
      vtot (gmRows g g) s'.b.get (dofOf n i) = v ∧
      (∀ d ≠ dofOf n i, vtot (gmRows g g) s'.b.get d = vtot (gmRows g g) s.b.get d) := by
  obtain ⟨h1, h2, h3, h4⟩ := dof_norm hi
  have hnorm : normDof g i = some (dofOf n i) := by
    unfold normDof
    rw [hn, Option.bind_some, if_pos ⟨h1, h2⟩, h3]
  have hmem := (hc (dofOf n i)).mpr h4
  cases hq : whereGM g (dofOf n i) with
  | nil =>
    exfalso
    obtain ⟨e, he, hv⟩ := mem_rows.mp hmem
    obtain ⟨l, hl⟩ := List.mem_iff_getElem?.mp hv
    have : (e, l) ∈ whereGM g (dofOf n i) := mem_whereGM.mpr ⟨he, hl⟩
    rw [hq] at this
    simp at this
  | cons q qs =>
    have hnd : (q :: qs).Nodup := hq ▸ nodup_whereGM g (dofOf n i)
    obtain ⟨A', a1, a2⟩ := firstRest_spec (fun (l c : ℕ) => if c = l then (1 : ℚ) else 0) (fun _ _ => 0) s.A hnd
    obtain ⟨b', b1, b2⟩ := firstRest_spec (fun _ => v) (fun _ => 0) s.b hnd
    have hat : ∀ {e l}, At (gmRows g g) e l (dofOf n i) ↔ (e, l) ∈ q :: qs := by
      intro e l; rw [at_gmRows, hq]
    have hother : ∀ {d e l}, d ≠ dofOf n i → At (gmRows g g) e l d → (e, l) ∉ q :: qs := by
      intro d e l hd h1 h2
      rw [at_gmRows, mem_whereGM] at h1
      rw [← hq, mem_whereGM, h1.2] at h2
      exact hd (Option.some.inj h2.2)
    refine ⟨⟨A', b'⟩, ?_, ?_, ?_, ?_, ?_⟩
    · unfold setDof identifyRow setValue
      rw [if_pos rfl, hnorm, Option.bind_some, hq, unitRow_ed, zeroRow_ed, a1, Option.bind_some, Option.bind_some,
        setEntry_ed, setEntry_ed, hq, b1]
      rfl
    · refine tot_unit (keys_gmRows g g) ?_ (e₀ := q.1) (l₀ := q.2) ?_ ?_ ?_
      · unfold gmRows
        simp only [List.mem_map]
        rintro x ⟨e, _, rfl⟩; rfl
      · rw [hat]; simp
      · intro c
        rw [a2, if_pos rfl]
      · intro e l c h hne
        rw [a2, if_neg hne, if_pos (hat.mp h)]
    · intro d hd j
      apply tot_same
      intro e l c h
      have := hother hd h
      rw [List.mem_cons, not_or] at this
      rw [a2, if_neg this.1, if_neg (by rw [List.mem_cons, not_or]; exact this)]
    · rw [vtot_single (keys_gmRows g g) (e₀ := q.1) (l₀ := q.2) (hat.mpr (by simp))]
      · rw [b2, if_pos rfl]
      · intro e l h hne
        rw [b2, if_neg hne, if_pos (hat.mp h)]
    · intro d hd
      apply vtot_same
      intro e l h
      have := hother hd h
      rw [List.mem_cons, not_or] at this
      rw [b2, if_neg this.1, if_neg (by rw [List.mem_cons, not_or]; exact this)]

theorem setDofs_tot {g : GM} {n : ℕ} (hn : numDofs g = some n) (hc : Contiguous g.flatten n) :
    ∀ (cs : List (ℤ × ℚ)) (s : Sys), (∀ c ∈ cs, -(n : ℤ) ≤ c.1 ∧ c.1 < n) → ∃ s', setDofs g g s cs = some s' ∧
      (∀ i j, tot (gmRows g g) s'.A.get i j =
        if (lastSet n cs i).isSome then (if j = i then 1 else 0) else tot (gmRows g g) s.A.get i j) ∧
      (∀ i, vtot (gmRows g g) s'.b.get i = (lastSet n cs i).getD (vtot (gmRows g g) s.b.get i)) := by
  intro cs
  induction cs with
  | nil => intro s _; exact ⟨s, rfl, fun i j => rfl, fun i => rfl⟩
  | cons c cs ih =>
    intro s h
    obtain ⟨s₁, e1, u1, u2, w1, w2⟩ := setDof_step hn hc s (h c (by simp)) c.2
    obtain ⟨s', e2, t1, t2⟩ := ih s₁ fun x hx => h x (by simp [hx])
    refine ⟨s', by simp only [setDofs, e1, Option.bind_some, e2], ?_, ?_⟩
    · intro i j
      rw [t1, lastSet_cons]
      cases hl : lastSet n cs i with
      | some x => simp
      | none =>
        by_cases hd : dofOf n c.1 = i
        · subst hd; simp [u1]
        · have : i ≠ dofOf n c.1 := fun q => hd q.symm
          simp [u2 i this, hd]
    · intro i
      rw [t2, lastSet_cons]
      cases hl : lastSet n cs i with
      | some x => simp
      | none =>
        by_cases hd : dofOf n c.1 = i
        · subst hd; simp [w1]
        · have : i ≠ dofOf n c.1 := fun q => hd q.symm
          simp [w2 i this, hd]

/-! ### C31 -/

/-- **C31**, matrix: after any sequence of `set_dof` calls with numbers in range (negative ones count from the end),
the row of the assembled matrix of each dof that was set is the unit row, and all other rows are as before.  `T` and
`T'` are assembled from any stored matrices with the entries of the systems before and after. -/
theorem set_dof_matrix {g : GM} {n : ℕ} (hn : numDofs g = some n) (hc : Contiguous g.flatten n) (s : Sys)
    (cs : List (ℤ × ℚ)) (hcs : ∀ c ∈ cs, -(n : ℤ) ≤ c.1 ∧ c.1 < n) :
    ∃ s', setDofs g g s cs = some s' ∧ ∀ {dep wid : ℕ} {es es' : List El},
      Stores (gmRows g g) s.A dep wid es → Stores (gmRows g g) s'.A dep wid es' →
      ∃ T T', Assembly.assemble none dep wid es = some T ∧ Assembly.assemble none dep wid es' = some T' ∧ ∀ i j,
        ((lastSet n cs i).isSome → entryAt T' i j = if j = i then 1 else 0) ∧
        (lastSet n cs i = none → entryAt T' i j = entryAt T i j) := by
  obtain ⟨s', h1, h2, _⟩ := setDofs_tot hn hc cs s hcs
  refine ⟨s', h1, ?_⟩
  intro dep wid es es' hs hs'
  obtain ⟨T, e1, e2⟩ := stores_assemble hs
  obtain ⟨T', e3, e4⟩ := stores_assemble hs'
  refine ⟨T, T', e1, e3, ?_⟩
  intro i j
  rw [e4, e2, h2]
  constructor
  · intro h; rw [if_pos h]
  · intro h; simp [h]

/-- **C31**, right hand side, for gathering matrices whose rows have no repeated numbers: after the calls, the entry
of each dof that was set has the value set last, and all other entries are as before. -/
theorem set_dof_rhs_partial {g : GM} {n : ℕ} (hn : numDofs g = some n) (hc : Contiguous g.flatten n) (s : Sys)
    (cs : List (ℤ × ℚ)) (hcs : ∀ c ∈ cs, -(n : ℤ) ≤ c.1 ∧ c.1 < n) (hnd : ∀ row ∈ g, row.Nodup) :
    ∃ s', setDofs g g s cs = some s' ∧ ∃ v v', vassemble n (vecs (gmRows g g) s.b) = some v ∧
      vassemble n (vecs (gmRows g g) s'.b) = some v' ∧ v.length = n ∧ v'.length = n ∧ ∀ i < n,
        (∀ x, lastSet n cs i = some x → v'[i]? = some x) ∧ (lastSet n cs i = none → v'[i]? = v[i]?) := by
  obtain ⟨s', h1, _, h2⟩ := setDofs_tot hn hc cs s hcs
  have hrow : ∀ x ∈ gmRows g g, x.2.1 ∈ g := by
    unfold gmRows
    simp only [List.mem_map, List.mem_range]
    rintro x ⟨e, he, rfl⟩
    unfold rowOf
    simp [List.getElem?_eq_getElem he]
  have hr : ∀ x ∈ gmRows g g, ∀ m ∈ x.2.1, m < n := by
    intro x hx m hm
    exact (hc m).mp (List.mem_flatten.mpr ⟨x.2.1, hrow x hx, hm⟩)
  have hd : ∀ x ∈ gmRows g g, x.2.1.Nodup := fun x hx => hnd _ (hrow x hx)
  obtain ⟨v, a1, a2, a3⟩ := vecs_assemble (b := s.b) hr hd
  obtain ⟨v', b1, b2, b3⟩ := vecs_assemble (b := s'.b) hr hd
  refine ⟨s', h1, v, v', a1, b1, a2, b2, ?_⟩
  intro i hi
  rw [a3 i hi, b3 i hi, h2]
  constructor
  · intro x h; rw [h]; rfl
  · intro h; rw [h]; rfl

/-- Two elements that share dof 1. -/
def gX : GM := [[0, 1], [1, 2]]

/-- A system on them. -/
def sX : Sys := ⟨⟨fun e r c => e + 2 * r + c + 1, []⟩, ⟨fun e r => e + r + 1, []⟩⟩

example : numDofs gX = some 3 ∧ Contiguous gX.flatten 3 ∧ (∀ row ∈ gX, row.Nodup) ∧
    (∀ c ∈ [((-2 : ℤ), (7 : ℚ)), (0, 5), (1, 8)], -((3 : ℕ) : ℤ) ≤ c.1 ∧ c.1 < (3 : ℕ)) := by
  refine ⟨by decide, ?_, by decide, by decide +kernel⟩
  intro v
  simp [gX]; omega

example : lastSet 3 [((-2 : ℤ), (7 : ℚ)), (0, 5), (1, 8)] 1 = some 8 ∧ lastSet 3 [((-2 : ℤ), (7 : ℚ)), (0, 5), (1, 8)] 2 = none ∧
    ((setDofs gX gX sX [(-2, 7), (0, 5), (1, 8)]).bind fun s => vassemble 3 (vecs (gmRows gX gX) s.b)) = some [5, 8, 3] := by
  decide +kernel

example : ∃ es, Stores (gmRows gX gX) sX.A 3 3 es := stores_exists (by decide +kernel)

/-- The right hand side of **C31** is not what is set when a number is repeated in a row of the gathering matrix: the
first place gets the value, the others get zero, and assembling keeps the last one only. -/
theorem set_dof_rhs_refuted : ∃ (g : GM) (n : ℕ) (s : Sys) (i : ℤ) (x : ℚ), numDofs g = some n ∧
    Contiguous g.flatten n ∧ 0 ≤ i ∧ i < n ∧ x ≠ 0 ∧
    ((setDof g g s i x).bind fun s => vassemble n (vecs (gmRows g g) s.b)) = some [0] := by
  refine ⟨[[0, 0]], 1, sX, 0, 5, by decide, ?_, by decide, by decide, by norm_num, by decide +kernel⟩
  intro v
  simp

/-- A call with a number out of range raises, and nothing is set. -/
theorem set_dof_range {g : GM} {n : ℕ} (hn : numDofs g = some n) (s : Sys) {i : ℤ} (hi : i < -(n : ℤ) ∨ (n : ℤ) ≤ i)
    (x : ℚ) : setDof g g s i x = none := by
  have : normDof g i = none := by
    unfold normDof
    rw [hn, Option.bind_some, if_neg]
    split_ifs <;> omega
  unfold setDof identifyRow
  rw [if_pos rfl, this]
  rfl

end Phyem.Customize
