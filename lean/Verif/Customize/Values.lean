import Verif.Customize.Props
import Verif.Chaining.Props

/-!
Customising several rows or entries of an msepy matrix or vector at once, and dofs given by their place: properties
C37, C60 and C69.
-/

namespace Phyem.Customize

open Chaining Assembly

/-! ### Model -/

/-- For each dof of the answer of the look-up: the first place is edited by `f`, the others by `f'`;
`identify_diagonal`, msepy/tools/matrix/static/local.py:531-580, and `set_values` of a vector,
msepy/tools/vector/static/local.py:297-340.  (The code first collects the rows of each element; a place belongs to one
dof only, so the order does not matter.) -/
def groupEdit {α : Type} (f f' : ℕ → α → ℕ → α) : Dict ℕ (List (ℕ × ℕ)) → Loc α → Option (Loc α)
  | [], M => some M
  | p :: D, M => (firstRest (f p.1) (f' p.1) M p.2).bind (groupEdit f f' D)

/-- `identify_diagonal`, msepy/tools/matrix/static/local.py:531-580. -/
def identifyDiagonal (row col : GM) (M : Loc Mat) (dofs : List ℕ) : Option (Loc Mat) :=
  if row = col then (locate row dofs).bind fun D => groupEdit (fun _ => unitRow) (fun _ => zeroRow) D M else none

/-- `dof_cochain_dict`: the first value of a dof counts, msepy/tools/vector/static/local.py:306-311. -/
def firstWins : List (ℕ × ℚ) → Dict ℕ ℚ → Dict ℕ ℚ
  | [], D => D
  | c :: cs, D => firstWins cs (if (Dict.get D c.1).isSome then D else Dict.put D c.1 c.2)

/-- `set_values` of a vector, msepy/tools/vector/static/local.py:297-340 (for the aliasing of data see C36). -/
def setValuesV (g : GM) (b : Loc (ℕ → ℚ)) (cs : List (ℕ × ℚ)) : Option (Loc (ℕ → ℚ)) :=
  (locate g (Dict.keys (firstWins cs []))).bind fun D =>
    groupEdit (fun n d l => setEntry d l ((Dict.get (firstWins cs []) n).getD 0)) (fun _ d l => setEntry d l 0) D b

/-- `data[r, c] = v`. -/
def setAt (D : Mat) (r c : ℕ) (v : ℚ) : Mat := fun r' c' => if r' = r ∧ c' = c then v else D r' c'

/-- The place of an entry: element, row, column, value; `none` for the two exceptions,
msepy/tools/matrix/static/local.py:648-678. -/
def position (r c : List (ℕ × ℕ)) (v : ℚ) : Option (ℕ × ℕ × ℕ × ℚ) :=
  match r, c with
  | [p], [q] => if p.1 = q.1 then some (p.1, p.2, q.2, v) else none
  | _, _ => none

/-- The loop `for global_row, global_col, val in zip(elements_local_rows, elements_local_cols, vals)`. -/
def positions : Dict ℕ (List (ℕ × ℕ)) → Dict ℕ (List (ℕ × ℕ)) → List ℚ → Option (List (ℕ × ℕ × ℕ × ℚ))
  | r :: R, c :: C, v :: vs => (position r.2 c.2 v).bind fun p => (positions R C vs).map (p :: ·)
  | _, _, _ => some []

/-- The entries are written (the code collects those of an element first; entries of different elements do not
interfere). -/
def writeEntries (M : Loc Mat) (ps : List (ℕ × ℕ × ℕ × ℚ)) : Loc Mat :=
  ps.foldl (fun M p => M.set p.1 (setAt (M.get p.1) p.2.1 p.2.2.1 p.2.2.2)) M

/-- `set_values` of a matrix, msepy/tools/matrix/static/local.py:603-687, for lists. -/
def setValuesM (row col : GM) (M : Loc Mat) (rows cols : List ℕ) (vals : List ℚ) : Option (Loc Mat) :=
  if rows.length = cols.length ∧ cols.length = vals.length then
    (locate row rows).bind fun R => (locate col cols).bind fun C => (positions R C vals).map (writeEntries M)
  else none

/-- `set_zero`, msepy/tools/matrix/static/local.py:689-714. -/
def setZero (row : GM) (M : Loc Mat) (dofs : List ℕ) : Option (Loc Mat) :=
  (locate row dofs).map fun D => Loc.edit zeroRow M (D.flatMap Prod.snd)

/-- `set_values_and_zero_rest`, msepy/tools/matrix/static/local.py:582-601. -/
def setValuesZeroRest (row col : GM) (M : Loc Mat) (rows cols : List ℕ) (vals : List ℚ) : Option (Loc Mat) :=
  (setZero row M rows).bind fun M' => setValuesM row col M' rows cols vals

/-- Python indexing of a list of `n` items. -/
def pyIndex (n : ℕ) (i : ℤ) : Option ℕ :=
  if 0 ≤ i ∧ i < n then some i.toNat else if -(n : ℤ) ≤ i ∧ i < 0 then some (i + n).toNat else none

/-- `shape[1]` of a (rectangular) gathering matrix. -/
def width (g : GM) : ℕ := (rowOf g 0).length

/-- `set_local_dof_ij_of_unknown_k_to_value`, msepy/tools/linear_system/static/local/customize.py:52-95; `c` is the
chained gathering matrix of the rows.  (A negative `i` is increased by the number of local dofs, line 74.) -/
def setLocalIJ (gms : List GM) (c : GM) (s : Sys) (i j k : ℤ) (v : ℚ) : Option Sys :=
  (pyIndex gms.length k).bind fun k' => gms[k']?.bind fun g =>
    if 0 ≤ (if i < 0 then i + width g else i) ∧ (if i < 0 then i + width g else i) < g.length then
      if 0 ≤ (if j < 0 then j + width g else j) ∧ (if j < 0 then j + width g else j) < width g then
        (rowOf c (if i < 0 then i + width g else i).toNat)[
          (if j < 0 then j + width g else j).toNat + ((gms.take k').map width).sum]?.bind fun m =>
            setDof c c s (m : ℤ) v
      else none
    else none

/-- `set_local_dof`, msepy/tools/linear_system/static/local/customize.py:26-50: no check of the local index. -/
def setLocalDof (gms : List GM) (c : GM) (s : Sys) (k : ℕ) (e l : ℤ) (v : ℚ) : Option Sys :=
  if k ≤ gms.length then
    (pyIndex c.length e).bind fun e' =>
      (pyIndex (rowOf c e').length (((gms.take k).map width).sum + l)).bind fun p =>
        (rowOf c e')[p]?.bind fun m => setDof c c s (m : ℤ) v
  else none

/-! ### Lemmas -/

theorem fold_put {V : Type} (f : ℕ → V) : ∀ (ds : List ℕ) (D : Dict ℕ V), (Dict.keys D).Nodup → (∀ p ∈ D, p.2 = f p.1) →
    (Dict.keys (ds.foldl (fun m d => Dict.put m d (f d)) D)).Nodup ∧
      (∀ p ∈ ds.foldl (fun m d => Dict.put m d (f d)) D, p.2 = f p.1) ∧
      ∀ k, k ∈ Dict.keys (ds.foldl (fun m d => Dict.put m d (f d)) D) ↔ k ∈ Dict.keys D ∨ k ∈ ds := by
  intro ds
  induction ds with
  | nil => intro D h1 h2; exact ⟨h1, h2, by simp⟩
  | cons d ds ih =>
    intro D h1 h2
    rw [List.foldl_cons]
    have h1' := Dict.nodup_put D d (f d) h1
    obtain ⟨a, b, c⟩ := ih (Dict.put D d (f d)) h1' (by
      intro p hp
      have := Dict.get_of_mem _ h1' p.1 p.2 hp
      rw [Dict.get_put] at this
      by_cases hd : p.1 = d
      · rw [if_pos hd, Option.some.injEq] at this; rw [← this, hd]
      · rw [if_neg hd] at this
        exact h2 _ (Dict.get_mem _ _ _ this))
    refine ⟨a, b, ?_⟩
    intro k
    rw [c, Dict.mem_keys_put, List.mem_cons]
    tauto

theorem fold_put_nodup {V : Type} (f : ℕ → V) : ∀ (ds : List ℕ) (D : Dict ℕ V), ds.Nodup → (∀ d ∈ ds, d ∉ Dict.keys D) →
    ds.foldl (fun m d => Dict.put m d (f d)) D = D ++ ds.map fun d => (d, f d) := by
  intro ds
  induction ds with
  | nil => intro D _ _; simp
  | cons d ds ih =>
    intro D hn hd
    rw [List.nodup_cons] at hn
    have hput : Dict.put D d (f d) = D ++ [(d, f d)] := by
      have : d ∉ Dict.keys D := hd d (by simp)
      clear ih hd
      induction D with
      | nil => rfl
      | cons p D ihD =>
        simp only [Dict.keys, List.map_cons, List.mem_cons, not_or] at this
        unfold Dict.put
        rw [if_neg (fun h => this.1 h.symm), ihD this.2]
        rfl
    rw [List.foldl_cons, hput, ih _ hn.2]
    · simp
    · intro x hx
      unfold Dict.keys
      rw [List.map_append, List.mem_append, not_or]
      refine ⟨hd x (by simp [hx]), ?_⟩
      simp
      rintro rfl
      exact hn.1 hx

theorem first_matrix {g : GM} {n : ℕ} (hn : numDofs g = some n) (hc : Contiguous g.flatten n) (M : Loc Mat) {d : ℕ}
    (hd : d < n) : ∃ M', firstRest unitRow zeroRow M (whereGM g d) = some M' ∧
      (∀ j, tot (gmRows g g) M'.get d j = if j = d then 1 else 0) ∧
      ∀ d' ≠ d, ∀ j, tot (gmRows g g) M'.get d' j = tot (gmRows g g) M.get d' j := by
  obtain ⟨s', h1, h2, h3, _⟩ := setDof_step hn hc ⟨M, ⟨fun _ _ => 0, []⟩⟩ (i := (d : ℤ)) (by omega) 0
  have hdof : dofOf n (d : ℤ) = d := by unfold dofOf; rw [if_neg (by omega)]; omega
  have hnorm : normDof g (d : ℤ) = some d := by
    unfold normDof
    rw [hn, Option.bind_some, if_neg (by omega : ¬ (d : ℤ) < 0), if_pos (by omega)]
    rfl
  rw [hdof] at h2 h3
  unfold setDof identifyRow at h1
  rw [if_pos rfl, hnorm, Option.bind_some] at h1
  rw [Option.bind_eq_some_iff] at h1
  obtain ⟨M', a1, a2⟩ := h1
  rw [Option.map_eq_some_iff] at a2
  obtain ⟨b', _, rfl⟩ := a2
  exact ⟨M', a1, h2, h3⟩

theorem first_vector {g : GM} {n : ℕ} (hn : numDofs g = some n) (hc : Contiguous g.flatten n) (b : Loc (ℕ → ℚ)) {d : ℕ}
    (hd : d < n) (v : ℚ) :
    ∃ b', firstRest (fun d l => setEntry d l v) (fun d l => setEntry d l 0) b (whereGM g d) = some b' ∧
      vtot (gmRows g g) b'.get d = v ∧ ∀ d' ≠ d, vtot (gmRows g g) b'.get d' = vtot (gmRows g g) b.get d' := by
  obtain ⟨s', h1, _, _, h2, h3⟩ := setDof_step hn hc ⟨⟨fun _ _ _ => 0, []⟩, b⟩ (i := (d : ℤ)) (by omega) v
  have hdof : dofOf n (d : ℤ) = d := by unfold dofOf; rw [if_neg (by omega)]; omega
  have hnorm : normDof g (d : ℤ) = some d := by
    unfold normDof
    rw [hn, Option.bind_some, if_neg (by omega : ¬ (d : ℤ) < 0), if_pos (by omega)]
    rfl
  rw [hdof] at h2 h3
  unfold setDof setValue at h1
  rw [Option.bind_eq_some_iff] at h1
  obtain ⟨M', _, a2⟩ := h1
  rw [Option.map_eq_some_iff, hnorm] at a2
  obtain ⟨b', a3, rfl⟩ := a2
  exact ⟨b', a3, h2, h3⟩

theorem group_matrix {g : GM} {n : ℕ} (hn : numDofs g = some n) (hc : Contiguous g.flatten n) :
    ∀ (D : Dict ℕ (List (ℕ × ℕ))) (M : Loc Mat), (∀ p ∈ D, p.1 < n ∧ p.2 = whereGM g p.1) →
      ∃ M', groupEdit (fun _ => unitRow) (fun _ => zeroRow) D M = some M' ∧
        ∀ i j, tot (gmRows g g) M'.get i j =
          if i ∈ Dict.keys D then (if j = i then 1 else 0) else tot (gmRows g g) M.get i j := by
  intro D
  induction D with
  | nil => intro M _; exact ⟨M, rfl, fun i j => by simp [Dict.keys]⟩
  | cons p D ih =>
    intro M hD
    obtain ⟨hp1, hp2⟩ := hD p (by simp)
    obtain ⟨M₁, a1, a2, a3⟩ := first_matrix hn hc M hp1
    obtain ⟨M', b1, b2⟩ := ih M₁ fun q hq => hD q (by simp [hq])
    refine ⟨M', by unfold groupEdit; rw [hp2, a1, Option.bind_some, b1], ?_⟩
    intro i j
    rw [b2]
    unfold Dict.keys
    rw [List.map_cons]
    by_cases h1 : i ∈ D.map Prod.fst
    · rw [if_pos h1, if_pos (List.mem_cons_of_mem _ h1)]
    · rw [if_neg h1]
      by_cases h2 : i = p.1
      · rw [if_pos (by rw [h2]; simp), h2, a2]
      · rw [if_neg (by rw [List.mem_cons, not_or]; exact ⟨h2, h1⟩), a3 i h2]

theorem group_vector {g : GM} {n : ℕ} (hn : numDofs g = some n) (hc : Contiguous g.flatten n) (w : ℕ → ℚ) :
    ∀ (D : Dict ℕ (List (ℕ × ℕ))) (b : Loc (ℕ → ℚ)), (∀ p ∈ D, p.1 < n ∧ p.2 = whereGM g p.1) →
      ∃ b', groupEdit (fun n d l => setEntry d l (w n)) (fun _ d l => setEntry d l 0) D b = some b' ∧
        ∀ i, vtot (gmRows g g) b'.get i = if i ∈ Dict.keys D then w i else vtot (gmRows g g) b.get i := by
  intro D
  induction D with
  | nil => intro b _; exact ⟨b, rfl, fun i => by simp [Dict.keys]⟩
  | cons p D ih =>
    intro b hD
    obtain ⟨hp1, hp2⟩ := hD p (by simp)
    obtain ⟨b₁, a1, a2, a3⟩ := first_vector hn hc b hp1 (w p.1)
    obtain ⟨b', b1, b2⟩ := ih b₁ fun q hq => hD q (by simp [hq])
    refine ⟨b', by unfold groupEdit; rw [hp2, a1, Option.bind_some, b1], ?_⟩
    intro i
    rw [b2]
    unfold Dict.keys
    rw [List.map_cons]
    by_cases h1 : i ∈ D.map Prod.fst
    · rw [if_pos h1, if_pos (List.mem_cons_of_mem _ h1)]
    · rw [if_neg h1]
      by_cases h2 : i = p.1
      · rw [if_pos (by rw [h2]; simp), h2, a2]
      · rw [if_neg (by rw [List.mem_cons, not_or]; exact ⟨h2, h1⟩), a3 i h2]

theorem locate_some {g : GM} {n : ℕ} (hn : numDofs g = some n) {ds : List ℕ} (h : ∀ d ∈ ds, d < n) :
    ∃ D, locate g ds = some D ∧ (Dict.keys D).Nodup ∧ (∀ p ∈ D, p.1 < n ∧ p.2 = whereGM g p.1) ∧
      ∀ k, k ∈ Dict.keys D ↔ k ∈ ds := by
  obtain ⟨a, b, c⟩ := fold_put (whereGM g) ds [] (by simp [Dict.keys]) (by simp)
  have c' : ∀ k, k ∈ Dict.keys (ds.foldl (fun m d => Dict.put m d (whereGM g d)) []) ↔ k ∈ ds := by
    intro k; rw [c]; simp [Dict.keys]
  refine ⟨_, by unfold locate; rw [hn, Option.bind_some, if_pos h], a, ?_, c'⟩
  intro p hp
  exact ⟨h p.1 ((c' p.1).mp (List.mem_map_of_mem hp)), b p hp⟩

theorem get_firstWins (cs : List (ℕ × ℚ)) : ∀ (D : Dict ℕ ℚ) (k : ℕ),
    Dict.get (firstWins cs D) k = (Dict.get D k).or ((cs.find? fun c => decide (c.1 = k)).map Prod.snd) := by
  induction cs with
  | nil => intro D k; simp [firstWins]
  | cons c cs ih =>
    intro D k
    unfold firstWins
    rw [ih, List.find?_cons]
    by_cases hc : (Dict.get D c.1).isSome
    · rw [if_pos hc]
      by_cases hk : c.1 = k
      · obtain ⟨v, hv⟩ := Option.isSome_iff_exists.mp hc
        rw [← hk, hv]; rfl
      · rw [decide_eq_false hk]
    · rw [if_neg hc, Dict.get_put]
      by_cases hk : c.1 = k
      · have : Dict.get D k = none := by
          rw [← hk]; simpa using hc
        rw [if_pos hk.symm, this, decide_eq_true hk]; rfl
      · rw [if_neg fun h => hk h.symm, decide_eq_false hk]

/-! ### C69 -/

/-- **C69**, matrix: after `identify_diagonal(dofs)` the rows of the dofs of the assembled matrix are unit rows, all
other rows are as before; dofs may be repeated in the list, and lie in several elements. -/
theorem identify_diagonal {g : GM} {n : ℕ} (hn : numDofs g = some n) (hc : Contiguous g.flatten n) (M : Loc Mat)
    (dofs : List ℕ) (hd : ∀ d ∈ dofs, d < n) :
    ∃ M', identifyDiagonal g g M dofs = some M' ∧ ∀ {dep wid : ℕ} {es es' : List El},
      Stores (gmRows g g) M dep wid es → Stores (gmRows g g) M' dep wid es' →
      ∃ T T', Assembly.assemble none dep wid es = some T ∧ Assembly.assemble none dep wid es' = some T' ∧ ∀ i j,
        (i ∈ dofs → entryAt T' i j = if j = i then 1 else 0) ∧ (i ∉ dofs → entryAt T' i j = entryAt T i j) := by
  obtain ⟨D, d1, _, d3, d4⟩ := locate_some hn hd
  obtain ⟨M', m1, m2⟩ := group_matrix hn hc D M d3
  refine ⟨M', by unfold identifyDiagonal; rw [if_pos rfl, d1, Option.bind_some, m1], ?_⟩
  intro dep wid es es' hs hs'
  obtain ⟨T, e1, e2⟩ := stores_assemble hs
  obtain ⟨T', e3, e4⟩ := stores_assemble hs'
  refine ⟨T, T', e1, e3, ?_⟩
  intro i j
  rw [e4, e2, m2]
  constructor
  · intro h; rw [if_pos ((d4 i).mpr h)]
  · intro h; rw [if_neg fun h' => h ((d4 i).mp h')]

/-- **C69**, right hand side, for gathering matrices whose rows have no repeated numbers: after
`set_values(dofs, values)` the entry of each dof is its (first) value, all other entries are as before. -/
theorem set_values_vector_partial {g : GM} {n : ℕ} (hn : numDofs g = some n) (hc : Contiguous g.flatten n)
    (b : Loc (ℕ → ℚ)) (cs : List (ℕ × ℚ)) (hd : ∀ c ∈ cs, c.1 < n) (hnd : ∀ row ∈ g, row.Nodup) :
    ∃ b', setValuesV g b cs = some b' ∧ ∃ v v', vassemble n (vecs (gmRows g g) b) = some v ∧
      vassemble n (vecs (gmRows g g) b') = some v' ∧ v.length = n ∧ v'.length = n ∧ ∀ i < n,
        (∀ c, cs.find? (fun c => decide (c.1 = i)) = some c → v'[i]? = some c.2) ∧
        ((∀ c ∈ cs, c.1 ≠ i) → v'[i]? = v[i]?) := by
  have hkeys : ∀ k, k ∈ Dict.keys (firstWins cs []) ↔ ∃ c ∈ cs, c.1 = k := by
    intro k
    rw [← Dict.get_isSome, get_firstWins]
    simp only [Dict.get, Option.none_or, Option.isSome_map, List.find?_isSome, decide_eq_true_eq]
  obtain ⟨D, d1, _, d3, d4⟩ := locate_some hn (ds := Dict.keys (firstWins cs [])) (by
    intro d h
    obtain ⟨c, h1, rfl⟩ := (hkeys d).mp h
    exact hd c h1)
  obtain ⟨b', m1, m2⟩ := group_vector hn hc (fun i => (Dict.get (firstWins cs []) i).getD 0) D b d3
  have hrow : ∀ x ∈ gmRows g g, x.2.1 ∈ g := by
    unfold gmRows
    simp only [List.mem_map, List.mem_range]
    rintro x ⟨e, he, rfl⟩
    unfold rowOf
    simp [List.getElem?_eq_getElem he]
  have hr : ∀ x ∈ gmRows g g, ∀ m ∈ x.2.1, m < n := by
    intro x hx m hm
    exact (hc m).mp (List.mem_flatten.mpr ⟨x.2.1, hrow x hx, hm⟩)
  have hd' : ∀ x ∈ gmRows g g, x.2.1.Nodup := fun x hx => hnd _ (hrow x hx)
  obtain ⟨v, a1, a2, a3⟩ := vecs_assemble (b := b) hr hd'
  obtain ⟨v', b1, b2, b3⟩ := vecs_assemble (b := b') hr hd'
  refine ⟨b', by unfold setValuesV; rw [d1, Option.bind_some, m1], v, v', a1, b1, a2, b2, ?_⟩
  intro i hi
  rw [a3 i hi, b3 i hi, m2]
  constructor
  · intro c h
    have hm := List.mem_of_find?_eq_some h
    have hk := List.find?_some h
    rw [if_pos ((d4 i).mpr ((hkeys i).mpr ⟨c, hm, by simpa using hk⟩)), get_firstWins, h]
    rfl
  · intro h
    rw [if_neg fun h' => by
      obtain ⟨c, h1, h2⟩ := (hkeys i).mp ((d4 i).mp h')
      exact h c h1 h2]

example : ((setValuesV gX sX.b [(1, 8), (0, 5), (1, 9)]).bind fun b => vassemble 3 (vecs (gmRows gX gX) b)) =
    some [5, 8, 3] := by decide +kernel

example : ∀ d ∈ [1, 0, 1], d < 3 := by decide

/-! ### C37 -/

theorem writeEntries_get : ∀ (ps : List (ℕ × ℕ × ℕ × ℚ)) (M : Loc Mat) (e r c : ℕ),
    (writeEntries M ps).get e r c =
      ((ps.reverse.find? fun p => decide (p.1 = e ∧ p.2.1 = r ∧ p.2.2.1 = c)).map fun p => p.2.2.2).getD (M.get e r c) := by
  intro ps
  induction ps with
  | nil => intro M e r c; rfl
  | cons p ps ih =>
    intro M e r c
    unfold writeEntries at ih ⊢
    rw [List.foldl_cons, ih, List.reverse_cons, List.find?_append]
    cases ps.reverse.find? fun p => decide (p.1 = e ∧ p.2.1 = r ∧ p.2.2.1 = c) with
    | some q => rfl
    | none =>
      rw [Option.none_or, List.find?_singleton, get_set]
      unfold setAt
      by_cases he : p.1 = e
      · rw [if_pos he.symm]
        by_cases hrc : p.2.1 = r ∧ p.2.2.1 = c
        · rw [if_pos ⟨hrc.1.symm, hrc.2.symm⟩]
          simp [he, hrc]
        · rw [if_neg fun h => hrc ⟨h.1.symm, h.2.symm⟩]
          have : ¬ (p.1 = e ∧ p.2.1 = r ∧ p.2.2.1 = c) := fun h => hrc h.2
          rw [decide_eq_false this, he]
          rfl
      · rw [if_neg fun h => he h.symm]
        have : ¬ (p.1 = e ∧ p.2.1 = r ∧ p.2.2.1 = c) := fun h => he h.1
        simp [this]

theorem position_some {r c : List (ℕ × ℕ)} {v : ℚ} {p : ℕ × ℕ × ℕ × ℚ} :
    position r c v = some p ↔ r = [(p.1, p.2.1)] ∧ c = [(p.1, p.2.2.1)] ∧ p.2.2.2 = v := by
  obtain ⟨e, x, y, w⟩ := p
  constructor
  · intro h
    unfold position at h
    split at h
    · rename_i a b
      split at h
      · rename_i hab
        simp only [Option.some.injEq, Prod.mk.injEq] at h
        obtain ⟨h1, h2, h3, h4⟩ := h
        subst h1 h2 h3 h4
        exact ⟨rfl, by rw [hab], rfl⟩
      · simp at h
    · simp at h
  · rintro ⟨rfl, rfl, rfl⟩
    simp [position]

theorem positions_spec {row col : GM} : ∀ {rows cols : List ℕ} {vals : List ℚ}, rows.length = cols.length →
    cols.length = vals.length → ∀ {ps}, positions (rows.map fun d => (d, whereGM row d))
      (cols.map fun d => (d, whereGM col d)) vals = some ps ↔ ps.length = rows.length ∧
        ∀ (k : ℕ) r c v p, rows[k]? = some r → cols[k]? = some c → vals[k]? = some v → ps[k]? = some p →
          position (whereGM row r) (whereGM col c) v = some p := by
  intro rows
  induction rows with
  | nil =>
    intro cols vals h1 h2 ps
    simp only [List.map_nil, positions, Option.some.injEq, List.length_nil]
    constructor
    · rintro rfl; exact ⟨rfl, by simp⟩
    · rintro ⟨h, _⟩; exact (List.length_eq_zero_iff.mp h).symm
  | cons r rows ih =>
    intro cols vals h1 h2 ps
    cases cols with
    | nil => simp at h1
    | cons c cols =>
      cases vals with
      | nil => simp at h2
      | cons v vals =>
        simp only [List.length_cons, Nat.add_right_cancel_iff] at h1 h2
        simp only [List.map_cons, positions, Option.bind_eq_some_iff, Option.map_eq_some_iff]
        constructor
        · rintro ⟨p, hp, ps', hps, rfl⟩
          obtain ⟨l, h⟩ := (ih h1 h2).mp hps
          refine ⟨by simp [l], ?_⟩
          intro k r' c' v' p' a1 a2 a3 a4
          cases k with
          | zero => simp at a1 a2 a3 a4; subst a1 a2 a3 a4; exact hp
          | succ k => exact h k r' c' v' p' (by simpa using a1) (by simpa using a2) (by simpa using a3) (by simpa using a4)
        · rintro ⟨l, h⟩
          cases ps with
          | nil => simp at l
          | cons p ps =>
            refine ⟨p, h 0 r c v p rfl rfl rfl rfl, ps, ?_, rfl⟩
            rw [ih h1 h2]
            refine ⟨by simpa using l, ?_⟩
            intro k r' c' v' p' a1 a2 a3 a4
            exact h (k + 1) r' c' v' p' (by simpa using a1) (by simpa using a2) (by simpa using a3) (by simpa using a4)

theorem locate_nodup {g : GM} {n : ℕ} (hn : numDofs g = some n) {ds : List ℕ} (hd : ds.Nodup) :
    locate g ds = if ∀ d ∈ ds, d < n then some (ds.map fun d => (d, whereGM g d)) else none := by
  unfold locate
  rw [hn, Option.bind_some]
  by_cases h : ∀ d ∈ ds, d < n
  · rw [if_pos h, if_pos h, fold_put_nodup (whereGM g) ds [] hd (by simp [Dict.keys])]
    rfl
  · rw [if_neg h, if_neg h]

/-- When `set_values` of a matrix succeeds, for lists without repetitions: each row dof and each column dof is in one
place only, in the same element. -/
theorem set_values_success {row col : GM} {n m : ℕ} (hr : numDofs row = some n) (hc : numDofs col = some m) (M : Loc Mat)
    {rows cols : List ℕ} {vals : List ℚ} (h1 : rows.length = cols.length) (h2 : cols.length = vals.length)
    (hrn : rows.Nodup) (hcn : cols.Nodup) :
    (setValuesM row col M rows cols vals).isSome ↔ (∀ d ∈ rows, d < n) ∧ (∀ d ∈ cols, d < m) ∧
      ∀ (k : ℕ) r c, rows[k]? = some r → cols[k]? = some c → ∃ e lr lc, whereGM row r = [(e, lr)] ∧
        whereGM col c = [(e, lc)] := by
  unfold setValuesM
  rw [if_pos ⟨h1, h2⟩, locate_nodup hr hrn, locate_nodup hc hcn]
  by_cases hR : ∀ d ∈ rows, d < n
  · by_cases hC : ∀ d ∈ cols, d < m
    · rw [if_pos hR, if_pos hC]
      simp only [Option.bind_some, Option.isSome_map]
      rw [Option.isSome_iff_exists]
      constructor
      · rintro ⟨ps, hps⟩
        obtain ⟨l, h⟩ := (positions_spec h1 h2).mp hps
        refine ⟨hR, hC, ?_⟩
        intro k r c a1 a2
        have hk := (List.getElem?_eq_some_iff.mp a1).1
        have := h k r c _ _ a1 a2 (List.getElem?_eq_getElem (by omega)) (List.getElem?_eq_getElem (by omega))
        obtain ⟨q1, q2, _⟩ := position_some.mp this
        exact ⟨_, _, _, q1, q2⟩
      · rintro ⟨_, _, h⟩
        have : ∀ (rows cols : List ℕ) (vals : List ℚ), rows.length = cols.length → cols.length = vals.length →
            (∀ (k : ℕ) r c, rows[k]? = some r → cols[k]? = some c → ∃ e lr lc, whereGM row r = [(e, lr)] ∧
              whereGM col c = [(e, lc)]) →
            ∃ ps, positions (rows.map fun d => (d, whereGM row d)) (cols.map fun d => (d, whereGM col d)) vals = some ps := by
          intro rows
          induction rows with
          | nil => intro cols vals _ _ _; exact ⟨[], by simp [positions]⟩
          | cons r rows ih =>
            intro cols vals a1 a2 h
            cases cols with
            | nil => simp at a1
            | cons c cols =>
              cases vals with
              | nil => simp at a2
              | cons v vals =>
                obtain ⟨e, lr, lc, q1, q2⟩ := h 0 r c rfl rfl
                obtain ⟨ps, hps⟩ := ih cols vals (by simpa using a1) (by simpa using a2)
                  fun k r' c' b1 b2 => h (k + 1) r' c' (by simpa using b1) (by simpa using b2)
                refine ⟨(e, lr, lc, v) :: ps, ?_⟩
                simp only [List.map_cons, positions]
                rw [position_some (p := (e, lr, lc, v)) |>.mpr ⟨q1, q2, rfl⟩, Option.bind_some, hps]
                rfl
        exact this rows cols vals h1 h2 h
    · rw [if_pos hR, if_neg hC]
      simp only [Option.bind_some, Option.bind_none]
      constructor
      · intro h; simp at h
      · rintro ⟨_, h, _⟩; exact absurd h hC
  · rw [if_neg hR]
    constructor
    · intro h; simp at h
    · rintro ⟨h, _⟩; exact absurd h hR

theorem tot_one {rows : Rows} (hk : (rows.map Prod.fst).Nodup) {M : ℕ → Mat} {i j e l l' : ℕ} {gr gc : List ℕ}
    (hx : (e, gr, gc) ∈ rows) (hl : gr[l]? = some i) (hl' : gc[l']? = some j)
    (h1 : ∀ e' r, At rows e' r i → e' = e ∧ r = l) (h2 : ∀ c, gc[c]? = some j → c = l') :
    tot rows M i j = M e l l' := by
  unfold tot
  rw [sum_map_single _ (List.Nodup.of_map _ hk) hx]
  · unfold share
    rw [Finset.sum_eq_single l, Finset.sum_eq_single l', if_pos ⟨hl, hl'⟩]
    · intro c _ hne
      rw [if_neg fun h => hne (h2 c h.2)]
    · intro h
      exact absurd (Finset.mem_range.mpr (List.getElem?_eq_some_iff.mp hl').1) h
    · intro r _ hne
      apply Finset.sum_eq_zero
      intro c _
      rw [if_neg fun h => hne (h1 e r ⟨_, hx, rfl, h.1⟩).2]
    · intro h
      exact absurd (Finset.mem_range.mpr (List.getElem?_eq_some_iff.mp hl).1) h
  · intro y hy hne
    unfold share
    apply Finset.sum_eq_zero
    intro r _
    apply Finset.sum_eq_zero
    intro c _
    rw [if_neg]
    rintro ⟨h, _⟩
    have := (h1 y.1 r ⟨y, hy, rfl, h⟩).1
    exact hne (List.inj_on_of_nodup_map hk hy hx this)

/-- **C37**, for lists without repeated rows or columns: if `set_values(rows, cols, vals)` succeeds, entry
`(rows[k], cols[k])` of the assembled matrix is `vals[k]` for each `k`, and all other entries are as before. -/
theorem set_values_matrix_partial {row col : GM} {n m : ℕ} (hr : numDofs row = some n) (hc : numDofs col = some m)
    {M M' : Loc Mat} {rows cols : List ℕ} {vals : List ℚ} (hrn : rows.Nodup) (hcn : cols.Nodup)
    (hM : setValuesM row col M rows cols vals = some M') {dep wid : ℕ} {es es' : List El}
    (hs : Stores (gmRows row col) M dep wid es) (hs' : Stores (gmRows row col) M' dep wid es') :
    ∃ T T', Assembly.assemble none dep wid es = some T ∧ Assembly.assemble none dep wid es' = some T' ∧
      (∀ (k : ℕ) r c v, rows[k]? = some r → cols[k]? = some c → vals[k]? = some v → entryAt T' r c = v) ∧
      ∀ r c, (∀ k : ℕ, ¬ (rows[k]? = some r ∧ cols[k]? = some c)) → entryAt T' r c = entryAt T r c := by
  unfold setValuesM at hM
  by_cases hlen : rows.length = cols.length ∧ cols.length = vals.length
  swap
  · rw [if_neg hlen] at hM; simp at hM
  obtain ⟨h1, h2⟩ := hlen
  rw [if_pos ⟨h1, h2⟩, locate_nodup hr hrn, locate_nodup hc hcn] at hM
  by_cases hR : ∀ d ∈ rows, d < n
  swap
  · rw [if_neg hR] at hM; simp at hM
  by_cases hC : ∀ d ∈ cols, d < m
  swap
  · rw [if_neg hC, if_pos hR] at hM; simp at hM
  rw [if_pos hR, if_pos hC, Option.bind_some, Option.bind_some, Option.map_eq_some_iff] at hM
  obtain ⟨ps, hps, rfl⟩ := hM
  obtain ⟨hl, hpos⟩ := (positions_spec h1 h2).mp hps
  obtain ⟨T, e1, e2⟩ := stores_assemble hs
  obtain ⟨T', e3, e4⟩ := stores_assemble hs'
  refine ⟨T, T', e1, e3, ?_, ?_⟩
  · intro k r c v a1 a2 a3
    have hk := (List.getElem?_eq_some_iff.mp a1).1
    have a4 : ps[k]? = some (ps[k]'(by omega)) := List.getElem?_eq_getElem _
    obtain ⟨q1, q2, q3⟩ := position_some.mp (hpos k r c v _ a1 a2 a3 a4)
    generalize hp : ps[k]'(by omega) = p at a4 q1 q2 q3
    obtain ⟨m1, m2⟩ := mem_whereGM.mp (show (p.1, p.2.1) ∈ whereGM row r by rw [q1]; simp)
    have m3 := (mem_whereGM.mp (show (p.1, p.2.2.1) ∈ whereGM col c by rw [q2]; simp))
    rw [e4, tot_one (keys_gmRows row col) (e := p.1) (l := p.2.1) (l' := p.2.2.1) (gr := rowOf row p.1)
      (gc := rowOf col p.1) (List.mem_map.mpr ⟨p.1, List.mem_range.mpr m1, rfl⟩) m2 m3.2]
    · rw [writeEntries_get]
      have hex : (ps.reverse.find? fun q => decide (q.1 = p.1 ∧ q.2.1 = p.2.1 ∧ q.2.2.1 = p.2.2.1)) = some p := by
        cases hf : ps.reverse.find? fun q => decide (q.1 = p.1 ∧ q.2.1 = p.2.1 ∧ q.2.2.1 = p.2.2.1) with
        | none =>
          rw [List.find?_eq_none] at hf
          have := hf p (List.mem_reverse.mpr (List.mem_of_getElem? a4))
          simp at this
        | some q =>
          have hq1 := List.find?_some hf
          have hq2 := List.mem_reverse.mp (List.mem_of_find?_eq_some hf)
          simp only [decide_eq_true_eq] at hq1
          obtain ⟨k', hk'⟩ := List.mem_iff_getElem?.mp hq2
          have hlt := (List.getElem?_eq_some_iff.mp hk').1
          obtain ⟨w1, w2, w3⟩ := position_some.mp (hpos k' _ _ _ _ (List.getElem?_eq_getElem (by omega))
            (List.getElem?_eq_getElem (by omega)) (List.getElem?_eq_getElem (by omega)) hk')
          have x1 := (mem_whereGM.mp (show (q.1, q.2.1) ∈ whereGM row (rows[k']'(by omega)) by rw [w1]; simp)).2
          rw [hq1.1, hq1.2.1, m2, Option.some.injEq] at x1
          have : k' = k := by
            have b1 := (List.getElem?_eq_some_iff.mp a1).2
            exact (List.Nodup.getElem_inj_iff hrn).mp (x1.symm.trans b1.symm)
          subst this
          rw [a4] at hk'
          exact hk'.symm
      rw [hex]
      exact q3
    · intro e' r' hat
      have := at_gmRows.mp hat
      rw [q1, List.mem_singleton, Prod.mk.injEq] at this
      exact this
    · intro c' hc'
      have : (p.1, c') ∈ whereGM col c := mem_whereGM.mpr ⟨m3.1, hc'⟩
      rw [q2, List.mem_singleton, Prod.mk.injEq] at this
      exact this.2
  · intro r c hnot
    rw [e4, e2]
    unfold tot
    congr 1
    apply List.map_congr_left
    intro x hx
    unfold gmRows at hx
    obtain ⟨e, he, rfl⟩ := List.mem_map.mp hx
    apply share_congr
    intro lr lc g1 g2
    rw [writeEntries_get]
    cases hf : ps.reverse.find? fun q => decide (q.1 = e ∧ q.2.1 = lr ∧ q.2.2.1 = lc) with
    | none => rfl
    | some q =>
      exfalso
      have hq1 := List.find?_some hf
      have hq2 := List.mem_reverse.mp (List.mem_of_find?_eq_some hf)
      simp only [decide_eq_true_eq] at hq1
      obtain ⟨k', hk'⟩ := List.mem_iff_getElem?.mp hq2
      have hlt := (List.getElem?_eq_some_iff.mp hk').1
      have z1 : rows[k']? = some (rows[k']'(by omega)) := List.getElem?_eq_getElem _
      have z2 : cols[k']? = some (cols[k']'(by omega)) := List.getElem?_eq_getElem _
      obtain ⟨w1, w2, w3⟩ := position_some.mp (hpos k' _ _ _ _ z1 z2 (List.getElem?_eq_getElem (by omega)) hk')
      have x1 := (mem_whereGM.mp (show (q.1, q.2.1) ∈ whereGM row (rows[k']'(by omega)) by rw [w1]; simp)).2
      have x2 := (mem_whereGM.mp (show (q.1, q.2.2.1) ∈ whereGM col (cols[k']'(by omega)) by rw [w2]; simp)).2
      rw [hq1.1, hq1.2.1] at x1
      rw [hq1.1, hq1.2.2] at x2
      simp only at g1 g2
      rw [g1, Option.some.injEq] at x1
      rw [g2, Option.some.injEq] at x2
      exact hnot k' ⟨by rw [z1, x1], by rw [z2, x2]⟩

example : ∃ M', setValuesM gX gX sX.A [0, 2] [0, 2] [5, 6] = some M' ∧ M'.get 0 0 0 = 5 ∧ M'.get 1 1 1 = 6 := by
  have h : ((setValuesM gX gX sX.A [0, 2] [0, 2] [5, 6]).map fun M' => (M'.get 0 0 0, M'.get 1 1 1)) = some (5, 6) := by
    decide +kernel
  rw [Option.map_eq_some_iff] at h
  obtain ⟨M', h1, h2⟩ := h
  rw [Prod.mk.injEq] at h2
  exact ⟨M', h1, h2⟩

/-- **C37** is refuted for repeated rows: the rows are the keys of a dictionary, so the second entry is dropped. -/
theorem set_values_matrix_refuted : ∃ (row : GM) (M M' : Loc Mat), setValuesM row row M [0, 0] [0, 1] [5, 6] = some M' ∧
    ∀ {dep wid : ℕ} {es : List El}, Stores (gmRows row row) M' dep wid es →
      ∃ T, Assembly.assemble none dep wid es = some T ∧ entryAt T 0 1 = 0 := by
  have h : ((setValuesM [[0, 1]] [[0, 1]] ⟨fun _ _ _ => 0, []⟩ [0, 0] [0, 1] [5, 6]).map fun M' =>
      tot (gmRows [[0, 1]] [[0, 1]]) M'.get 0 1) = some 0 := by decide +kernel
  rw [Option.map_eq_some_iff] at h
  obtain ⟨M', h1, h2⟩ := h
  refine ⟨[[0, 1]], ⟨fun _ _ _ => 0, []⟩, M', h1, ?_⟩
  intro dep wid es hs
  obtain ⟨T, e1, e2⟩ := stores_assemble hs
  exact ⟨T, e1, by rw [e2, h2]⟩

/-- Repeated columns shift the values: entry (1, 0) is not set, and value 7 goes to entry (1, 2) instead of (2, 2). -/
theorem set_values_shift_refuted : ∃ (row : GM) (M M' : Loc Mat),
    setValuesM row row M [0, 1, 2] [0, 0, 2] [5, 6, 7] = some M' ∧
    M'.get 0 1 0 = 0 ∧ M'.get 0 1 2 = 6 ∧ M'.get 0 2 2 = 0 ∧ row = [[0, 1, 2]] := by
  have h : ((setValuesM [[0, 1, 2]] [[0, 1, 2]] ⟨fun _ _ _ => 0, []⟩ [0, 1, 2] [0, 0, 2] [5, 6, 7]).map fun M' =>
      (M'.get 0 1 0, M'.get 0 1 2, M'.get 0 2 2)) = some (0, 6, 0) := by decide +kernel
  rw [Option.map_eq_some_iff] at h
  obtain ⟨M', h1, h2⟩ := h
  simp only [Prod.mk.injEq] at h2
  exact ⟨[[0, 1, 2]], ⟨fun _ _ _ => 0, []⟩, M', h1, h2.1, h2.2.1, h2.2.2, rfl⟩

/-- `set_zero`: the rows of the dofs are zero, all others as before. -/
theorem set_zero {row col : GM} {n : ℕ} (hn : numDofs row = some n) (M : Loc Mat) (dofs : List ℕ)
    (hd : ∀ d ∈ dofs, d < n) : ∃ M', setZero row M dofs = some M' ∧ ∀ {dep wid : ℕ} {es es' : List El},
      Stores (gmRows row col) M dep wid es → Stores (gmRows row col) M' dep wid es' →
      ∃ T T', Assembly.assemble none dep wid es = some T ∧ Assembly.assemble none dep wid es' = some T' ∧ ∀ i j,
        (i ∈ dofs → entryAt T' i j = 0) ∧ (i ∉ dofs → entryAt T' i j = entryAt T i j) := by
  obtain ⟨D, d1, _, d3, d4⟩ := locate_some hn hd
  refine ⟨_, by unfold setZero; rw [d1]; rfl, ?_⟩
  intro dep wid es es' hs hs'
  obtain ⟨T, e1, e2⟩ := stores_assemble hs
  obtain ⟨T', e3, e4⟩ := stores_assemble hs'
  have hin : ∀ {e l i}, At (gmRows row col) e l i → ((e, l) ∈ D.flatMap Prod.snd ↔ i ∈ dofs) := by
    intro e l i hat
    have hw := at_gmRows.mp hat
    rw [List.mem_flatMap]
    constructor
    · rintro ⟨p, hp, hq⟩
      rw [(d3 p hp).2, mem_whereGM] at hq
      rw [mem_whereGM, hq.2, Option.some.injEq] at hw
      rw [← hw.2]
      exact (d4 p.1).mp (List.mem_map_of_mem hp)
    · intro h
      obtain ⟨p, hp, hpi⟩ := List.mem_map.mp ((d4 i).mpr h)
      refine ⟨p, hp, ?_⟩
      rw [(d3 p hp).2, hpi]; exact hw
  refine ⟨T, T', e1, e3, ?_⟩
  intro i j
  rw [e4, e2]
  constructor
  · intro h
    apply tot_zero
    intro e l c hat
    rw [zeroRow_ed, edit_get, if_pos ((hin hat).mpr h)]
  · intro h
    apply tot_same
    intro e l c hat
    rw [zeroRow_ed, edit_get, if_neg fun h' => h ((hin hat).mp h')]

/-- **C37**, `set_values_and_zero_rest`, for lists without repetitions: entry `(rows[k], cols[k])` of the assembled
matrix is `vals[k]`, the other entries of these rows are zero, all other rows are as before. -/
theorem set_values_zero_rest_partial {row col : GM} {n m : ℕ} (hr : numDofs row = some n) (hc : numDofs col = some m)
    {M M' : Loc Mat} {rows cols : List ℕ} {vals : List ℚ} (hrn : rows.Nodup) (hcn : cols.Nodup)
    (hM : setValuesZeroRest row col M rows cols vals = some M') {dep wid : ℕ} {es es' : List El}
    (hb : ∀ x ∈ gmRows row col, (∀ i ∈ x.2.1, i < dep) ∧ ∀ j ∈ x.2.2, j < wid)
    (hs : Stores (gmRows row col) M dep wid es) (hs' : Stores (gmRows row col) M' dep wid es') :
    ∃ T T', Assembly.assemble none dep wid es = some T ∧ Assembly.assemble none dep wid es' = some T' ∧
      (∀ (k : ℕ) r c v, rows[k]? = some r → cols[k]? = some c → vals[k]? = some v → entryAt T' r c = v) ∧
      (∀ r c, r ∈ rows → (∀ k : ℕ, ¬ (rows[k]? = some r ∧ cols[k]? = some c)) → entryAt T' r c = 0) ∧
      ∀ r c, r ∉ rows → entryAt T' r c = entryAt T r c := by
  unfold setValuesZeroRest at hM
  rw [Option.bind_eq_some_iff] at hM
  obtain ⟨M₁, a1, a2⟩ := hM
  have hd : ∀ d ∈ rows, d < n := by
    by_contra hcon
    unfold setZero at a1
    rw [locate_nodup hr hrn, if_neg hcon] at a1
    simp at a1
  obtain ⟨es₁, hs₁⟩ := stores_exists (rows := gmRows row col) (M := M₁) (dep := dep) (wid := wid) hb
  obtain ⟨M₁', z1, z2⟩ := set_zero (col := col) hr M rows hd
  rw [a1, Option.some.injEq] at z1
  subst z1
  obtain ⟨T, T₁, t1, t2, t3⟩ := z2 hs hs₁
  obtain ⟨T₁', T', u1, u2, u3, u4⟩ := set_values_matrix_partial hr hc hrn hcn a2 hs₁ hs'
  rw [t2, Option.some.injEq] at u1
  subst u1
  refine ⟨T, T', t1, u2, u3, ?_, ?_⟩
  · intro r c h h'
    rw [u4 r c h', (t3 r c).1 h]
  · intro r c h
    rw [u4 r c, (t3 r c).2 h]
    rintro k ⟨h1, _⟩
    exact h (List.mem_of_getElem? h1)

/-! ### C60 -/

/-- The place of local dof `j` of unknown `k` in an element. -/
theorem dofsOf_place {rows : List (List ℕ)} {k j d : ℕ} {row : List ℕ} (hr : rows[k]? = some row)
    (hj : row[j]? = some d) : (dofsOf rows)[((rows.take k).map List.length).sum + j]? = some (k, d) := by
  have key : ∀ (rows : List (List ℕ)) (off k : ℕ), rows[k]? = some row →
      ((rows.zipIdx off).flatMap fun q => q.1.map fun n => (q.2, n))[((rows.take k).map List.length).sum + j]? =
        some (off + k, d) := by
    intro rows
    induction rows with
    | nil => intro off k h; simp at h
    | cons r rows ih =>
      intro off k h
      rw [List.zipIdx_cons, List.flatMap_cons]
      cases k with
      | zero =>
        simp only [List.getElem?_cons_zero, Option.some.injEq] at h
        subst h
        have hlt := (List.getElem?_eq_some_iff.mp hj).1
        rw [List.getElem?_append_left (by simpa using hlt)]
        simp [hj]
      | succ k =>
        have := ih (off + 1) k (by simpa using h)
        rw [List.getElem?_append_right (by simp; omega)]
        simp only [List.take_succ_cons, List.map_cons, List.sum_cons, List.length_map]
        rw [show r.length + ((rows.take k).map List.length).sum + j - r.length =
          ((rows.take k).map List.length).sum + j by omega, this]
        simp; omega
  have := key rows 0 k hr
  simpa [dofsOf] using this

/-- **C60**, for a non-negative number of the element: `set_local_dof_ij_of_unknown_k_to_value(i, j, k, v)`, with
`-L ≤ j < L` and `-K ≤ k < K` (negative ones count from the end), succeeds and is `set_dof` of the number `m` that the
chained gathering matrix gives to dof `j` of element `i` of unknown `k` wherever it appears. -/
theorem set_local_ij_partial {gms : List GM} {c : GM} {N total n : ℕ} (hlen : ∀ g ∈ gms, g.length = N)
    (hreg : ∀ g ∈ gms, ∀ e < N, (rowOf g e).length = width g)
    (hch : IsChaining (· < N) (fun e => gms.map fun g => rowOf g e) (rowOf c) total)
    (hn : numDofs c = some n) (hcon : Contiguous c.flatten n) (hcl : c.length = N) (s : Sys) {i : ℕ} {j k : ℤ}
    (hi : i < N) {k' : ℕ} (hk : pyIndex gms.length k = some k') {g : GM} (hg : gms[k']? = some g) {j' : ℕ}
    (hj : pyIndex (width g) j = some j') (v : ℚ) :
    ∃ m s', m < n ∧ setLocalIJ gms c s i j k v = some s' ∧ setDofs c c s [((m : ℤ), v)] = some s' ∧
      ∀ (e l : ℕ) x, e < N → (dofsOf (gms.map fun g => rowOf g e))[l]? = some x →
        ((rowOf c e)[l]? = some m ↔ x.1 = k' ∧ (rowOf g i)[j']? = some x.2) := by
  have hgm := List.mem_of_getElem? hg
  have hw := hreg g hgm i hi
  have hj' : j' < width g ∧ (if j < 0 then j + width g else j).toNat = j' ∧
      (0 ≤ (if j < 0 then j + width g else j) ∧ (if j < 0 then j + width g else j) < width g) := by
    unfold pyIndex at hj
    split at hj
    · rename_i h
      cases hj
      rw [if_neg (by omega)]; omega
    · split at hj
      · rename_i h
        cases hj
        rw [if_pos (by omega)]; omega
      · simp at hj
  obtain ⟨d, hd⟩ : ∃ d, (rowOf g i)[j']? = some d := ⟨_, List.getElem?_eq_getElem (by omega)⟩
  have hrow : (gms.map fun g => rowOf g i)[k']? = some (rowOf g i) := by rw [List.getElem?_map, hg]; rfl
  have hplace := dofsOf_place hrow hd
  have hoff : ((List.take k' (gms.map fun g => rowOf g i)).map List.length).sum = ((gms.take k').map width).sum := by
    rw [← List.map_take, List.map_map]
    congr 1
    apply List.map_congr_left
    intro h hh
    exact hreg h (List.mem_of_mem_take hh) i hi
  rw [hoff] at hplace
  have hlt : ((gms.take k').map width).sum + j' < (rowOf c i).length := by
    rw [hch.lengths i hi]; exact (List.getElem?_eq_some_iff.mp hplace).1
  have hm : (rowOf c i)[((gms.take k').map width).sum + j']? =
      some ((rowOf c i)[((gms.take k').map width).sum + j']) := List.getElem?_eq_getElem hlt
  generalize (rowOf c i)[((gms.take k').map width).sum + j'] = m at hm
  have hmn : m < n := by
    apply (hcon m).mp
    exact mem_rows.mpr ⟨i, by omega, List.mem_of_getElem? hm⟩
  obtain ⟨s', q1, _⟩ := setDof_step hn hcon s (i := (m : ℤ)) (by omega) v
  refine ⟨m, s', hmn, ?_, by simp [setDofs, q1], ?_⟩
  · unfold setLocalIJ
    have hNg : g.length = N := hlen g hgm
    rw [hk, Option.bind_some, hg, Option.bind_some, if_neg (by omega : ¬ ((i : ℕ) : ℤ) < 0), if_pos (by omega),
      if_pos hj'.2.2, hj'.2.1, show ((i : ℕ) : ℤ).toNat = i by omega, Nat.add_comm, hm, Option.bind_some, q1]
  · intro e l x he hx
    have := hch.same e i l _ x (k', d) he hi hx hplace
    rw [hm] at this
    rw [this, hd]
    constructor
    · rintro rfl; exact ⟨rfl, rfl⟩
    · rintro ⟨h1, h2⟩
      rw [Option.some.injEq] at h2
      exact Prod.ext h1 h2.symm

example : pyIndex 2 (-1) = some 1 ∧ pyIndex 2 1 = some 1 ∧ pyIndex 2 2 = none := by decide

/-- **C60** is refuted for negative numbers of elements: the number of local dofs is added instead of the number of
elements.  With three elements of two dofs, element -1 is element 1 instead of element 2, and element -3 raises. -/
theorem set_local_ij_refuted : ∃ (g : GM) (s : Sys), numDofs g = some 4 ∧ g.length = 3 ∧ rowOf g 2 = [2, 3] ∧
    (∃ s', setLocalIJ [g] g s (-1) 1 0 7 = some s' ∧ setDof g g s 2 7 = some s') ∧
    setLocalIJ [g] g s (-3) 0 0 7 = none := by
  have h : (setLocalIJ [[[0, 1], [1, 2], [2, 3]]] [[0, 1], [1, 2], [2, 3]] sX (-1) 1 0 7) =
      setDof [[0, 1], [1, 2], [2, 3]] [[0, 1], [1, 2], [2, 3]] sX 2 7 := rfl
  have h2 : (setDof [[0, 1], [1, 2], [2, 3]] [[0, 1], [1, 2], [2, 3]] sX 2 7).isSome := by decide +kernel
  obtain ⟨s', hs'⟩ := Option.isSome_iff_exists.mp h2
  refine ⟨[[0, 1], [1, 2], [2, 3]], sX, by decide, rfl, rfl, ⟨s', by rw [h, hs'], hs'⟩, rfl⟩

/-- **C60**, `set_local_dof`, for an element, unknown and local index in range (a negative element counts from the
end): it is `set_dof` of the number that the chained gathering matrix gives to the local dof. -/
theorem set_local_dof_partial {gms : List GM} {c : GM} {N total n : ℕ}
    (hreg : ∀ g ∈ gms, ∀ e < N, (rowOf g e).length = width g)
    (hch : IsChaining (· < N) (fun e => gms.map fun g => rowOf g e) (rowOf c) total)
    (hn : numDofs c = some n) (hcon : Contiguous c.flatten n) (hcl : c.length = N) (s : Sys) {k : ℕ} {g : GM}
    (hg : gms[k]? = some g) {i : ℤ} {e : ℕ} (hi : pyIndex N i = some e) {j : ℕ} (hj : j < width g) (v : ℚ) :
    ∃ m s', m < n ∧ setLocalDof gms c s k i j v = some s' ∧ setDofs c c s [((m : ℤ), v)] = some s' ∧
      ∀ (e' l : ℕ) x, e' < N → (dofsOf (gms.map fun g => rowOf g e'))[l]? = some x →
        ((rowOf c e')[l]? = some m ↔ x.1 = k ∧ (rowOf g e)[j]? = some x.2) := by
  have hgm := List.mem_of_getElem? hg
  have hk := (List.getElem?_eq_some_iff.mp hg).1
  have he : e < N := by
    unfold pyIndex at hi
    split at hi
    · cases hi; omega
    · split at hi
      · cases hi; omega
      · simp at hi
  have hw := hreg g hgm e he
  obtain ⟨d, hd⟩ : ∃ d, (rowOf g e)[j]? = some d := ⟨_, List.getElem?_eq_getElem (by omega)⟩
  have hrow : (gms.map fun g => rowOf g e)[k]? = some (rowOf g e) := by rw [List.getElem?_map, hg]; rfl
  have hplace := dofsOf_place hrow hd
  have hoff : ((List.take k (gms.map fun g => rowOf g e)).map List.length).sum = ((gms.take k).map width).sum := by
    rw [← List.map_take, List.map_map]
    congr 1
    apply List.map_congr_left
    intro h hh
    exact hreg h (List.mem_of_mem_take hh) e he
  rw [hoff] at hplace
  have hlt : ((gms.take k).map width).sum + j < (rowOf c e).length := by
    rw [hch.lengths e he]; exact (List.getElem?_eq_some_iff.mp hplace).1
  have hm : (rowOf c e)[((gms.take k).map width).sum + j]? =
      some ((rowOf c e)[((gms.take k).map width).sum + j]) := List.getElem?_eq_getElem hlt
  generalize (rowOf c e)[((gms.take k).map width).sum + j] = m at hm
  have hmn : m < n := by
    apply (hcon m).mp
    exact mem_rows.mpr ⟨e, by omega, List.mem_of_getElem? hm⟩
  obtain ⟨s', q1, _⟩ := setDof_step hn hcon s (i := (m : ℤ)) (by omega) v
  refine ⟨m, s', hmn, ?_, by simp [setDofs, q1], ?_⟩
  · have hpy : pyIndex (rowOf c e).length (((gms.take k).map width).sum + (j : ℕ)) =
        some (((gms.take k).map width).sum + j) := by
      unfold pyIndex
      rw [if_pos (by omega)]
      congr 1
    unfold setLocalDof
    rw [if_pos (by omega), hcl, hi, Option.bind_some, hpy, Option.bind_some, hm, Option.bind_some, q1]
  · intro e' l x he' hx
    have := hch.same e' e l _ x (k, d) he' he hx hplace
    rw [hm] at this
    rw [this, hd]
    constructor
    · rintro rfl; exact ⟨rfl, rfl⟩
    · rintro ⟨h1, h2⟩
      rw [Option.some.injEq] at h2
      exact Prod.ext h1 h2.symm

/-- The local index is not checked: for an index out of range (here: 2 of an unknown with two local dofs) a dof of the
next unknown is set. -/
theorem set_local_dof_refuted : ∃ (g h c : GM) (s s' : Sys), chain1 [g, h] = some c ∧ width g = 2 ∧
    setLocalDof [g, h] c s 0 0 2 7 = some s' ∧ setLocalDof [g, h] c s 1 0 0 7 = some s' := by
  have h2 : (setDof [[0, 1, 2]] [[0, 1, 2]] sX 2 7).isSome := by decide +kernel
  obtain ⟨s', hs'⟩ := Option.isSome_iff_exists.mp h2
  exact ⟨[[0, 1]], [[0]], [[0, 1, 2]], sX, s', by decide, rfl, hs', hs'⟩

/-- The chain of two unknowns on two elements meets the conditions. -/
example : ∃ c, chain1 [gX, [[0], [1]]] = some c ∧ c.length = 2 ∧
    IsChaining (· < 2) (fun e => [gX, [[0], [1]]].map fun h => rowOf h e) (rowOf c) 5 ∧ numDofs c = some 5 ∧
    Contiguous c.flatten 5 ∧ (∀ g ∈ [gX, [[0], [1]]], ∀ e < 2, (rowOf g e).length = width g) := by
  obtain ⟨c, h1, h2, h3⟩ := chain1_spec (g := gX) (gs := [[[0], [1]]]) (ns := [3, 2]) (by decide) rfl (by
    intro i h n a b
    match i with
    | 0 => cases a; cases b; exact ⟨by decide, by intro v; simp [gX]; omega⟩
    | 1 => cases a; cases b; exact ⟨by decide, by intro v; simp; omega⟩
    | i + 2 => simp at a)
  have hc : chain1 [gX, [[0], [1]]] = some [[0, 1, 3], [1, 2, 4]] := by decide
  rw [hc] at h1
  cases h1
  refine ⟨_, hc, h2, h3, by decide, ?_, by decide⟩
  intro v
  simp; omega

end Phyem.Customize
