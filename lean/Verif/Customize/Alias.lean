import Verif.Customize.Model
import Mathlib.Data.List.Induction

/-!
Customising local vectors with the arrays they are made of: model for property C36.
-/

namespace Phyem.Customize.Alias

/-- The arrays of the program: `mem c` is the content of the 1d array (or row of a 2d array) `c`. -/
structure Heap where
  mem : ℕ → ℕ → ℚ
  next : ℕ

/-- Where the data of a local vector come from: `2d`/`homogeneous`/`dict`, where `v[e]` is a row (a view) of an array,
or `callable`/`realtime`, where `v[e]` is a new array; msepy/tools/vector/static/local.py:92-99 and
msehtt/tools/vector/static/local.py:163-179. -/
inductive Base where
  | rows (cell : ℕ → ℕ)
  | call (f : ℕ → ℕ → ℚ)

/-- A local vector: `_data` and `customize._customizations`. -/
structure Vec where
  base : Base
  cust : Dict ℕ ℕ

/-- `v[e]` with the array it is, msepy/tools/vector/static/local.py:101-114, msehtt/tools/vector/static/local.py:200-206. -/
def fetch (h : Heap) (v : Vec) (e : ℕ) : Heap × ℕ :=
  match Dict.get v.cust e with
  | some c => (h, c)
  | none =>
    match v.base with
    | .rows cell => (h, cell e)
    | .call f => (⟨fun c => if c = h.next then f e else h.mem c, h.next + 1⟩, h.next)

/-- `v[e].copy()`. -/
def fetchCopy (h : Heap) (v : Vec) (e : ℕ) : Heap × ℕ :=
  (⟨fun c => if c = (fetch h v e).1.next then (fetch h v e).1.mem (fetch h v e).2 else (fetch h v e).1.mem c,
    (fetch h v e).1.next + 1⟩, (fetch h v e).1.next)

/-- `data[l] = x`. -/
def store (h : Heap) (c l : ℕ) (x : ℚ) : Heap :=
  ⟨fun c' => if c' = c then setEntry (h.mem c) l x else h.mem c', h.next⟩

/-- All vectors and arrays of the program. -/
structure State where
  heap : Heap
  vec : ℕ → Vec

/-- One entry is set: `data = v[e]` (msepy) or `data = v[e].copy()` (msehtt), `data[l] = x`, `_customizations[e] = data`;
msepy/tools/vector/static/local.py:287-295, msehtt/tools/vector/static/local.py:331-355 and 389-393.  `q` is the number
of the vector, the element, the local index and the value. -/
def write (copy : Bool) (s : State) (q : ℕ × ℕ × ℕ × ℚ) : State :=
  let r := if copy then fetchCopy s.heap (s.vec q.1) q.2.1 else fetch s.heap (s.vec q.1) q.2.1
  ⟨store r.1 r.2 q.2.2.1 q.2.2.2, fun k =>
    if k = q.1 then ⟨(s.vec q.1).base, Dict.put (s.vec q.1).cust q.2.1 r.2⟩ else s.vec k⟩

/-- `v[e][l]`. -/
def State.read (s : State) (k e l : ℕ) : ℚ := (fetch s.heap (s.vec k) e).1.mem (fetch s.heap (s.vec k) e).2 l

/-! ### Specification -/

/-- The value written last to entry `l` of element `e` of vector `k`. -/
def lastWrite (qs : List (ℕ × ℕ × ℕ × ℚ)) (k e l : ℕ) : Option ℚ :=
  (qs.reverse.find? fun q => decide (q.1 = k ∧ q.2.1 = e ∧ q.2.2.1 = l)).map fun q => q.2.2.2

/-- The array entry `e` of vector `k` lies in, if there is one already. -/
def State.cell (s : State) (k e : ℕ) : Option ℕ :=
  match Dict.get (s.vec k).cust e with
  | some c => some c
  | none =>
    match (s.vec k).base with
    | .rows cell => some (cell e)
    | .call _ => none

/-- Arrays that exist. -/
def State.Valid (s : State) : Prop := ∀ k e c, s.cell k e = some c → c < s.heap.next

/-- No two vectors, and no two elements of a vector, share an array. -/
def State.Unshared (s : State) : Prop := ∀ k e k' e' c, s.cell k e = some c → s.cell k' e' = some c → k = k' ∧ e = e'

/-! ### Lemmas -/

theorem lastWrite_snoc (qs : List (ℕ × ℕ × ℕ × ℚ)) (q : ℕ × ℕ × ℕ × ℚ) (k e l : ℕ) :
    lastWrite (qs ++ [q]) k e l = if q.1 = k ∧ q.2.1 = e ∧ q.2.2.1 = l then some q.2.2.2 else lastWrite qs k e l := by
  unfold lastWrite
  rw [List.reverse_append, List.reverse_singleton, List.singleton_append, List.find?_cons]
  by_cases h : q.1 = k ∧ q.2.1 = e ∧ q.2.2.1 = l
  · simp [h]
  · rw [if_neg h, decide_eq_false h]

theorem read_cell {s : State} {k e c : ℕ} (h : s.cell k e = some c) (l : ℕ) : s.read k e l = s.heap.mem c l := by
  unfold State.cell at h
  unfold State.read fetch
  cases hg : Dict.get (s.vec k).cust e with
  | some c' => rw [hg] at h; cases h; rfl
  | none =>
    rw [hg] at h
    cases hb : (s.vec k).base with
    | rows cell => rw [hb] at h; cases h; rfl
    | call f => rw [hb] at h; simp at h

theorem read_call {s : State} {k e : ℕ} (h : s.cell k e = none) :
    ∃ f, (s.vec k).base = .call f ∧ Dict.get (s.vec k).cust e = none ∧ ∀ l, s.read k e l = f e l := by
  unfold State.cell at h
  unfold State.read fetch
  cases hg : Dict.get (s.vec k).cust e with
  | some c' => rw [hg] at h; simp at h
  | none =>
    rw [hg] at h
    cases hb : (s.vec k).base with
    | rows cell => rw [hb] at h; simp at h
    | call f => exact ⟨f, rfl, rfl, fun l => by simp⟩

/-- The array written to, and its content before. -/
theorem write_spec {s : State} (hv : s.Valid) (copy : Bool) (q : ℕ × ℕ × ℕ × ℚ) :
    ∃ c, (if copy then s.heap.next ≤ c else (s.cell q.1 q.2.1 = some c ∨ s.cell q.1 q.2.1 = none ∧ c = s.heap.next)) ∧
      (∀ c' < s.heap.next, c' ≠ c → (write copy s q).heap.mem c' = s.heap.mem c') ∧
      (∀ l, (write copy s q).heap.mem c l = if l = q.2.2.1 then q.2.2.2 else s.read q.1 q.2.1 l) ∧
      s.heap.next ≤ (write copy s q).heap.next ∧ c < (write copy s q).heap.next ∧
      ∀ k e, (write copy s q).cell k e = if k = q.1 ∧ e = q.2.1 then some c else s.cell k e := by
  have hcell : ∀ (copy : Bool) k e, (write copy s q).cell k e = if k = q.1 ∧ e = q.2.1 then
      some (if copy then fetchCopy s.heap (s.vec q.1) q.2.1 else fetch s.heap (s.vec q.1) q.2.1).2 else s.cell k e := by
    intro copy k e
    unfold State.cell write
    by_cases hk : k = q.1
    · subst hk
      simp only [if_true, Dict.get_put, true_and]
      by_cases he : e = q.2.1
      · simp [he]
      · simp [he]
    · simp [hk]
  cases copy with
  | true =>
    refine ⟨_, ?_, ?_, ?_, ?_, ?_, fun k e => by rw [hcell]⟩
    · simp only [if_true]
      unfold fetchCopy fetch
      cases Dict.get (s.vec q.1).cust q.2.1 with
      | some c => simp
      | none => cases (s.vec q.1).base <;> simp
    · intro c' hc' hne
      unfold write store
      simp only [if_true] at hne ⊢
      rw [if_neg hne]
      unfold fetchCopy at hne ⊢
      simp only at hne ⊢
      rw [if_neg hne]
      unfold fetch
      cases Dict.get (s.vec q.1).cust q.2.1 with
      | some c => rfl
      | none =>
        cases (s.vec q.1).base with
        | rows cell => rfl
        | call f => simp only; rw [if_neg (by omega)]
    · intro l
      unfold write store setEntry
      simp only [if_true]
      unfold fetchCopy State.read
      simp
    · unfold write store fetchCopy fetch
      simp only [if_true]
      cases Dict.get (s.vec q.1).cust q.2.1 with
      | some c => simp
      | none => cases (s.vec q.1).base <;> simp <;> omega
    · unfold write store fetchCopy
      simp
  | false =>
    refine ⟨_, ?_, ?_, ?_, ?_, ?_, fun k e => by rw [hcell]⟩
    · unfold fetch State.cell
      cases Dict.get (s.vec q.1).cust q.2.1 with
      | some c => simp
      | none => cases (s.vec q.1).base <;> simp
    · intro c' hc' hne
      unfold write store
      simp only [Bool.false_eq_true, if_false] at hne ⊢
      rw [if_neg hne]
      unfold fetch at hne ⊢
      cases hg : Dict.get (s.vec q.1).cust q.2.1 with
      | some c => rfl
      | none =>
        cases hb : (s.vec q.1).base with
        | rows cell => rfl
        | call f => simp only; rw [if_neg (by omega)]
    · intro l
      unfold write store setEntry State.read
      simp
    · unfold write store fetch
      simp only [Bool.false_eq_true, if_false]
      cases Dict.get (s.vec q.1).cust q.2.1 with
      | some c => simp
      | none => cases (s.vec q.1).base <;> simp
    · have hc := hv q.1 q.2.1
      unfold State.cell at hc
      unfold write store fetch
      simp only [Bool.false_eq_true, if_false]
      cases hg : Dict.get (s.vec q.1).cust q.2.1 with
      | some c => rw [hg] at hc; exact hc c rfl
      | none =>
        rw [hg] at hc
        cases hb : (s.vec q.1).base with
        | rows cell => rw [hb] at hc; exact hc _ rfl
        | call f => simp

theorem base_write (copy : Bool) (s : State) (q : ℕ × ℕ × ℕ × ℚ) (k : ℕ) :
    ((write copy s q).vec k).base = (s.vec k).base := by
  unfold write
  by_cases hk : k = q.1
  · subst hk; simp
  · simp [hk]

theorem read_other {s s' : State} {k e : ℕ} (hb : (s'.vec k).base = (s.vec k).base) (hc : s'.cell k e = s.cell k e)
    (hm : ∀ c, s.cell k e = some c → s'.heap.mem c = s.heap.mem c) (l : ℕ) : s'.read k e l = s.read k e l := by
  cases h : s.cell k e with
  | some c => rw [read_cell h, read_cell (hc.trans h), hm c h]
  | none =>
    obtain ⟨f, f1, _, f3⟩ := read_call h
    obtain ⟨f', g1, _, g3⟩ := read_call (hc.trans h)
    rw [hb, f1] at g1
    cases g1
    rw [f3, g3]

theorem valid_write {s : State} (hv : s.Valid) (copy : Bool) (q : ℕ × ℕ × ℕ × ℚ) : (write copy s q).Valid := by
  obtain ⟨c, _, _, _, h4, h5, h6⟩ := write_spec hv copy q
  intro k e c' hc'
  rw [h6] at hc'
  split at hc'
  · cases hc'; exact h5
  · have := hv k e c' hc'; omega

/-! ### C36 -/

/-- **C36**, msehtt: after any sequence of customisations of any vectors, however they share their data, all arrays
that existed before have their content, and every vector returns the value set last, or what it returned before. -/
theorem customize_copy {s : State} (hv : s.Valid) (qs : List (ℕ × ℕ × ℕ × ℚ)) :
    (∀ c < s.heap.next, (qs.foldl (write true) s).heap.mem c = s.heap.mem c) ∧
      ∀ k e l, (qs.foldl (write true) s).read k e l = (lastWrite qs k e l).getD (s.read k e l) := by
  have key : (qs.foldl (write true) s).Valid ∧ s.heap.next ≤ (qs.foldl (write true) s).heap.next ∧
      (∀ c < s.heap.next, (qs.foldl (write true) s).heap.mem c = s.heap.mem c) ∧
      ∀ k e l, (qs.foldl (write true) s).read k e l = (lastWrite qs k e l).getD (s.read k e l) := by
    induction qs using List.reverseRecOn with
    | nil => exact ⟨hv, Nat.le_refl _, fun _ _ => rfl, fun _ _ _ => rfl⟩
    | append_singleton qs q ih =>
      obtain ⟨i1, i2, i3, i4⟩ := ih
      rw [List.foldl_append, List.foldl_cons, List.foldl_nil]
      obtain ⟨c, h1, h2, h3, h4, h5, h6⟩ := write_spec i1 true q
      simp only [if_true] at h1
      refine ⟨valid_write i1 true q, by omega, ?_, ?_⟩
      · intro c' hc'
        rw [h2 c' (by omega) (by omega), i3 c' hc']
      · intro k e l
        rw [lastWrite_snoc]
        by_cases hke : k = q.1 ∧ e = q.2.1
        · rw [read_cell ((h6 k e).trans (if_pos hke)), h3]
          obtain ⟨rfl, rfl⟩ := hke
          by_cases hl : l = q.2.2.1
          · rw [if_pos hl, if_pos ⟨rfl, rfl, hl.symm⟩]; rfl
          · rw [if_neg hl, if_neg (fun h => hl h.2.2.symm), i4]
        · rw [if_neg (fun h => hke ⟨h.1.symm, h.2.1.symm⟩), ← i4]
          apply read_other (base_write _ _ _ _) (by rw [h6, if_neg hke])
          intro c' hc'
          have := i1 k e c' hc'
          exact h2 c' this (by omega)
  exact ⟨key.2.2.1, key.2.2.2⟩

/-- **C36**, msepy, when no two vectors share data: after any sequence of customisations every vector returns the value
set last, or what it returned before, and all arrays that are not the data of a customised vector keep their content. -/
theorem customize_unshared_partial {s : State} (hv : s.Valid) (hu : s.Unshared) (qs : List (ℕ × ℕ × ℕ × ℚ)) :
    (∀ c < s.heap.next, (∀ q ∈ qs, s.cell q.1 q.2.1 ≠ some c) → (qs.foldl (write false) s).heap.mem c = s.heap.mem c) ∧
      ∀ k e l, (qs.foldl (write false) s).read k e l = (lastWrite qs k e l).getD (s.read k e l) := by
  have key : (qs.foldl (write false) s).Valid ∧ (qs.foldl (write false) s).Unshared ∧
      s.heap.next ≤ (qs.foldl (write false) s).heap.next ∧
      (∀ k e c, (qs.foldl (write false) s).cell k e = some c → s.cell k e = some c ∨ s.heap.next ≤ c) ∧
      (∀ c < s.heap.next, (∀ q ∈ qs, s.cell q.1 q.2.1 ≠ some c) →
        (qs.foldl (write false) s).heap.mem c = s.heap.mem c) ∧
      ∀ k e l, (qs.foldl (write false) s).read k e l = (lastWrite qs k e l).getD (s.read k e l) := by
    induction qs using List.reverseRecOn with
    | nil => exact ⟨hv, hu, Nat.le_refl _, fun _ _ _ h => .inl h, fun _ _ _ => rfl, fun _ _ _ => rfl⟩
    | append_singleton qs q ih =>
      obtain ⟨i1, i2, i3, i4, i5, i6⟩ := ih
      rw [List.foldl_append, List.foldl_cons, List.foldl_nil]
      obtain ⟨c, h1, h2, h3, h4, h5, h6⟩ := write_spec i1 false q
      simp only [Bool.false_eq_true, if_false] at h1
      have hfresh : ∀ k e c', (qs.foldl (write false) s).cell k e = some c' → ¬(k = q.1 ∧ e = q.2.1) → c' ≠ c := by
        rintro k e c' hc' hne rfl
        rcases h1 with h1 | ⟨_, h1⟩
        · exact hne (i2 k e _ _ _ hc' h1)
        · have := i1 k e _ hc'; omega
      refine ⟨valid_write i1 false q, ?_, by omega, ?_, ?_, ?_⟩
      · intro k e k' e' c' a b
        rw [h6] at a b
        by_cases hke : k = q.1 ∧ e = q.2.1
        · rw [if_pos hke] at a
          cases a
          by_cases hke' : k' = q.1 ∧ e' = q.2.1
          · exact ⟨hke.1.trans hke'.1.symm, hke.2.trans hke'.2.symm⟩
          · rw [if_neg hke'] at b
            exact absurd rfl (hfresh k' e' _ b hke')
        · rw [if_neg hke] at a
          by_cases hke' : k' = q.1 ∧ e' = q.2.1
          · rw [if_pos hke'] at b
            cases b
            exact absurd rfl (hfresh k e _ a hke)
          · rw [if_neg hke'] at b
            exact i2 k e k' e' c' a b
      · intro k e c' a
        rw [h6] at a
        by_cases hke : k = q.1 ∧ e = q.2.1
        · rw [if_pos hke] at a
          cases a
          obtain ⟨rfl, rfl⟩ := hke
          rcases h1 with h1 | ⟨_, h1⟩
          · exact i4 _ _ _ h1
          · right; omega
        · rw [if_neg hke] at a
          exact i4 k e c' a
      · intro c' hc' hq
        rw [h2 c' (by omega) ?_]
        · exact i5 c' hc' fun q' hq' => hq q' (by simp [hq'])
        · rintro rfl
          rcases h1 with h1 | ⟨_, h1⟩
          · rcases i4 _ _ _ h1 with h | h
            · exact hq q (by simp) h
            · omega
          · omega
      · intro k e l
        rw [lastWrite_snoc]
        by_cases hke : k = q.1 ∧ e = q.2.1
        · rw [read_cell ((h6 k e).trans (if_pos hke)), h3]
          obtain ⟨rfl, rfl⟩ := hke
          by_cases hl : l = q.2.2.1
          · rw [if_pos hl, if_pos ⟨rfl, rfl, hl.symm⟩]; rfl
          · rw [if_neg hl, if_neg (fun h => hl h.2.2.symm), i6]
        · rw [if_neg (fun h => hke ⟨h.1.symm, h.2.1.symm⟩), ← i6]
          apply read_other (base_write _ _ _ _) (by rw [h6, if_neg hke])
          intro c' hc'
          exact h2 c' (i1 k e c' hc') (hfresh k e c' hc' hke)
  exact ⟨key.2.2.2.2.1, key.2.2.2.2.2⟩

/-- Vector 0 has the array with rows 0, 1, …, vector 1 computes its data. -/
def exS : State := ⟨⟨fun c l => ((10 * c + l : ℕ) : ℚ), 3⟩, fun k =>
  if k = 0 then ⟨.rows fun e => min e 2, []⟩ else ⟨.call fun e l => ((e + l : ℕ) : ℚ), []⟩⟩

example : exS.Valid := by
  intro k e c h
  unfold State.cell exS at h
  by_cases hk : k = 0
  · simp only [hk, if_true, Dict.get] at h
    cases h
    change min e 2 < 3
    omega
  · simp [hk, Dict.get] at h

/-- Vectors with data of their own. -/
def exT : State := ⟨⟨fun c l => ((10 * c + l : ℕ) : ℚ), 5⟩, fun k =>
  if k = 0 then ⟨.call fun e l => ((e + l : ℕ) : ℚ), [(0, 1), (1, 2)]⟩ else ⟨.call fun e l => ((e * l : ℕ) : ℚ), []⟩⟩

example : exT.Valid ∧ exT.Unshared := by
  have h : ∀ k e c, exT.cell k e = some c → k = 0 ∧ (e = 0 ∧ c = 1 ∨ e = 1 ∧ c = 2) := by
    intro k e c h
    unfold State.cell exT at h
    by_cases hk : k = 0
    · refine ⟨hk, ?_⟩
      simp only [hk, if_true, Dict.get] at h
      by_cases h0 : 0 = e
      · simp [h0] at h; left; omega
      · by_cases h1 : 1 = e
        · subst h1; simp at h; right; omega
        · simp [h0, h1] at h
    · simp [hk, Dict.get] at h
  constructor
  · intro k e c hc
    have := h k e c hc
    change c < 5
    omega
  · intro k e k' e' c a b
    have := h k e c a
    have := h k' e' c b
    omega

/-- **C36** is refuted for msepy vectors made from an array: customising one vector changes the array and the other
vectors made from it. -/
theorem customize_shared_refuted : ∃ (s : State) (q : ℕ × ℕ × ℕ × ℚ), s.Valid ∧ q.1 = 0 ∧
    s.heap.mem 0 0 = 0 ∧ (write false s q).heap.mem 0 0 = 7 ∧
    s.read 1 0 0 = 0 ∧ (write false s q).read 1 0 0 = 7 := by
  refine ⟨⟨⟨fun _ _ => 0, 1⟩, fun _ => ⟨.rows fun _ => 0, []⟩⟩, (0, 0, 0, 7), ?_, rfl, by decide +kernel, by decide +kernel,
    by decide +kernel, by decide +kernel⟩
  intro k e c h
  simp [State.cell, Dict.get] at h
  change c < 1
  omega

end Phyem.Customize.Alias
