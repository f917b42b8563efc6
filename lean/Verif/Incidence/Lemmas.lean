import Verif.Incidence.Spec
import Verif.Numbering.Lemmas
import Mathlib.Tactic.Ring
import Mathlib.Tactic.Abel
import Mathlib.Algebra.BigOperators.Group.List.Lemmas
import Mathlib.Data.Int.Cast.Lemmas

namespace Phyem.Incidence

open Phyem.Numbering

theorem run_append (l : List (Nat × Nat × Int)) (x : Nat × Nat × Int) (r c : Nat) :
    run (l ++ [x]) r c = if r = x.1 ∧ c = x.2.1 then x.2.2 else run l r c := by
  simp [run, List.foldl_append]

theorem run_none (l : List (Nat × Nat × Int)) (r c : Nat) (h : ∀ v, (r, c, v) ∉ l) :
    run l r c = 0 := by
  induction l using List.reverseRecOn with
  | nil => rfl
  | append_singleton l x ih =>
    rw [run_append, if_neg, ih]
    · intro v hv; exact h v (by simp [hv])
    · rintro ⟨rfl, rfl⟩
      exact h x.2.2 (by simp)

theorem run_some (l : List (Nat × Nat × Int)) (r c : Nat) (v : Int) (hm : (r, c, v) ∈ l)
    (h : ∀ v', (r, c, v') ∈ l → v' = v) : run l r c = v := by
  induction l using List.reverseRecOn with
  | nil => simp at hm
  | append_singleton l x ih =>
    rw [run_append]
    split_ifs with hx
    · obtain ⟨rfl, rfl⟩ := hx
      exact h x.2.2 (by simp)
    · apply ih
      · rcases List.mem_append.1 hm with h1 | h1
        · exact h1
        · simp at h1; subst h1; simp at hx
      · intro v' hv'; exact h v' (by simp [hv'])

/-- Column/value pairs of the row of `(i,j,k)` of `dn[t]`. -/
def rowOf (sn : List Comp) (st : Stencil) (i j k : Nat) : List (Nat × Int) :=
  (st i j k).map fun s => (snum sn s.1, s.2)

/-- The stencils have pairwise different, existing indices. -/
structure Good (dn sn : List Comp) (N M : Nat) (sts : List Stencil) : Prop where
  sdn : Stacked 0 dn N
  ssn : Stacked 0 sn M
  len : dn.length = sts.length
  nodup : ∀ (t : Nat) (d : Comp) (st : Stencil) (i j k : Nat), dn[t]? = some d → sts[t]? = some st →
    d.valid i j k → ((st i j k).map Prod.fst).Nodup
  valid : ∀ (t : Nat) (d : Comp) (st : Stencil) (i j k : Nat), dn[t]? = some d → sts[t]? = some st →
    d.valid i j k → ∀ s ∈ st i j k, ∃ x, sn[s.1.1]? = some x ∧ x.valid s.1.2.1 s.1.2.2.1 s.1.2.2.2

theorem mem_assignments {dn sn : List Comp} {sts : List Stencil} {x : Nat × Nat × Int} :
    x ∈ assignments dn sn sts ↔ ∃ (t : Nat) (d : Comp) (st : Stencil) (i j k : Nat),
      dn[t]? = some d ∧ sts[t]? = some st ∧ d.valid i j k ∧ x.1 = d.num i j k ∧
        x.2 ∈ rowOf sn st i j k := by
  unfold assignments
  rw [List.mem_flatMap]
  constructor
  · rintro ⟨⟨d, st⟩, hb, hx⟩
    obtain ⟨t, ht⟩ := List.mem_iff_getElem?.1 hb
    rw [List.getElem?_zip_eq_some] at ht
    unfold fill at hx
    rw [List.mem_flatMap] at hx
    obtain ⟨⟨i, j, k⟩, hbox, hx⟩ := hx
    obtain ⟨s, hs, rfl⟩ := List.mem_map.1 hx
    exact ⟨t, d, st, i, j, k, ht.1, ht.2, mem_box.1 hbox, rfl, List.mem_map.2 ⟨s, hs, rfl⟩⟩
  · rintro ⟨t, d, st, i, j, k, h1, h2, h3, h4, h5⟩
    refine ⟨(d, st), ?_, ?_⟩
    · apply List.mem_of_getElem? (i := t)
      rw [List.getElem?_zip_eq_some]
      exact ⟨h1, h2⟩
    · unfold fill
      rw [List.mem_flatMap]
      refine ⟨(i, j, k), mem_box.2 h3, ?_⟩
      obtain ⟨s, hs, hs'⟩ := List.mem_map.1 h5
      refine List.mem_map.2 ⟨s, hs, ?_⟩
      obtain ⟨a, b⟩ := x
      simp only at h4 hs'
      rw [h4, ← hs']

theorem Good.unique {dn sn : List Comp} {N M : Nat} {sts : List Stencil} (g : Good dn sn N M sts)
    {t t' : Nat} {d d' : Comp} {i j k i' j' k' : Nat} (h : dn[t]? = some d) (h' : dn[t']? = some d')
    (hv : d.valid i j k) (hv' : d'.valid i' j' k') (e : d.num i j k = d'.num i' j' k') :
    t' = t ∧ i' = i ∧ j' = j ∧ k' = k := by
  obtain ⟨t0, x0, i0, j0, k0, _, hu⟩ := g.sdn.bijective.2 _ (g.sdn.bijective.1 t d i j k h hv)
  have a := hu t d i j k h hv rfl
  have b := hu t' d' i' j' k' h' hv' e.symm
  omega

theorem Good.snum_inj {dn sn : List Comp} {N M : Nat} {sts : List Stencil} (g : Good dn sn N M sts)
    {q q' : Nat × Nat × Nat × Nat} {x x' : Comp} (h : sn[q.1]? = some x)
    (h' : sn[q'.1]? = some x') (hv : x.valid q.2.1 q.2.2.1 q.2.2.2)
    (hv' : x'.valid q'.2.1 q'.2.2.1 q'.2.2.2) (e : snum sn q = snum sn q') : q = q' := by
  have e1 : snum sn q = x.num q.2.1 q.2.2.1 q.2.2.2 := by simp [snum, h]
  have e2 : snum sn q' = x'.num q'.2.1 q'.2.2.1 q'.2.2.2 := by simp [snum, h']
  obtain ⟨t0, x0, i0, j0, k0, _, hu⟩ := g.ssn.bijective.2 _ (g.ssn.bijective.1 _ x _ _ _ h hv)
  have a := hu _ x _ _ _ h hv rfl
  have b := hu _ x' _ _ _ h' hv' (by rw [← e1, ← e2, e])
  obtain ⟨q1, q2, q3, q4⟩ := q
  obtain ⟨r1, r2, r3, r4⟩ := q'
  simp only at a b
  simp only [Prod.mk.injEq]
  omega

theorem Good.row_nodup {dn sn : List Comp} {N M : Nat} {sts : List Stencil} (g : Good dn sn N M sts)
    {t : Nat} {d : Comp} {st : Stencil} {i j k : Nat} (h : dn[t]? = some d)
    (hs : sts[t]? = some st) (hv : d.valid i j k) : ((rowOf sn st i j k).map Prod.fst).Nodup := by
  have hn := g.nodup t d st i j k h hs hv
  have hval := g.valid t d st i j k h hs hv
  have e : (rowOf sn st i j k).map Prod.fst = ((st i j k).map Prod.fst).map (snum sn) := by
    simp [rowOf, List.map_map, Function.comp_def]
  rw [e]
  apply List.Nodup.map_on _ hn
  intro q hq q' hq' he
  obtain ⟨s, hsm, rfl⟩ := List.mem_map.1 hq
  obtain ⟨s', hsm', rfl⟩ := List.mem_map.1 hq'
  obtain ⟨x, hx, hxv⟩ := hval s hsm
  obtain ⟨x', hx', hxv'⟩ := hval s' hsm'
  exact g.snum_inj hx hx' hxv hxv' he

theorem sum_ite_of_nodup (l : List (Nat × Int)) (hn : (l.map Prod.fst).Nodup) (c : Nat) :
    (∀ v, (c, v) ∈ l → (l.map fun s => if s.1 = c then s.2 else 0).sum = v) ∧
    ((∀ v, (c, v) ∉ l) → (l.map fun s => if s.1 = c then s.2 else 0).sum = 0) := by
  induction l with
  | nil => simp
  | cons x l ih =>
    simp only [List.map_cons, List.nodup_cons] at hn
    have ih := ih hn.2
    constructor
    · intro v hv
      rw [List.map_cons, List.sum_cons]
      rcases List.mem_cons.1 hv with h | h
      · subst h
        simp only [if_true]
        rw [ih.2]; · simp
        intro v' hv'
        exact hn.1 (List.mem_map.2 ⟨(c, v'), hv', rfl⟩)
      · rw [ih.1 v h, if_neg]; · simp
        rintro rfl
        exact hn.1 (List.mem_map.2 ⟨_, h, rfl⟩)
    · intro hno
      rw [List.map_cons, List.sum_cons, ih.2, if_neg]
      · simp
      · rintro rfl
        exact hno x.2 (by simp)
      · intro v hv; exact hno v (by simp [hv])

theorem Good.entry {dn sn : List Comp} {N M : Nat} {sts : List Stencil} (g : Good dn sn N M sts)
    {t : Nat} {d : Comp} {st : Stencil} {i j k : Nat} (h : dn[t]? = some d)
    (hs : sts[t]? = some st) (hv : d.valid i j k) (c : Nat) :
    run (assignments dn sn sts) (d.num i j k) c =
      ((rowOf sn st i j k).map fun s => if s.1 = c then s.2 else 0).sum := by
  have key : ∀ v, (d.num i j k, c, v) ∈ assignments dn sn sts ↔ (c, v) ∈ rowOf sn st i j k := by
    intro v
    rw [mem_assignments]
    constructor
    · rintro ⟨t', d', st', i', j', k', h1, h2, h3, h4, h5⟩
      obtain ⟨rfl, rfl, rfl, rfl⟩ := g.unique h h1 hv h3 h4
      rw [hs] at h2
      cases h2
      exact h5
    · intro hm
      exact ⟨t, d, st, i, j, k, h, hs, hv, rfl, hm⟩
  have hsum := sum_ite_of_nodup _ (g.row_nodup h hs hv) c
  by_cases hex : ∃ v, (c, v) ∈ rowOf sn st i j k
  · obtain ⟨v, hm⟩ := hex
    rw [hsum.1 v hm]
    apply run_some _ _ _ _ ((key v).2 hm)
    intro v' hv'
    have := hsum.1 v' ((key v').1 hv')
    rw [hsum.1 v hm] at this
    exact this.symm
  · push Not at hex
    rw [hsum.2 hex]
    apply run_none
    intro v hv'
    exact hex v ((key v).1 hv')

theorem Good.snum_lt {dn sn : List Comp} {N M : Nat} {sts : List Stencil} (g : Good dn sn N M sts)
    {t : Nat} {d : Comp} {st : Stencil} {i j k : Nat} (h : dn[t]? = some d)
    (hs : sts[t]? = some st) (hv : d.valid i j k) : ∀ s ∈ st i j k, snum sn s.1 < M := by
  intro s hsm
  obtain ⟨x, hx, hxv⟩ := g.valid t d st i j k h hs hv s hsm
  have := g.ssn.bijective.1 _ x _ _ _ hx hxv
  simpa [snum, hx] using this

theorem app_row {R : Type*} [CommRing R] (n : Nat) (E : Mat) (v : Nat → R) (r : Nat)
    (l : List (Nat × Int)) (hl : ∀ s ∈ l, s.1 < n)
    (hE : ∀ c, E r c = (l.map fun s => if s.1 = c then s.2 else 0).sum) :
    app n E v r = (l.map fun s => (s.2 : R) * v s.1).sum := by
  unfold app
  simp only [hE]
  clear hE
  induction l with
  | nil => simp
  | cons x l ih =>
    simp only [List.map_cons, List.sum_cons, Int.cast_add, add_mul, Finset.sum_add_distrib]
    rw [ih (fun s hs => hl s (by simp [hs]))]
    congr 1
    rw [Finset.sum_eq_single x.1]
    · simp
    · intro b _ hb
      rw [if_neg (Ne.symm hb)]; simp
    · intro hx
      exact absurd (Finset.mem_range.2 (hl x (by simp))) hx

theorem Good.app {R : Type*} [CommRing R] {dn sn : List Comp} {N M : Nat} {sts : List Stencil}
    (g : Good dn sn N M sts) {t : Nat} {d : Comp} {st : Stencil} {i j k : Nat}
    (h : dn[t]? = some d) (hs : sts[t]? = some st) (hv : d.valid i j k) (v : Nat → R) :
    app M (run (assignments dn sn sts)) v (d.num i j k) =
      ((st i j k).map fun s => (s.2 : R) * v (snum sn s.1)).sum := by
  rw [app_row M _ v _ (rowOf sn st i j k) _ (g.entry h hs hv)]
  · simp [rowOf, List.map_map, Function.comp_def]
  · intro s hsm
    obtain ⟨s', hs', rfl⟩ := List.mem_map.1 hsm
    exact g.snum_lt h hs hv s' hs'

theorem entry_unit {dn sn : List Comp} {sts : List Stencil}
    (hpm : ∀ st ∈ sts, ∀ i j k, ∀ v ∈ (st i j k).map Prod.snd, v = 1 ∨ v = -1) (r c : Nat) :
    run (assignments dn sn sts) r c = 0 ∨ run (assignments dn sn sts) r c = 1 ∨
      run (assignments dn sn sts) r c = -1 := by
  have key : ∀ l : List (Nat × Nat × Int), (∀ x ∈ l, x.2.2 = 1 ∨ x.2.2 = -1) →
      run l r c = 0 ∨ run l r c = 1 ∨ run l r c = -1 := by
    intro l
    induction l using List.reverseRecOn with
    | nil => intro _; exact Or.inl rfl
    | append_singleton l x ih =>
      intro h
      rw [run_append]
      split_ifs
      · exact Or.inr (h x (by simp))
      · exact ih (fun y hy => h y (by simp [hy]))
  apply key
  intro x hx
  obtain ⟨t, d, st, i, j, k, h1, h2, h3, h4, h5⟩ := mem_assignments.1 hx
  obtain ⟨s, hs, e⟩ := List.mem_map.1 h5
  rw [← e]
  exact hpm st (List.mem_of_getElem? h2) i j k s.2 (List.mem_map.2 ⟨s, hs, rfl⟩)

/-- All assignments are inside the `N × M` array. -/
theorem Good.in_range {dn sn : List Comp} {N M : Nat} {sts : List Stencil}
    (g : Good dn sn N M sts) : ∀ x ∈ assignments dn sn sts, x.1 < N ∧ x.2.1 < M := by
  intro x hx
  obtain ⟨t, d, st, i, j, k, h1, h2, h3, h4, h5⟩ := mem_assignments.1 hx
  obtain ⟨s, hs, e⟩ := List.mem_map.1 h5
  refine ⟨h4 ▸ g.sdn.bijective.1 t d i j k h1 h3, ?_⟩
  rw [← e]
  exact g.snum_lt h1 h2 h3 s hs

theorem app_zero_outside {R : Type*} [CommRing R] {n : Nat} {E : Mat} (v w : Nat → R)
    (h : ∀ m < n, v m = w m) (r : Nat) : app n E v r = app n E w r := by
  unfold app
  apply Finset.sum_congr rfl
  intro c hc
  rw [h c (Finset.mem_range.1 hc)]

/-- Products vanish when they vanish on all cochains. -/
theorem mul_zero_of_app {n n' : Nat} {A B : Mat} {r : Nat}
    (h : ∀ v : Nat → Int, app n A (app n' B v) r = 0) (c : Nat) (hc : c < n') : mul n A B r c = 0 := by
  have := h (fun x => if x = c then 1 else 0)
  unfold app at this
  unfold mul
  rw [← this]
  apply Finset.sum_congr rfl
  intro m _
  congr 1
  simp only [Int.cast_id, mul_ite, mul_one, mul_zero]
  rw [Finset.sum_ite_eq' (Finset.range n') c (fun x => B m x), if_pos (Finset.mem_range.2 hc)]

end Phyem.Incidence
