import Verif.Passing.Model
import Mathlib.Data.List.Perm.Basic

/-!
# Which elements of a fine mesh are in which element of a coarse mesh
-/

namespace Phyem.Passing

variable {P E I : Type} [DecidableEq I]

/-- **C156.** The hierarchy is accepted exactly if each center of the fine mesh is in some element of the coarse mesh. -/
theorem hierarchy_accepted (inside : E → P → Bool) : ∀ (es : List (I × E)) (cs : List (I × P)),
    (children inside es cs).isSome = true ↔ ∀ c ∈ cs, ∃ e ∈ es, inside e.2 c.2 = true
  | [], [] => by simp [children]
  | [], c :: cs => by
    simp only [children, Option.isSome_none, Bool.false_eq_true, false_iff]
    exact fun h => by simpa using h c List.mem_cons_self
  | e :: es, cs => by
    have ih := hierarchy_accepted inside es (cs.filter fun c => !inside e.2 c.2)
    cases cs with
    | nil =>
      simp only [children, Option.isSome_map, List.filter_nil] at ih ⊢
      rw [ih]; simp
    | cons c cs =>
      simp only [children, Option.isSome_map]
      rw [ih]
      simp only [List.mem_filter, Bool.not_eq_true', and_imp]
      constructor
      · intro h x hx
        by_cases hi : inside e.2 x.2 = true
        · exact ⟨e, List.mem_cons_self, hi⟩
        · obtain ⟨f, hf, hfx⟩ := h x hx (by simpa using hi)
          exact ⟨f, List.mem_cons_of_mem _ hf, hfx⟩
      · intro h x hx hi
        obtain ⟨f, hf, hfx⟩ := h x hx
        rcases List.mem_cons.1 hf with rfl | hf
        · rw [hi] at hfx; cases hfx
        · exact ⟨f, hf, hfx⟩

lemma children_cons {inside : E → P → Bool} {e : I × E} {es : List (I × E)} {cs : List (I × P)} {h : List (I × List I)}
    (hc : children inside (e :: es) cs = some h) : ∃ h', children inside es (cs.filter fun c => !inside e.2 c.2) = some h' ∧
      h = (e.1, (cs.filter fun c => inside e.2 c.2).map Prod.fst) :: h' := by
  cases cs <;>
  · simp only [children] at hc
    obtain ⟨h', h1, h2⟩ := Option.map_eq_some_iff.1 hc
    exact ⟨h', h1, h2.symm⟩

/-- **C156.** Each element of the coarse mesh gets, in their order, the elements of the fine mesh whose centers are in it and in no element before it. -/
theorem hierarchy_spec {inside : E → P → Bool} : ∀ {es : List (I × E)} {cs : List (I × P)} {h : List (I × List I)},
    children inside es cs = some h → ∀ {pre post : List (I × E)} {e : I × E}, es = pre ++ e :: post →
      h[pre.length]? = some (e.1, (cs.filter fun c => inside e.2 c.2 && pre.all fun f => !inside f.2 c.2).map Prod.fst) := by
  intro es
  induction es with
  | nil => intro cs h _ pre post e he; cases pre <;> cases he
  | cons a es ih =>
    intro cs h hc pre post e he
    obtain ⟨h', h1, rfl⟩ := children_cons hc
    cases pre with
    | nil =>
      obtain ⟨rfl, rfl⟩ := List.cons.inj he
      simp
    | cons b pre =>
      obtain ⟨rfl, he'⟩ := List.cons.inj (show a :: es = b :: (pre ++ e :: post) from he)
      rw [List.length_cons, List.getElem?_cons_succ, ih h1 he', List.filter_filter]
      congr 3
      refine List.filter_congr fun c _ => ?_
      rw [List.all_cons, Bool.and_assoc, Bool.and_comm (!inside a.2 c.2)]

/-- **C156.** Each element of the fine mesh is in exactly one of the lists, and the elements of the coarse mesh are all there, in their order. -/
theorem hierarchy_partition {inside : E → P → Bool} : ∀ {es : List (I × E)} {cs : List (I × P)} {h : List (I × List I)},
    children inside es cs = some h → h.map Prod.fst = es.map Prod.fst ∧ (h.flatMap Prod.snd).Perm (cs.map Prod.fst) := by
  intro es
  induction es with
  | nil =>
    intro cs h hc
    cases cs with
    | nil => obtain rfl := Option.some.inj hc; simp
    | cons c cs => cases hc
  | cons a es ih =>
    intro cs h hc
    obtain ⟨h', h1, rfl⟩ := children_cons hc
    obtain ⟨hk, hp⟩ := ih h1
    refine ⟨by simp [hk], ?_⟩
    rw [List.flatMap_cons]
    refine (hp.append_left _).trans ?_
    rw [← List.map_append]
    exact (List.filter_append_perm _ cs).map _

example : (children (fun (e : ℚ × ℚ) (p : ℚ) => decide (e.1 ≤ p ∧ p ≤ e.2)) [('a', (0, 1)), ('b', (1, 2))]
    [('w', 5 / 4), ('x', 1 / 4), ('y', 3 / 4), ('z', 1)]) = some [('a', ['x', 'y', 'z']), ('b', ['w'])] := by decide +kernel

end Phyem.Passing
