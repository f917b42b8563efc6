import Verif.Poly.Commute
import Mathlib.Data.Rat.Floor

/-!
The key under which basis values are cached (C46).
-/

namespace Phyem.Poly

/-- `str_nodes_key` (`msepy/tools/polynomials.py:67-73`): `str(node)` for `-1` and `1`, else `"%.5f" % node`.
A text is represented by a tag and the number of units of the last digit. (Simplification: ties
rounded up.) -/
def nodeKey (xs : List ℚ) : List (ℤ × ℤ) :=
  xs.map fun x => if x = -1 then (0, -1) else if x = 1 then (0, 1) else (1, ⌊x * 100000 + 1 / 2⌋)

/-- The cached values of a basis: `(check string, x, basis)`; newest last
(`ndarray_key_comparer`/`add_to_ndarray_cache`, modelled in `ArrayCache`; here with exact comparison of
`x` and without the limit on the number of entries). -/
abbrev BasisCache := List (List (ℤ × ℤ) × ℚ × List ℚ)

/-- `lagrange_basis(x)` of the polynomials on `xs` (`polynomials.py:108-126`). -/
def cachedNodes (cache : BasisCache) (xs : List ℚ) (x : ℚ) : BasisCache × List ℚ :=
  match cache.find? fun e => decide (e.1 = nodeKey xs ∧ e.2.1 = x) with
  | some e => (cache, e.2.2)
  | none => (cache ++ [(nodeKey xs, x, nodes xs x)], nodes xs x)

/-- A history of evaluations. -/
def cachedRun (cache : BasisCache) : List (List ℚ × ℚ) → BasisCache × List (List ℚ)
  | [] => (cache, [])
  | a :: l =>
    ((cachedRun (cachedNodes cache a.1 a.2).1 l).1,
      (cachedNodes cache a.1 a.2).2 :: (cachedRun (cachedNodes cache a.1 a.2).1 l).2)

/-- C46 for a history of evaluations on several node sets: if different node sets differ in the first
five decimals, every evaluation returns the Lagrange basis. -/
theorem cached_basis_partial (calls : List (List ℚ × ℚ))
    (h : ∀ a ∈ calls, ∀ b ∈ calls, nodeKey a.1 = nodeKey b.1 → a.1 = b.1) :
    (cachedRun [] calls).2 = calls.map fun a => nodes a.1 a.2 := by
  suffices H : ∀ (l : List (List ℚ × ℚ)) (cache : BasisCache), (∀ a ∈ l, a ∈ calls) →
      (∀ e ∈ cache, ∃ a ∈ calls, e = (nodeKey a.1, a.2, nodes a.1 a.2)) →
      (cachedRun cache l).2 = l.map fun a => nodes a.1 a.2 from
    H calls [] (fun _ h => h) (by simp)
  intro l
  induction l with
  | nil => intros; rfl
  | cons a l ih =>
    intro cache hl hc
    have ha := hl a (by simp)
    simp only [cachedRun, List.map_cons]
    have key : (cachedNodes cache a.1 a.2).2 = nodes a.1 a.2 ∧
        ∀ e ∈ (cachedNodes cache a.1 a.2).1, ∃ a ∈ calls, e = (nodeKey a.1, a.2, nodes a.1 a.2) := by
      unfold cachedNodes
      split
      · rename_i e he
        obtain ⟨b, hb, rfl⟩ := hc e (List.mem_of_find?_eq_some he)
        have := List.find?_some he
        simp only [decide_eq_true_eq] at this
        refine ⟨?_, hc⟩
        dsimp only
        rw [h b hb a ha this.1, this.2]
      · refine ⟨rfl, ?_⟩
        intro e he
        rcases List.mem_append.1 he with he | he
        · exact hc e he
        · exact ⟨a, ha, by simpa using he⟩
    rw [key.1, ih _ (fun b hb => hl b (by simp [hb])) key.2]

/-- The hypothesis is met by two different node sets. -/
example : ∀ a ∈ [([-1, 0, 1], (1 : ℚ) / 2), ([-1, 1 / 3, 1], 1 / 2)],
    ∀ b ∈ [([-1, 0, 1], (1 : ℚ) / 2), ([-1, 1 / 3, 1], 1 / 2)],
      nodeKey a.1 = nodeKey b.1 → a.1 = b.1 := by decide +kernel

/-- Not so for node sets that agree in five decimals: the basis of the first one is returned for the
second one. -/
theorem cached_basis_refuted :
    ∃ calls : List (List ℚ × ℚ),
      (∀ a ∈ calls, a.1.Pairwise (· < ·) ∧ a.1.head? = some (-1) ∧ a.1.getLast? = some 1) ∧
      (cachedRun [] calls).2 ≠ calls.map fun a => nodes a.1 a.2 :=
  ⟨[([-1, 0, 1], 1 / 2), ([-1, 1 / 1000000, 1], 1 / 2)], by decide +kernel, by decide +kernel⟩

end Phyem.Poly
