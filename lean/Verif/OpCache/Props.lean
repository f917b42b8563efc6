import Verif.OpCache.Run

/-!
C35: derived local matrices see each element's own data.
C70: a block matrix follows the customisation of its blocks.
-/

namespace Phyem.OpCache

open Phyem

variable {α : Type}

/-- Part of C35 and C70, both implementations.  After any history of object creation, evaluation,
customisation and clearing, in any order, `M[e]` is what it means without any cache, provided that
cache keys identify uncustomised data (`KeysOK`) and no operand of a unary operation, a sum or a product
is ever customised.  Missing for the full claim: customised operands, see `customised_operand_refuted`. -/
theorem read_value_partial (impl : Impl) (elems : List ℕ) (h : List (Act α))
    (hk : KeysOK impl elems (ops (run impl elems h)))
    (hn : NeverCustomised h (ops (run impl elems h)))
    (i e : ℕ) (hi : i < (run impl elems h).length) (he : e ∈ elems) :
    (read impl elems (run impl elems h) i e).2 = value (stat (run impl elems h)) (i + 1) i e := by
  obtain ⟨hg, hf⟩ := run_good impl elems _ (run_wf impl elems h) hk h (List.prefix_refl _) (Or.inr hn)
  have hfree := hf hn
  obtain ⟨-, -, -, r4⟩ := get_spec impl elems _ (run_wf impl elems h) hk e he (i + 1) i
    (run impl elems h) (by omega) hi hg (Or.inr hfree)
  unfold read
  rw [r4 hfree, value_eq_valueM _ hfree]

theorem value_fuel (s : Heap α) (hf : Free s) (hw : WF (ops s)) (n i e : ℕ) (hi : i < n) :
    value (stat s) n i e = value (stat s) (i + 1) i e := by
  rw [value_eq_valueM s hf, value_eq_valueM s hf]
  exact valueM_fuel (stat s) (by simpa [stat, ops, List.map_map, Function.comp_def] using hw) _ _ _ _ _ hi
    (by omega)

/-- Part of C35: under the same conditions, evaluating a derived matrix (not itself customised in this
element) gives the operation applied to what evaluating the operands gives. -/
theorem read_derived_partial (impl : Impl) (elems : List ℕ) (h : List (Act α))
    (hk : KeysOK impl elems (ops (run impl elems h)))
    (hn : NeverCustomised h (ops (run impl elems h)))
    (i e : ℕ) (he : e ∈ elems) (o : Obj α) (ho : (run impl elems h)[i]? = some o)
    (hc : o.cust.get e = none) (kind : Kind) (args : List ℕ) (f : List α → Option α)
    (hop : o.op = .derived kind args f) :
    (read impl elems (run impl elems h) i e).2 =
      (allSome (args.map fun j => (read impl elems (run impl elems h) j e).2)).bind f := by
  have hl := (List.getElem?_eq_some_iff.mp ho).1
  have hw := run_wf impl elems h
  have hfree := (run_good impl elems _ hw hk h (List.prefix_refl _) (Or.inr hn)).2 hn
  have hlt := (hw i kind args f (by rw [getElem?_ops, ho]; simp [hop])).1
  rw [read_value_partial impl elems h hk hn i e hl he]
  simp only [value, getElem?_stat, ho, Option.map_some, hc, hop]
  congr 2
  apply List.map_congr_left
  intro j hj
  have := hlt j hj
  rw [read_value_partial impl elems h hk hn j e (by omega) he]
  exact value_fuel _ hfree hw i j e this

/-- Part of C35, msepy, without any condition on customisations: whenever a read succeeds it returns
customised data if there is some, and otherwise the operation applied to the operands as they are
without customisation (for block matrices: with customisation).  No stale data is ever returned. -/
theorem msepy_read_partial (elems : List ℕ) (h : List (Act α))
    (hk : KeysOK .msepy elems (ops (run .msepy elems h)))
    (i e : ℕ) (hi : i < (run .msepy elems h).length) (he : e ∈ elems) (v : α)
    (hv : (read .msepy elems (run .msepy elems h) i e).2 = some v) :
    valueM (stat (run .msepy elems h)) (i + 1) true i e = some v := by
  obtain ⟨hg, -⟩ := run_good .msepy elems _ (run_wf .msepy elems h) hk h (List.prefix_refl _)
    (Or.inl rfl)
  exact (get_spec .msepy elems _ (run_wf .msepy elems h) hk e he (i + 1) i
    (run .msepy elems h) (by omega) hi hg (Or.inl rfl)).2.2.1 v hv

/-- Reading is repeatable: it never changes what a later read of any object returns. -/
theorem read_repeatable_partial (impl : Impl) (elems : List ℕ) (h : List (Act α))
    (hk : KeysOK impl elems (ops (run impl elems h)))
    (hn : NeverCustomised h (ops (run impl elems h)))
    (i e j e' : ℕ) (hi : i < (run impl elems h).length) (he : e ∈ elems) :
    (read impl elems (run impl elems (h ++ [.read j e'])) i e).2 =
      (read impl elems (run impl elems h) i e).2 := by
  have ho : ops (run impl elems (h ++ [.read j e'])) = ops (run impl elems h) := by
    rw [run_append]; simp only [step, read]; rw [ops_get]
  have hk' : KeysOK impl elems (ops (run impl elems (h ++ [.read j e']))) := by rw [ho]; exact hk
  have hn' : NeverCustomised (h ++ [.read j e']) (ops (run impl elems (h ++ [.read j e']))) := by
    rw [ho]
    intro a b c hmem
    rcases List.mem_append.mp hmem with hm | hm
    · exact hn a b c hm
    · simp at hm
  have hlen : (run impl elems (h ++ [.read j e'])).length = (run impl elems h).length := by
    rw [← length_ops, ho, length_ops]
  rw [read_value_partial impl elems _ hk' hn' i e (by omega) he,
    read_value_partial impl elems h hk hn i e hi he]
  have hst : stat (run impl elems (h ++ [.read j e'])) = stat (run impl elems h) := by
    rw [run_append]
    simp only [step, read]
    obtain ⟨hg, hf⟩ := run_good impl elems _ (run_wf impl elems h) hk h (List.prefix_refl _) (Or.inr hn)
    by_cases he' : e' ∈ elems
    · by_cases hj : j < (run impl elems h).length
      · exact (get_spec impl elems _ (run_wf impl elems h) hk e' he' (j + 1) j
          (run impl elems h) (by omega) hj hg (Or.inr (hf hn))).1
      · simp only [get]
        rw [List.getElem?_eq_none (by omega)]
    · simp only [get]
      cases (run impl elems h)[j]? with
      | none => rfl
      | some o => simp [he']
  rw [hst]

/-! The condition on cache keys. -/

/-- Keys of a leaf are sound when equal keys mean equal data, which is what the code asks of its user;
keys of unary operations are then sound too. -/
theorem keys_unary (impl : Impl) (elems : List ℕ) (p : List (Op α)) (hw : WF p) (i j : ℕ)
    (f : List α → Option α) (hi : p[i]? = some (.derived .un [j] f))
    (hj : ∀ e ∈ elems, ∀ e' ∈ elems, isUnique (rawKey impl p (j + 1) j e) = false →
      rawKey impl p (j + 1) j e = rawKey impl p (j + 1) j e' → raw p (j + 1) j e = raw p (j + 1) j e')
    (e e' : ℕ) (he : e ∈ elems) (he' : e' ∈ elems)
    (hu : isUnique (rawKey impl p (i + 1) i e) = false)
    (heq : rawKey impl p (i + 1) i e = rawKey impl p (i + 1) i e') :
    raw p (i + 1) i e = raw p (i + 1) i e' := by
  have hlt := (hw i .un [j] f hi).1 j (by simp)
  have hkey : ∀ x, rawKey impl p (i + 1) i x = rawKey impl p (j + 1) j x := by
    intro x
    rw [← rawKey_fuel impl p hw i (j + 1) j x hlt (by omega)]
    simp only [rawKey, hi, List.map_cons, List.map_nil]
    cases impl <;> rfl
  have hraw : ∀ x, raw p (i + 1) i x = (allSome [raw p (j + 1) j x]).bind f := by
    intro x
    rw [← raw_fuel p hw i (j + 1) j x hlt (by omega)]
    simp only [raw, hi, List.map_cons, List.map_nil]
  rw [hraw, hraw, hj e he e' he' (by rw [← hkey]; exact hu) (by rw [← hkey, ← hkey]; exact heq)]

/-- Keys of a sum or product are sound when those of the operands are and joining them is
unambiguous. -/
theorem keys_binary (impl : Impl) (elems : List ℕ) (p : List (Op α)) (hw : WF p) (i j k : ℕ)
    (kind : Kind) (hkind : kind = .add ∨ kind = .mul)
    (f : List α → Option α) (hi : p[i]? = some (.derived kind [j, k] f))
    (hok : ∀ m ∈ [j, k], ∀ e ∈ elems, ∀ e' ∈ elems, isUnique (rawKey impl p (m + 1) m e) = false →
      rawKey impl p (m + 1) m e = rawKey impl p (m + 1) m e' → raw p (m + 1) m e = raw p (m + 1) m e')
    (hjoin : ∀ e ∈ elems, ∀ e' ∈ elems,
      isUnique (rawKey impl p (i + 1) i e) = false →
      rawKey impl p (i + 1) i e = rawKey impl p (i + 1) i e' →
        rawKey impl p (j + 1) j e = rawKey impl p (j + 1) j e' ∧
        rawKey impl p (k + 1) k e = rawKey impl p (k + 1) k e')
    (e e' : ℕ) (he : e ∈ elems) (he' : e' ∈ elems)
    (hu : isUnique (rawKey impl p (i + 1) i e) = false)
    (heq : rawKey impl p (i + 1) i e = rawKey impl p (i + 1) i e') :
    raw p (i + 1) i e = raw p (i + 1) i e' := by
  have hlj := (hw i kind [j, k] f hi).1 j (by simp)
  have hlk := (hw i kind [j, k] f hi).1 k (by simp)
  have hraw : ∀ x, raw p (i + 1) i x = (allSome [raw p (j + 1) j x, raw p (k + 1) k x]).bind f := by
    intro x
    rw [← raw_fuel p hw i (j + 1) j x hlj (by omega), ← raw_fuel p hw i (k + 1) k x hlk (by omega)]
    simp only [raw, hi, List.map_cons, List.map_nil]
  have hsub : ∀ m ∈ [j, k], isUnique (rawKey impl p (m + 1) m e) = false := by
    intro m hm
    by_contra hcon
    rw [Bool.not_eq_false] at hcon
    have hlm : m < i := by simp at hm; rcases hm with rfl | rfl <;> assumption
    have hcomb : isUnique (rawKey impl p (i + 1) i e) = true := by
      simp only [rawKey, hi]
      refine combine_unique impl kind _ _ ?_ ?_ ?_ (rawKey impl p i m e) ?_ ?_
      · rintro rfl; simp at hkind
      · intro _; rfl
      · intro _; rfl
      · exact List.mem_map.mpr ⟨m, hm, rfl⟩
      · rw [rawKey_fuel impl p hw i (m + 1) m e hlm (by omega)]; exact hcon
    rw [hcomb] at hu; cases hu
  obtain ⟨e1, e2⟩ := hjoin e he e' he' hu heq
  rw [hraw, hraw, hok j (by simp) e he e' he' (hsub j (by simp)) e1,
    hok k (by simp) e he e' he' (hsub k (by simp)) e2]

/-! Examples and refutations with concrete matrices. -/

section
private def a1 : Mat := [[1, 2], [3, 4]]
private def a2 : Mat := [[5, 0], [0, 7]]

/-- Elements 0 and 1 share data and key `a`, element 2 has key `b`. -/
private def leafM : Op Mat :=
  .leaf (fun e => if e = 2 then some a2 else some a1) (fun e => if e = 2 then ['b'] else ['a'])

/-- `M`, `-M`, `bmat([[M]])` (one block), evaluated, then `M` is not an operand of a customised kind. -/
private def hist : List (Act Mat) :=
  [.new leafM, .new (opNeg 0), .new leafM, .new (.derived .blk [2, 1] (fn2 matAdd)),
   .read 1 0, .read 3 0, .customise 2 1 a2, .read 3 1, .customise 3 0 a2, .clear 3]

example : KeysOK .msehtt [0, 1, 2] (ops (run .msehtt [0, 1, 2] hist)) := by
  unfold KeysOK; decide +kernel

example : (read .msehtt [0, 1, 2] (run .msehtt [0, 1, 2] hist) 3 1).2 =
    some [[4, -2], [-3, 3]] := by decide +kernel

example : NeverCustomised hist (ops (run .msehtt [0, 1, 2] hist)) := by
  intro i e v hm hop
  obtain ⟨kind, args, f, hmem, hb, hj⟩ := hop
  have hops : ops (run .msehtt [0, 1, 2] hist) =
      [leafM, opNeg 0, leafM, .derived .blk [2, 1] (fn2 matAdd)] := rfl
  rw [hops] at hmem
  simp only [List.mem_cons, List.not_mem_nil, or_false, leafM, opNeg, reduceCtorEq, false_or,
    Op.derived.injEq] at hmem
  rcases hmem with ⟨-, rfl, -⟩ | ⟨rfl, -⟩
  · simp only [List.mem_cons, List.not_mem_nil, or_false] at hj
    subst hj
    simp [hist] at hm
  · exact hb rfl

/-- C35 as stated fails for msehtt: `M` is customised in element 0 and `-M` evaluated there; `-M` in
element 1, which has the same cache key and is not customised, then returns the negative of the
customised data of element 0. -/
theorem customised_operand_refuted :
    ¬ ∀ (elems : List ℕ) (h : List (Act Mat)),
      KeysOK .msehtt elems (ops (run .msehtt elems h)) →
      ∀ i < (run .msehtt elems h).length, ∀ e ∈ elems,
        (read .msehtt elems (run .msehtt elems h) i e).2 =
          value (stat (run .msehtt elems h)) (i + 1) i e := by
  intro hall
  have := hall [0, 1, 2] [.new leafM, .new (opNeg 0), .customise 0 0 a2, .read 1 0]
    (by unfold KeysOK; decide +kernel) 1 (by decide +kernel) 1 (by decide)
  revert this
  decide +kernel

/-- Nor does a customisation made after the first evaluation reach `-M`. -/
theorem stale_operand_refuted :
    ¬ ∀ (elems : List ℕ) (h : List (Act Mat)),
      KeysOK .msehtt elems (ops (run .msehtt elems h)) →
      ∀ i < (run .msehtt elems h).length, ∀ e ∈ elems,
        (read .msehtt elems (run .msehtt elems h) i e).2 =
          value (stat (run .msehtt elems h)) (i + 1) i e := by
  intro hall
  have := hall [0, 1, 2] [.new leafM, .new (opT 0), .read 1 0, .customise 0 0 a2]
    (by unfold KeysOK; decide +kernel) 1 (by decide +kernel) 0 (by decide)
  revert this
  decide +kernel

private def leafA : Op Mat :=
  .leaf (fun e => if e = 0 then some a1 else some a2) (fun e => if e = 0 then ['a'] else ['a', 'b'])

private def leafB : Op Mat :=
  .leaf (fun e => if e = 0 then some a2 else some a2) (fun e => if e = 0 then ['b', 'c'] else ['c'])

/-- Joining keys without a separator confuses elements: the keys of `M` and `N` are sound, but those of
`M @ N` are not (`a` + `bc` = `ab` + `c`), and the product in element 1 is that of element 0. -/
theorem matmul_keys_refuted :
    ¬ ∀ (elems : List ℕ) (h : List (Act Mat)) (m n : Op Mat),
      KeysOK .msehtt elems [m, n] → h = [.new m, .new n, .new (opMul 0 1), .read 2 0] →
      ∀ e ∈ elems, (read .msehtt elems (run .msehtt elems h) 2 e).2 =
          value (stat (run .msehtt elems h)) 3 2 e := by
  intro hall
  have := hall [0, 1] _ leafA leafB (by unfold KeysOK; decide +kernel) rfl 1 (by decide)
  revert this
  decide +kernel

end

end Phyem.OpCache
