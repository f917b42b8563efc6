import Mathlib.Algebra.BigOperators.Group.List.Basic
import Mathlib.Data.List.Nodup
import Mathlib.Data.List.Perm.Basic
import Mathlib.Data.List.Range

/-!
C118: functions given region by region (`msepy`).

A function of a form is a dictionary from regions to functions, `cf.field`. `F` is the type of the functions of a region (at
a time), `E` the type of the elements, and `red f e` the reduction of `f` on the element `e` (one row of the local cochain).
-/

namespace Phyem.Reduce.Regions

variable {F E R : Type}

/-- `_num_accumulation` of `_generate_element_numbering_from_layout` (`msepy/mesh/elements/main.py:193-214`); `sizes` are the
numbers of elements of the regions `0, 1, …`. -/
def accumulation (sizes : List ℕ) : List ℕ := (List.range sizes.length).map fun i => (sizes.take i).sum

/-- `_elements_in_region` (`msepy/mesh/elements/main.py:87-94`). -/
def elementsIn (sizes : List ℕ) (ri : ℕ) : ℕ × ℕ :=
  let acc := accumulation sizes
  let start := acc.getD ri 0
  if ri = sizes.length - 1 then (start, sizes.sum) else (start, acc.getD (ri + 1) 0)

/-- `x[..., start:end]`. -/
def slice (els : List E) (b : ℕ × ℕ) : List E := (els.drop b.1).take (b.2 - b.1)

/-- `_proceed_field` (`msepy/form/cf.py:84-95`), of a function instead of a dictionary. -/
def proceed (n : ℕ) (f : F) : List (ℕ × F) := (List.range n).map fun i => (i, f)

/-- `_check_field` (`msepy/form/cf.py:68-72`); the dimension and shape of the functions (`:74-82`) are not modelled. -/
def checkField (n : ℕ) (field : List (ℕ × F)) : Bool :=
  field.length == n && (List.range n).all fun r => (field.map Prod.fst).contains r

/-- The loop `for ri in cf.field` with `np.concatenate` of `_m1_n1_k0`, `_m1_n1_k1`, `_m2_n2_k0`, `_m3_n3_k0`
(`msepy/space/reduce/Lambda.py:42-52`, `77-95`, `106-117`, `471-485`; the same in `reduce/bundle.py`). -/
def byField (red : F → E → R) (sizes : List ℕ) (field : List (ℕ × F)) (els : List E) : List R :=
  field.flatMap fun q => (slice els (elementsIn sizes q.1)).map (red q.2)

/-- `cf[t](…)`, used by all other reductions: `__getitem__` (`msepy/form/cf.py:25-30`) makes a dictionary in the order of the
regions, `__call__` (`:204-262`) takes the parts of the regions and concatenates them. `none` is a `KeyError`. -/
def byRegions (red : F → E → R) (sizes : List ℕ) (field : List (ℕ × F)) (els : List E) : Option (List R) :=
  (List.range sizes.length).foldl (fun o i => o.bind fun l => (field.lookup i).map fun f =>
    l ++ (slice els (elementsIn sizes i)).map (red f)) (some [])

/-- `for ri in cf.field: integral.append(…)` and `np.sum(integral)` of the errors (`msepy/space/error/Lambda.py:51-69`, `85-104`,
`115-133`, `145-164`, `180-202`); `er f e` is the contribution of an element. -/
def sumField [AddCommMonoid R] (er : F → E → R) (sizes : List ℕ) (field : List (ℕ × F)) (els : List E) : R :=
  (field.map fun q => ((slice els (elementsIn sizes q.1)).map (er q.2)).sum).sum

/-! ### Specification -/

/-- The region of the element `e`: the elements of the regions are numbered one region after the other. -/
def regionOf : List ℕ → ℕ → ℕ
  | [], _ => 0
  | s :: sizes, e => if e < s then 0 else regionOf sizes (e - s) + 1

/-- Every element has the row of the function of its region. -/
def Right (red : F → E → R) (sizes : List ℕ) (field : List (ℕ × F)) (els : List E) (rows : List R) : Prop :=
  rows.length = els.length ∧ ∀ e (he : e < els.length), ∃ f, (regionOf sizes e, f) ∈ field ∧ rows[e]? = some (red f els[e])

/-! ### Proofs -/

lemma acc_getD (sizes : List ℕ) {i : ℕ} (h : i < sizes.length) : (accumulation sizes).getD i 0 = (sizes.take i).sum := by
  rw [accumulation, List.getD_eq_getElem?_getD, List.getElem?_map, List.getElem?_range h]
  rfl

lemma elementsIn_eq (sizes : List ℕ) {i : ℕ} (h : i < sizes.length) :
    elementsIn sizes i = ((sizes.take i).sum, (sizes.take (i + 1)).sum) := by
  unfold elementsIn
  dsimp only
  rw [acc_getD sizes h]
  split_ifs with c
  · rw [List.take_of_length_le (i := i + 1) (by omega)]
  · rw [acc_getD sizes (by omega)]

lemma slice_length (els : List E) (sizes : List ℕ) (h : els.length = sizes.sum) {i : ℕ} (hi : i < sizes.length) :
    (slice els (elementsIn sizes i)).length = sizes[i] := by
  rw [elementsIn_eq sizes hi, slice, List.length_take, List.length_drop, h]
  have e : (sizes.take (i + 1)).sum = (sizes.take i).sum + sizes[i] := by rw [List.sum_take_succ]
  have l : (sizes.take (i + 1)).sum ≤ sizes.sum := by
    conv_rhs => rw [← List.take_append_drop (i + 1) sizes, List.sum_append]
    omega
  simp only
  omega

/-- Parts that follow one another make a beginning of the list. -/
lemma slices (els : List E) (sizes : List ℕ) (n : ℕ) (hn : n ≤ sizes.length) :
    ((List.range n).map fun i => slice els (elementsIn sizes i)).flatten = els.take (sizes.take n).sum := by
  induction n with
  | zero => simp
  | succ n ih =>
    rw [List.range_succ, List.map_append, List.flatten_append, ih (by omega)]
    have e : (sizes.take (n + 1)).sum = (sizes.take n).sum + sizes[n] := by rw [List.sum_take_succ]
    simp only [List.map_cons, List.map_nil, List.flatten_cons, List.flatten_nil, List.append_nil, slice,
      elementsIn_eq sizes (show n < sizes.length by omega), e]
    rw [Nat.add_sub_cancel_left, ← List.take_add]

lemma regionOf_lt (sizes : List ℕ) (e : ℕ) (h : e < sizes.sum) : regionOf sizes e < sizes.length := by
  induction sizes generalizing e with
  | nil => simp at h
  | cons s sizes ih =>
    rw [regionOf]
    split_ifs with c
    · simp
    · rw [List.sum_cons] at h
      have := ih (e - s) (by omega)
      simp only [List.length_cons]
      omega

/-- The rows of a list of parts, one for each region. -/
lemma flatten_at (parts : List (List R)) (sizes : List ℕ) (h : parts.map List.length = sizes) (e : ℕ) (he : e < sizes.sum) :
    ∃ (p : List R) (k : ℕ), parts[regionOf sizes e]? = some p ∧ k < p.length ∧
      e = (sizes.take (regionOf sizes e)).sum + k ∧ parts.flatten[e]? = p[k]? := by
  induction parts generalizing sizes e with
  | nil => subst h; simp at he
  | cons p parts ih =>
    subst h
    simp only [List.map_cons, regionOf] at he ⊢
    split_ifs with c
    · exact ⟨p, e, by simp, c, by simp, by rw [List.flatten_cons, List.getElem?_append_left c]⟩
    · rw [List.sum_cons] at he
      obtain ⟨p', k, h1, h2, h3, h4⟩ := ih (parts.map List.length) rfl (e - p.length) (by omega)
      refine ⟨p', k, by simpa using h1, h2, ?_, ?_⟩
      · rw [List.take_succ_cons, List.sum_cons]; omega
      · rw [List.flatten_cons, List.getElem?_append_right (by omega), h4]

/-- Concatenating the parts of the regions in their order gives the right rows. -/
lemma right_of_parts (red : F → E → R) (sizes : List ℕ) (field : List (ℕ × F)) (els : List E) (h : els.length = sizes.sum)
    (fs : List F) (hl : fs.length = sizes.length) (hf : ∀ i (hi : i < fs.length), (i, fs[i]) ∈ field) :
    Right red sizes field els
      ((List.zipWith (fun i f => (slice els (elementsIn sizes i)).map (red f)) (List.range sizes.length) fs).flatten) := by
  set parts := List.zipWith (fun i f => (slice els (elementsIn sizes i)).map (red f)) (List.range sizes.length) fs with hp
  have pl : parts.length = sizes.length := by simp [hp, hl]
  have pe : ∀ i (hi : i < sizes.length), parts[i]? = some ((slice els (elementsIn sizes i)).map (red (fs[i]'(by omega)))) := by
    intro i hi
    rw [hp, List.getElem?_zipWith, List.getElem?_range hi, List.getElem?_eq_getElem (by omega)]
  have hs : parts.map List.length = sizes := by
    refine List.ext_getElem? fun i => ?_
    rw [List.getElem?_map]
    by_cases hi : i < sizes.length
    · rw [pe i hi, Option.map_some, List.length_map, slice_length els sizes h hi, List.getElem?_eq_getElem hi]
    · rw [List.getElem?_eq_none (by omega), List.getElem?_eq_none (by omega)]
      rfl
  refine ⟨by rw [List.length_flatten, hs, h], fun e he => ?_⟩
  rw [h] at he
  have hr := regionOf_lt sizes e he
  obtain ⟨p, k, h1, h2, h3, h4⟩ := flatten_at parts sizes hs e he
  rw [pe _ hr] at h1
  obtain rfl := Option.some.inj h1
  refine ⟨_, hf _ (by omega), ?_⟩
  rw [h4, List.getElem?_map]
  have lk : k < (slice els (elementsIn sizes (regionOf sizes e))).length := by simpa using h2
  rw [List.getElem?_eq_getElem lk, Option.map_some]
  congr 2
  have : (slice els (elementsIn sizes (regionOf sizes e)))[k]? = els[e]? := by
    rw [slice_length els sizes h hr] at lk
    rw [slice, List.getElem?_take, elementsIn_eq sizes hr]
    have e2 : (sizes.take (regionOf sizes e + 1)).sum = (sizes.take (regionOf sizes e)).sum + sizes[regionOf sizes e] := by
      rw [List.sum_take_succ]
    simp only
    rw [if_pos (by omega), List.getElem?_drop, ← h3]
  rw [List.getElem?_eq_getElem lk, List.getElem?_eq_getElem (by omega)] at this
  exact Option.some.inj this

lemma keys_perm {n : ℕ} {field : List (ℕ × F)} (hn : (field.map Prod.fst).Nodup) (hc : checkField n field = true) :
    (field.map Prod.fst).Perm (List.range n) := by
  simp only [checkField, Bool.and_eq_true, beq_iff_eq, List.all_eq_true, List.mem_range, List.contains_iff_mem] at hc
  have sub : List.range n ⊆ field.map Prod.fst := fun r hr => hc.2 r (List.mem_range.1 hr)
  exact ((List.subperm_of_subset List.nodup_range sub).perm_of_length_le (by simp [hc.1])).symm

lemma lookup_mem {field : List (ℕ × F)} {i : ℕ} {f : F} (h : field.lookup i = some f) : (i, f) ∈ field := by
  induction field with
  | nil => simp at h
  | cons q field ih =>
    obtain ⟨k, g⟩ := q
    rw [List.lookup_cons] at h
    by_cases c : i = k
    · subst c
      simp at h
      subst h
      exact List.mem_cons_self
    · have c' : (i == k) = false := by simp [c]
      simp only [c'] at h
      exact List.mem_cons_of_mem _ (ih h)

lemma lookup_some {field : List (ℕ × F)} {i : ℕ} (h : i ∈ field.map Prod.fst) : ∃ f, field.lookup i = some f := by
  induction field with
  | nil => simp at h
  | cons q field ih =>
    obtain ⟨k, g⟩ := q
    rw [List.lookup_cons]
    by_cases c : i = k
    · subst c; exact ⟨g, by simp⟩
    · have c' : (i == k) = false := by simp [c]
      simp only [c']
      simp only [List.map_cons, List.mem_cons, c, false_or] at h
      exact ih h

lemma byRegions_eq (red : F → E → R) (sizes : List ℕ) (field : List (ℕ × F)) (els : List E)
    (hk : ∀ i < sizes.length, i ∈ field.map Prod.fst) (n : ℕ) (hn : n ≤ sizes.length) :
    ∃ fs : List F, fs.length = n ∧ (∀ i (hi : i < fs.length), (i, fs[i]) ∈ field) ∧
      (List.range n).foldl (fun o i => o.bind fun l => (field.lookup i).map fun f =>
        l ++ (slice els (elementsIn sizes i)).map (red f)) (some []) =
      some ((List.zipWith (fun i f => (slice els (elementsIn sizes i)).map (red f)) (List.range n) fs).flatten) := by
  induction n with
  | zero => exact ⟨[], rfl, by simp, by simp⟩
  | succ n ih =>
    obtain ⟨fs, h1, h2, h3⟩ := ih (by omega)
    obtain ⟨f, hf⟩ := lookup_some (hk n (by omega))
    refine ⟨fs ++ [f], by simp [h1], fun i hi => ?_, ?_⟩
    · by_cases c : i < fs.length
      · rw [List.getElem_append_left c]; exact h2 i c
      · have : i = fs.length := by simp at hi; omega
        subst this
        rw [List.getElem_append_right (by omega)]
        simp only [Nat.sub_self, List.getElem_cons_zero, h1]
        exact lookup_mem hf
    · rw [List.range_succ, List.foldl_append, h3, List.zipWith_append (by simp [h1])]
      simp [hf]

/-- **C118**, all forms but those of the next theorem: every element gets the reduction of the function of its region. -/
theorem byRegions_right (red : F → E → R) (sizes : List ℕ) (field : List (ℕ × F)) (els : List E)
    (hn : (field.map Prod.fst).Nodup) (hc : checkField sizes.length field = true) (he : els.length = sizes.sum) :
    ∃ rows, byRegions red sizes field els = some rows ∧ Right red sizes field els rows := by
  have hp := keys_perm hn hc
  obtain ⟨fs, h1, h2, h3⟩ := byRegions_eq red sizes field els
    (fun i hi => hp.mem_iff.2 (List.mem_range.2 hi)) sizes.length le_rfl
  exact ⟨_, h3, right_of_parts red sizes field els he fs h1 h2⟩

/-- **C118, partial**: forms on a line and 0-forms, if the dictionary lists the regions in their order. -/
theorem byField_right_partial (red : F → E → R) (sizes : List ℕ) (field : List (ℕ × F)) (els : List E)
    (hk : field.map Prod.fst = List.range sizes.length) (he : els.length = sizes.sum) :
    Right red sizes field els (byField red sizes field els) := by
  have hl : (field.map Prod.snd).length = sizes.length := by
    have := congrArg List.length hk
    simpa using this
  have := right_of_parts red sizes field els he (field.map Prod.snd) hl fun i hi => by
    have hi' : i < field.length := by simpa using hi
    have e1 : (field.map Prod.fst)[i]? = some i := by
      rw [hk, List.getElem?_range (by rw [← hl]; simpa using hi')]
    rw [List.getElem?_map, List.getElem?_eq_getElem hi'] at e1
    have e2 : field[i].1 = i := Option.some.inj e1
    rw [List.getElem_map]
    have : (i, field[i].2) = field[i] := Prod.ext e2.symm rfl
    rw [this]
    exact List.getElem_mem hi'
  convert this using 1
  rw [byField, List.flatMap, ← hk]
  congr 1
  clear hk he hl this
  induction field with
  | nil => rfl
  | cons q field ih => simp only [List.map_cons, List.zipWith_cons_cons, ih]

/-- **C118**: a single function for all regions. -/
theorem single_right (red : F → E → R) (sizes : List ℕ) (f : F) (els : List E) (he : els.length = sizes.sum) :
    checkField sizes.length (proceed sizes.length f) = true ∧ byField red sizes (proceed sizes.length f) els = els.map (red f) := by
  refine ⟨?_, ?_⟩
  · simp only [checkField, proceed, List.length_map, List.length_range, beq_self_eq_true, Bool.true_and, List.all_eq_true,
      List.contains_iff_mem, List.map_map]
    intro x hx
    simpa using hx
  · rw [byField, proceed, List.flatMap_map]
    have := slices els sizes sizes.length le_rfl
    rw [List.take_length, ← he, List.take_length] at this
    conv_rhs => rw [← this]
    rw [List.map_flatten, List.map_map]
    rfl

/-- **C118, refuted**: two regions with one element each, the function 10 in the first and 20 in the second; the dictionary is
accepted, and the values are interchanged. -/
theorem byField_refuted :
    let field : List (ℕ × ℕ) := [(1, 20), (0, 10)]
    (field.map Prod.fst).Nodup ∧ checkField 2 field = true ∧
    ¬Right (fun (f _ : ℕ) => f) [1, 1] field [0, 1] (byField (fun f _ => f) [1, 1] field [0, 1]) := by
  refine ⟨by decide, by decide, fun h => ?_⟩
  obtain ⟨f, h1, h2⟩ := h.2 0 (by decide)
  have e : byField (fun f _ => f) [1, 1] [(1, 20), (0, 10)] [0, 1] = [20, 10] := by decide
  rw [e] at h2
  have r : regionOf [1, 1] 0 = 0 := by decide
  rw [r] at h1
  simp at h1 h2
  omega

/-- The contribution of an element with the function of its region. -/
def contribution [AddCommMonoid R] (er : F → E → R) (sizes : List ℕ) (field : List (ℕ × F)) (els : List E) (e : ℕ) : R :=
  match field.lookup (regionOf sizes e), els[e]? with
  | some f, some x => er f x
  | _, _ => 0

lemma lookup_of_mem {field : List (ℕ × F)} (hn : (field.map Prod.fst).Nodup) {i : ℕ} {f : F} (h : (i, f) ∈ field) :
    field.lookup i = some f := by
  obtain ⟨g, hg⟩ := lookup_some (List.mem_map_of_mem (f := Prod.fst) h)
  have hm := lookup_mem hg
  have : (i, f) = (i, g) := List.inj_on_of_nodup_map hn h hm rfl
  have e : f = g := (Prod.ext_iff.1 this).2
  rw [e]
  exact hg

/-- **C118**, errors: the sum over the regions, in whatever order the dictionary lists them, is the sum over all elements, each
compared with the function of its region. -/
theorem sumField_right [AddCommMonoid R] (er : F → E → R) (sizes : List ℕ) (field : List (ℕ × F)) (els : List E)
    (hn : (field.map Prod.fst).Nodup) (hc : checkField sizes.length field = true) (he : els.length = sizes.sum) :
    sumField er sizes field els = ((List.range els.length).map (contribution er sizes field els)).sum := by
  have hp := keys_perm hn hc
  obtain ⟨rows, h1, h2⟩ := byRegions_right er sizes field els hn hc he
  obtain ⟨fs, l1, l2, l3⟩ := byRegions_eq er sizes field els
    (fun i hi => hp.mem_iff.2 (List.mem_range.2 hi)) sizes.length le_rfl
  rw [byRegions, l3] at h1
  obtain rfl := Option.some.inj h1
  have e1 : ((List.range els.length).map (contribution er sizes field els)) =
      ((List.zipWith (fun i f => (slice els (elementsIn sizes i)).map (er f)) (List.range sizes.length) fs).flatten) := by
    refine List.ext_getElem? fun e => ?_
    by_cases c : e < els.length
    · obtain ⟨f, m, hm⟩ := h2.2 e c
      rw [hm, List.getElem?_map, List.getElem?_range c, Option.map_some, contribution, lookup_of_mem hn m,
        List.getElem?_eq_getElem c]
    · rw [List.getElem?_eq_none (by simpa using c), List.getElem?_eq_none (by rw [h2.1]; omega)]
  rw [e1, List.sum_flatten, sumField]
  have e2 : (List.zipWith (fun i f => (slice els (elementsIn sizes i)).map (er f)) (List.range sizes.length) fs).map List.sum =
      (((List.range sizes.length).zip fs).map fun q => ((slice els (elementsIn sizes q.1)).map (er q.2)).sum) := by
    rw [List.map_zipWith, List.zip, List.map_zipWith]
  rw [e2]
  refine List.Perm.sum_eq (List.Perm.map _ ?_)
  refine ((List.subperm_of_subset ?_ ?_).perm_of_length_le ?_).symm
  · refine List.Nodup.of_map Prod.fst ?_
    rw [List.map_fst_zip (by simp [l1])]
    exact List.nodup_range
  · intro q hq
    obtain ⟨i, hi, rfl⟩ := List.mem_iff_getElem.1 hq
    rw [List.getElem_zip, List.getElem_range]
    exact l2 i (by simp at hi; omega)
  · have := hp.length_eq
    simp at this ⊢
    omega

/-- Cases that meet the hypotheses: three regions of 2, 1 and 3 elements. -/
example : byRegions (fun f x => f * x) [2, 1, 3] [(2, 100), (0, 1), (1, 10)] [1, 2, 3, 4, 5, 6] =
    some [1, 2, 30, 400, 500, 600] := by decide
example : byField (fun f x => f * x) [2, 1, 3] [(0, 1), (1, 10), (2, 100)] [1, 2, 3, 4, 5, 6] = [1, 2, 30, 400, 500, 600] := by
  decide
example : checkField 3 [(2, 100), (0, 1), (1, 10)] = true ∧ ([(2, 100), (0, 1), (1, 10)].map Prod.fst).Nodup := by decide
example : sumField (fun f x => f * x) [2, 1, 3] [(2, 100), (0, 1), (1, 10)] [1, 2, 3, 4, 5, 6] = 1533 := by decide

end Phyem.Reduce.Regions
