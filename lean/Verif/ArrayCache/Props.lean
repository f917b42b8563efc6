import Verif.ArrayCache.Model
import Mathlib.Data.List.Induction
import Mathlib.Tactic.Linarith
import Mathlib.Tactic.NormNum

/-!
Properties C41 (the array keyed cache returns the right value) and C42 (it is bounded and
consistent).
-/

namespace Phyem.ArrayCache

open Phyem

variable {V : Type}

/-! ### Specification -/

/-- The input arrays are numerically indistinguishable from the cached ones for `np.allclose`: same
number of arrays, same shapes, all entries close. -/
def Close (cached : List Arr) (input : List (Option Arr)) : Prop :=
  cached.length = input.length ∧
  ∀ (i : ℕ) (c : Arr) (x : Option Arr), cached[i]? = some c → input[i]? = some x →
    ∃ a, x = some a ∧ c.shape = a.shape ∧
      ∀ (j : ℕ) (p q : ℚ), c.data[j]? = some p → a.data[j]? = some q →
        |p - q| ≤ 1 / 10 ^ 8 + 1 / 10 ^ 5 * |q|

/-- The entries added to the cache by a history, in order: those of accepted `add` calls made while the
cache was in use. -/
def added : S V → List (Op V) → List (Entry V)
  | _, [] => []
  | s, .query a c :: ops => added (query s a c).2 ops
  | s, .add a v c m :: ops =>
    (if (addTo s a v c m).1 = false ∧ (s.info.map Info.keep) = some true then
      [⟨a.filterMap id, c, v⟩] else []) ++ added (addTo s a v c m).2 ops

/-! ### Helper lemmas -/

theorem allclose_iff (a b : Arr) : allclose a b = true ↔
    ∀ (j : ℕ) (p q : ℚ), a.data[j]? = some p → b.data[j]? = some q →
      |p - q| ≤ 1 / 10 ^ 8 + 1 / 10 ^ 5 * |q| := by
  unfold allclose
  rw [List.all_eq_true]
  constructor
  · intro h j p q hp hq
    have : (p, q) ∈ a.data.zip b.data := by
      apply List.mem_of_getElem? (i := j)
      rw [List.getElem?_zip_eq_some]
      exact ⟨hp, hq⟩
    simpa using h _ this
  · intro h x hx
    obtain ⟨j, hj⟩ := List.getElem?_of_mem hx
    rw [List.getElem?_zip_eq_some] at hj
    exact decide_eq_true (h j _ _ hj.1 hj.2)

theorem matches_iff (cached : List Arr) (input : List (Option Arr)) :
    matches_ cached input = true ↔ Close cached input := by
  induction cached generalizing input with
  | nil =>
    cases input with
    | nil => simp [matches_, Close]
    | cons x l => simp [matches_, Close]
  | cons c cs ih =>
    cases input with
    | nil => simp [matches_, Close]
    | cons x l =>
      cases x with
      | none =>
        simp only [matches_, Bool.false_eq_true, false_iff]
        rintro ⟨_, h⟩
        obtain ⟨a, ha, _⟩ := h 0 c none rfl rfl
        cases ha
      | some a =>
        simp only [matches_, Bool.and_eq_true, decide_eq_true_eq, ih, allclose_iff]
        constructor
        · rintro ⟨⟨h1, h2⟩, h3, h4⟩
          refine ⟨by simp [h3], ?_⟩
          intro i c' x' hc hx
          cases i with
          | zero =>
            simp only [List.getElem?_cons_zero, Option.some.injEq] at hc hx
            subst hc hx
            exact ⟨a, rfl, h1, h2⟩
          | succ i => exact h4 i c' x' (by simpa using hc) (by simpa using hx)
        · rintro ⟨h3, h4⟩
          obtain ⟨a', e, h1, h2⟩ := h4 0 c (some a) rfl rfl
          cases e
          exact ⟨⟨h1, h2⟩, by simpa using h3, fun i c' x' hc hx =>
            h4 (i + 1) c' x' (by simpa using hc) (by simpa using hx)⟩

theorem find_some {arrays : List (Option Arr)} {check : String} {d : Dict ℕ (Entry V)} {v : V}
    (h : find arrays check d = some v) :
    ∃ e ∈ d.map Prod.snd, e.check = check ∧ Close e.arrays arrays ∧ e.value = v := by
  induction d with
  | nil => simp [find] at h
  | cons p d ih =>
    obtain ⟨k, e⟩ := p
    simp only [find] at h
    split_ifs at h with h1
    · exact ⟨e, by simp, h1.1, (matches_iff _ _).1 h1.2, by simpa using h⟩
    · obtain ⟨e', h2, h3⟩ := ih h
      exact ⟨e', by simp only [List.map_cons, List.mem_cons]; exact Or.inr h2, h3⟩

theorem find_none {arrays : List (Option Arr)} {check : String} {d : Dict ℕ (Entry V)} :
    find arrays check d = none ↔
      ∀ e ∈ d.map Prod.snd, ¬ (e.check = check ∧ Close e.arrays arrays) := by
  induction d with
  | nil => simp [find]
  | cons p d ih =>
    obtain ⟨k, e⟩ := p
    simp only [find, List.map_cons, List.forall_mem_cons]
    by_cases h1 : e.check = check ∧ matches_ e.arrays arrays = true
    · rw [if_pos h1]
      have := (matches_iff _ _).1 h1.2
      simp [h1.1, this]
    · rw [if_neg h1, ih]
      have : ¬ (e.check = check ∧ Close e.arrays arrays) := by
        rw [← matches_iff]; exact h1
      simp only [this, not_false_eq_true, true_and]

theorem foldl_max (l : List ℕ) (a : ℕ) : a ≤ l.foldl max a ∧ ∀ x ∈ l, x ≤ l.foldl max a := by
  induction l generalizing a with
  | nil => simp
  | cons y l ih =>
    obtain ⟨h1, h2⟩ := ih (max a y)
    refine ⟨le_trans (le_max_left _ _) h1, ?_⟩
    intro x hx
    rcases List.mem_cons.1 hx with rfl | hx
    · exact le_trans (le_max_right _ _) h1
    · exact h2 x hx

theorem nextKey_gt (d : Dict ℕ (Entry V)) (k : ℕ) (h : k ∈ d.keys) : k < nextKey d := by
  unfold nextKey
  have : d.length > 0 := by rw [← Dict.keys_length]; exact List.length_pos_of_mem h
  rw [if_pos this]
  have := (foldl_max d.keys 0).2 k h
  omega

theorem put_new {K : Type} [DecidableEq K] {W : Type} (d : Dict K W) (k : K) (v : W)
    (h : k ∉ d.keys) : d.put k v = d ++ [(k, v)] := by
  induction d with
  | nil => rfl
  | cons p d ih =>
    obtain ⟨a, w⟩ := p
    simp only [Dict.keys, List.map_cons, List.mem_cons, not_or] at h
    simp only [Dict.put]
    rw [if_neg (fun e => h.1 e.symm), ih h.2]
    rfl

theorem sort_sorted (l : List ℕ) (h : l.Pairwise (· < ·)) : l.insertionSort (· ≤ ·) = l :=
  (h.imp fun h => le_of_lt h).insertionSort_eq

theorem del_head {K : Type} [DecidableEq K] {W : Type} (d : Dict K W) (k : K) (v : W)
    (h : k ∉ d.keys) : Dict.del ((k, v) :: d) k = d := by
  unfold Dict.del
  simp only [List.filter_cons, ne_eq, not_true_eq_false, decide_false, Bool.false_eq_true, if_false]
  rw [List.filter_eq_self]
  intro p hp
  have : p.1 ≠ k := by
    rintro rfl
    exact h (List.mem_map.2 ⟨p, hp, rfl⟩)
  simpa using this

theorem del_prefix (n : ℕ) (d : Dict ℕ (Entry V)) (h : d.keys.Pairwise (· < ·)) :
    (d.keys.take n).foldl (fun d k => Dict.del d k) d = d.drop n := by
  induction n generalizing d with
  | zero => simp
  | succ n ih =>
    cases d with
    | nil => rfl
    | cons p d =>
      obtain ⟨k, e⟩ := p
      simp only [Dict.keys, List.map_cons, List.pairwise_cons] at h
      simp only [Dict.keys, List.map_cons, List.take_succ_cons, List.foldl_cons, List.drop_succ_cons]
      rw [del_head d k e (fun hm => lt_irrefl _ (h.1 k hm))]
      exact ih d h.2

theorem evict_eq (d : Dict ℕ (Entry V)) (h : d.keys.Pairwise (· < ·)) (m : ℕ) :
    evict d m = if d.length > 2 * m then d.drop m else d := by
  unfold evict
  rw [sort_sorted _ h, del_prefix m d h]

/-- Keys are strictly increasing in insertion order, and a stopped cache is empty. -/
structure Good (s : S V) : Prop where
  sorted : s.cache.keys.Pairwise (· < ·)
  stopped : s.info.map Info.keep ≠ some true → s.cache = []

theorem good_query (s : S V) (g : Good s) (a : List (Option Arr)) (c : String) :
    Good (query s a c).2 ∧ ((query s a c).2.cache = s.cache ∨ (query s a c).2.cache = []) := by
  unfold query
  by_cases h1 : (s.info.getD ⟨0, 0, true⟩).keep = true
  · simp only [h1, if_true]
    split_ifs
    · exact ⟨⟨by simp [Dict.keys], fun _ => rfl⟩, Or.inr rfl⟩
    · exact ⟨⟨g.sorted, by simp⟩, Or.inl rfl⟩
    · exact ⟨⟨by simp [Dict.keys], fun _ => rfl⟩, Or.inr rfl⟩
    · exact ⟨⟨g.sorted, by simp⟩, Or.inl rfl⟩
  · have e : s.cache = [] := by
      apply g.stopped
      cases hi : s.info with
      | none => simp
      | some i => rw [hi] at h1; simpa using h1
    simp only [h1]
    exact ⟨⟨g.sorted, fun _ => e⟩, Or.inl rfl⟩

theorem addTo_eq (s : S V) (g : Good s) (a : List (Option Arr)) (v : V) (c : String) (m : ℕ) :
    ((addTo s a v c m).1 = false ∧ s.info.map Info.keep = some true ∧ 0 < m ∧
      (addTo s a v c m).2 = { s with cache :=
        (if s.cache.length > 2 * m then s.cache.drop m else s.cache) ++
          [(nextKey (if s.cache.length > 2 * m then s.cache.drop m else s.cache),
            ⟨a.filterMap id, c, v⟩)] }) ∨
    (((addTo s a v c m).1 = true ∨ s.info.map Info.keep ≠ some true) ∧ (addTo s a v c m).2 = s) := by
  cases hi : s.info with
  | none => exact Or.inr ⟨Or.inl (by simp [addTo, hi]), by simp [addTo, hi]⟩
  | some i =>
    cases hk : i.keep with
    | false => right; simp [addTo, hi, hk]
    | true =>
      by_cases h : m > 0 ∧ a.all Option.isSome = true
      · left
        have e : addTo s a v c m = (false, ⟨
            Dict.put (evict s.cache m) (nextKey (evict s.cache m)) ⟨a.filterMap id, c, v⟩, s.info⟩) := by
          simp only [addTo, hi, hk, if_true, if_pos h]
        rw [e]
        refine ⟨rfl, by simp [hk], h.1, ?_⟩
        simp only
        rw [put_new _ _ _ (fun hm => lt_irrefl _ (nextKey_gt _ _ hm)), evict_eq _ g.sorted, hi]
      · right
        have e : addTo s a v c m = (true, s) := by
          simp only [addTo, hi, hk, if_true, if_neg h]
        rw [e]
        exact ⟨Or.inl rfl, rfl⟩

theorem sorted_append (d : Dict ℕ (Entry V)) (h : d.keys.Pairwise (· < ·)) (e : Entry V) :
    (Dict.keys (d ++ [(nextKey d, e)])).Pairwise (· < ·) := by
  unfold Dict.keys at h ⊢
  rw [List.map_append, List.pairwise_append]
  refine ⟨h, by simp, ?_⟩
  intro a ha b hb
  simp at hb
  subst hb
  exact nextKey_gt d a ha

theorem good_add (s : S V) (g : Good s) (a : List (Option Arr)) (v : V) (c : String) (m : ℕ) :
    Good (addTo s a v c m).2 := by
  rcases addTo_eq s g a v c m with ⟨_, h2, _, h⟩ | ⟨_, h⟩
  · rw [h]
    refine ⟨?_, fun hn => absurd h2 hn⟩
    apply sorted_append
    split_ifs
    · exact g.sorted.sublist ((List.drop_sublist _ _).map _)
    · exact g.sorted
  · rw [h]; exact g

theorem good_run (ops : List (Op V)) : Good (run ops) := by
  induction ops using List.reverseRecOn with
  | nil => exact ⟨by simp [run, S.empty, Dict.keys], fun _ => rfl⟩
  | append_singleton ops o ih =>
    have e : run (ops ++ [o]) = step (run ops) o := by simp [run]
    rw [e]
    cases o with
    | query a c => exact (good_query _ ih a c).1
    | add a v c m => exact good_add _ ih a v c m

theorem added_append (s : S V) (ops : List (Op V)) (o : Op V) :
    added s (ops ++ [o]) = added s ops ++ added (ops.foldl step s) [o] := by
  induction ops generalizing s with
  | nil => simp [added]
  | cons p ops ih =>
    cases p with
    | query a c => simp only [List.cons_append, added, List.foldl_cons, step, ih]
    | add a v c m => simp only [List.cons_append, added, List.foldl_cons, step, ih,
        List.append_assoc]

/-! ### C42 -/

/-- **C42, contents.** After any history of queries and insertions, the entries held by the cache are a
suffix of the entries added so far: the cache never alters, reorders or invents an entry and only
forgets the oldest ones.  Their keys are pairwise distinct. -/
theorem contents_suffix (ops : List (Op V)) :
    (run ops).cache.map Prod.snd <:+ added S.empty ops ∧ (run ops).cache.keys.Nodup := by
  refine ⟨?_, (good_run ops).sorted.imp fun h => ne_of_lt h⟩
  induction ops using List.reverseRecOn with
  | nil => exact List.suffix_refl _
  | append_singleton ops o ih =>
    have e : run (ops ++ [o]) = step (run ops) o := by simp [run]
    have e' : ops.foldl step S.empty = run ops := rfl
    rw [added_append, e, e']
    have g := good_run ops
    cases o with
    | query a c =>
      simp only [added, List.append_nil, step]
      rcases (good_query _ g a c).2 with h | h
      · rw [h]; exact ih
      · rw [h]; exact List.nil_suffix
    | add a v c m =>
      simp only [added, List.append_nil, step]
      rcases addTo_eq _ g a v c m with ⟨h1, h2, _, h⟩ | ⟨h1, h⟩
      · rw [if_pos ⟨h1, h2⟩, h]
        obtain ⟨t, ht⟩ := ih
        simp only [List.map_append, List.map_cons, List.map_nil]
        split_ifs
        · refine ⟨t ++ ((run ops).cache.take m).map Prod.snd, ?_⟩
          rw [← List.append_assoc, List.append_assoc t, ← List.map_append, List.take_append_drop, ht]
        · exact ⟨t, by rw [← List.append_assoc, ht]⟩
      · have : ¬ ((addTo (run ops) a v c m).1 = false ∧
            (run ops).info.map Info.keep = some true) := by
          rintro ⟨g1, g2⟩
          rcases h1 with h1 | h1
          · rw [h1] at g1; cases g1
          · exact h1 g2
        rw [if_neg this, h, List.append_nil]
        exact ih

/-- **C42, bound.** If all insertions use the same `maximum`, the cache never holds more than
`2 * maximum + 1` entries. -/
theorem bounded (m : ℕ) (ops : List (Op V)) (hops : ∀ a v c k, Op.add a v c k ∈ ops → k = m) :
    (run ops).cache.length ≤ 2 * m + 1 := by
  induction ops using List.reverseRecOn with
  | nil => simp [run, S.empty]
  | append_singleton ops o ih =>
    have ih := ih (fun a v c k h => hops a v c k (by simp [h]))
    have e : run (ops ++ [o]) = step (run ops) o := by simp [run]
    have g := good_run ops
    rw [e]
    cases o with
    | query a c =>
      rcases (good_query _ g a c).2 with h | h <;> simp only [step, h]
      · exact ih
      · simp
    | add a v c k =>
      have := hops a v c k (by simp)
      subst this
      rcases addTo_eq _ g a v c k with ⟨_, _, hk, h⟩ | ⟨_, h⟩ <;> simp only [step, h]
      · split_ifs with hl
        · simp only [List.length_append, List.length_drop, List.length_cons, List.length_nil]; omega
        · simp only [List.length_append, List.length_cons, List.length_nil]; omega
      · exact ih

/-- **C42, insertion.** In every reachable state an insertion with arrays and a positive maximum, made
after some query while the cache is in use, is accepted and its entry is then present (it is the
last one); without a query before, or with an input that is not an array, it raises. -/
theorem newest_present (ops : List (Op V)) (a : List Arr) (v : V) (c : String) (m : ℕ) (hm : 0 < m) :
    ((run ops).info = none → (addTo (run ops) (a.map some) v c m).1 = true) ∧
    ((run ops).info.map Info.keep = some true →
      (addTo (run ops) (a.map some) v c m).1 = false ∧
      ((addTo (run ops) (a.map some) v c m).2.cache.map Prod.snd).getLast? = some ⟨a, c, v⟩) := by
  have g := good_run ops
  generalize run ops = s at *
  constructor
  · intro h; simp [addTo, h]
  · intro h
    have hid : (a.map some).filterMap id = a := by
      rw [List.filterMap_map]
      have : (id ∘ some : Arr → Option Arr) = some := rfl
      rw [this, List.filterMap_some]
    rcases addTo_eq s g (a.map some) v c m with ⟨h1, _, _, h2⟩ | ⟨h1, _⟩
    · refine ⟨h1, ?_⟩
      rw [h2, hid]
      simp
    · exfalso
      rcases h1 with h1 | h1
      · obtain ⟨i, hi, hk⟩ := Option.map_eq_some_iff.1 h
        simp [addTo, hi, hk, hm] at h1
      · exact h1 h

/-- **C42, queries.** In every reachable state a query returns a value that was added earlier with the
same check string and close arrays; and while the cache is in use it misses only if no entry held by the
cache has the check string and close arrays. -/
theorem query_sound (ops : List (Op V)) (a : List (Option Arr)) (c : String) :
    (∀ v, (query (run ops) a c).1 = some v →
      ∃ e ∈ added S.empty ops, e.check = c ∧ Close e.arrays a ∧ e.value = v) ∧
    ((run ops).info.map Info.keep ≠ some false →
      ((query (run ops) a c).1 = none ↔
        ∀ e ∈ (run ops).cache.map Prod.snd, ¬ (e.check = c ∧ Close e.arrays a))) := by
  have hfind : ∀ v, (query (run ops) a c).1 = some v → find a c (run ops).cache = some v := by
    intro v h
    unfold query at h
    by_cases h1 : ((run ops).info.getD ⟨0, 0, true⟩).keep = true
    · simp only [h1, if_true] at h
      split_ifs at h <;> exact h
    · simp [h1] at h
  constructor
  · intro v h
    obtain ⟨e, h1, h2⟩ := find_some (hfind v h)
    exact ⟨e, (contents_suffix ops).1.subset h1, h2⟩
  · intro hk
    rw [← find_none]
    have h1 : ((run ops).info.getD ⟨0, 0, true⟩).keep = true := by
      cases hi : (run ops).info with
      | none => rfl
      | some i => rw [hi] at hk; simpa using hk
    unfold query
    simp only [h1, if_true]
    split_ifs <;> rfl

/-- Two insertions and a hit (the second query is close to the second entry). -/
example : let ops : List (Op ℕ) := [.query [] "x", .add [some ⟨[1], [1]⟩] 7 "x" 25,
      .add [some ⟨[2], [3, 4]⟩] 8 "x" 25]
    (query (run ops) [some ⟨[2], [3, 4 + 1 / 10 ^ 6]⟩] "x").1 = some 8 ∧
    (query (run ops) [some ⟨[2], [3, 5]⟩] "x").1 = none ∧
    (run ops).info.map Info.keep = some true := by decide +kernel

/-! ### C41 -/

/-- Results of a history of calls of a memoised function. -/
def memoRun (f : List Arr → String → V) (m : ℕ) : S V → List (List Arr × String) → List V × S V
  | s, [] => ([], s)
  | s, q :: qs =>
    let r := memo f m s q.1 q.2
    let rest := memoRun f m r.2 qs
    (r.1 :: rest.1, rest.2)

/-- All entries were computed by `f` for one of the calls in `l`. -/
structure Computed (f : List Arr → String → V) (l : List (List Arr × String)) (s : S V) : Prop where
  good : Good s
  entries : ∀ e ∈ s.cache.map Prod.snd, (e.arrays, e.check) ∈ l ∧ e.value = f e.arrays e.check

theorem memo_step (f : List Arr → String → V) (m : ℕ) (s : S V) (l : List (List Arr × String))
    (h : Computed f l s) (a : List Arr) (c : String) :
    Computed f (l ++ [(a, c)]) (memo f m s a c).2 ∧
    ((memo f m s a c).1 = f a c ∨
      ∃ a', (a', c) ∈ l ∧ Close a' (a.map some) ∧ (memo f m s a c).1 = f a' c) := by
  have hq := good_query s h.good (a.map some) c
  have hent : ∀ e ∈ (query s (a.map some) c).2.cache.map Prod.snd,
      (e.arrays, e.check) ∈ l ∧ e.value = f e.arrays e.check := by
    intro e he
    rcases hq.2 with h' | h' <;> rw [h'] at he
    · exact h.entries e he
    · simp at he
  unfold memo
  cases hr : (query s (a.map some) c).1 with
  | some v =>
    simp only [hr]
    refine ⟨⟨hq.1, fun e he => ⟨List.mem_append_left _ (hent e he).1, (hent e he).2⟩⟩, Or.inr ?_⟩
    have hf : find (a.map some) c s.cache = some v := by
      unfold query at hr
      by_cases h1 : (s.info.getD ⟨0, 0, true⟩).keep = true
      · simp only [h1, if_true] at hr
        split_ifs at hr <;> exact hr
      · simp [h1] at hr
    obtain ⟨e, h1, h2, h3, h4⟩ := find_some hf
    obtain ⟨g1, g2⟩ := h.entries e h1
    rw [h2] at g1 g2
    exact ⟨e.arrays, g1, h3, by rw [← h4, g2]⟩
  | none =>
    simp only [hr]
    refine ⟨⟨good_add _ hq.1 _ _ _ _, ?_⟩, Or.inl trivial⟩
    have hid : (a.map some).filterMap id = a := by
      rw [List.filterMap_map]
      have : (id ∘ some : Arr → Option Arr) = some := rfl
      rw [this, List.filterMap_some]
    intro e he
    rcases addTo_eq _ hq.1 (a.map some) (f a c) c m with ⟨_, _, _, h'⟩ | ⟨_, h'⟩
    · rw [h'] at he
      simp only [List.map_append, List.mem_append, List.map_cons, List.map_nil,
        List.mem_singleton] at he
      rcases he with he | rfl
      · have : e ∈ (query s (a.map some) c).2.cache.map Prod.snd := by
          split_ifs at he
          · exact ((List.drop_sublist _ _).map _).subset he
          · exact he
        exact ⟨List.mem_append_left _ (hent e this).1, (hent e this).2⟩
      · simp [hid]
    · rw [h'] at he
      exact ⟨List.mem_append_left _ (hent e he).1, (hent e he).2⟩

/-- **C41, partial.** In any history of calls of a memoised function, with any `maximum`, the result of
a call is the value computed for these arrays, or the value computed for arrays of an earlier call that
are close to them (same shapes, entrywise `np.allclose`) with the same check string.  Missing: exactness
for arrays that are close but different, see `memo_exact_refuted`. -/
theorem memo_close_partial (f : List Arr → String → V) (m : ℕ) (calls : List (List Arr × String))
    (i : ℕ) (a : List Arr) (c : String) (r : V) (hi : calls[i]? = some (a, c))
    (hr : (memoRun f m S.empty calls).1[i]? = some r) :
    r = f a c ∨ ∃ j a', j < i ∧ calls[j]? = some (a', c) ∧ Close a' (a.map some) ∧ r = f a' c := by
  have key : ∀ (calls : List (List Arr × String)) (l : List (List Arr × String)) (s : S V),
      Computed f l s → ∀ i a c r, calls[i]? = some (a, c) →
      (memoRun f m s calls).1[i]? = some r →
      r = f a c ∨ ∃ j a', j < l.length + i ∧ (l ++ calls)[j]? = some (a', c) ∧
        Close a' (a.map some) ∧ r = f a' c := by
    intro calls
    induction calls with
    | nil => intro l s _ i a c r h; simp at h
    | cons q calls ih =>
      intro l s hs i a c r hi hr
      obtain ⟨a0, c0⟩ := q
      obtain ⟨h1, h2⟩ := memo_step f m s l hs a0 c0
      cases i with
      | zero =>
        simp only [List.getElem?_cons_zero, Option.some.injEq, Prod.mk.injEq] at hi
        obtain ⟨rfl, rfl⟩ := hi
        simp only [memoRun, List.getElem?_cons_zero, Option.some.injEq] at hr
        subst hr
        rcases h2 with h2 | ⟨a', h3, h4, h5⟩
        · exact Or.inl h2
        · obtain ⟨j, hj⟩ := List.getElem?_of_mem h3
          have hjl : j < l.length := by
            by_contra hc
            rw [List.getElem?_eq_none (by omega)] at hj
            cases hj
          exact Or.inr ⟨j, a', by omega, by rw [List.getElem?_append_left hjl]; exact hj, h4, h5⟩
      | succ i =>
        rcases ih (l ++ [(a0, c0)]) _ h1 i a c r (by simpa using hi)
          (by simpa [memoRun] using hr) with h | ⟨j, a', h3, h4, h5⟩
        · exact Or.inl h
        · refine Or.inr ⟨j, a', by simp at h3; omega, ?_, h5⟩
          rw [← h4]; simp
  have h0 : Computed f [] (S.empty : S V) :=
    ⟨⟨by simp [S.empty, Dict.keys], fun _ => rfl⟩, by simp [S.empty]⟩
  rcases key calls [] S.empty h0 i a c r hi hr with h | ⟨j, a', h1, h2, h3⟩
  · exact Or.inl h
  · exact Or.inr ⟨j, a', by simpa using h1, by simpa using h2, h3⟩

/-- Consequently the cache is transparent whenever different arrays in the history are never close to
each other. -/
theorem memo_exact_partial (f : List Arr → String → V) (m : ℕ) (calls : List (List Arr × String))
    (hsep : ∀ p ∈ calls, ∀ q ∈ calls, p.2 = q.2 → Close p.1 (q.1.map some) → p.1 = q.1) :
    (memoRun f m S.empty calls).1 = calls.map fun q => f q.1 q.2 := by
  have hlen : ∀ (calls : List (List Arr × String)) (s : S V),
      (memoRun f m s calls).1.length = calls.length := by
    intro calls
    induction calls with
    | nil => intro s; rfl
    | cons q calls ih => intro s; simp [memoRun, ih]
  apply List.ext_getElem?
  intro i
  cases hi : calls[i]? with
  | none =>
    rw [List.getElem?_eq_none_iff] at hi
    rw [List.getElem?_eq_none (by rw [hlen]; exact hi), List.getElem?_map,
      List.getElem?_eq_none hi]
    rfl
  | some q =>
    have hlt : i < calls.length := (List.getElem?_eq_some_iff.1 hi).1
    rw [List.getElem?_map, hi, List.getElem?_eq_getElem (by rw [hlen]; exact hlt)]
    simp only [Option.map_some, Option.some.injEq]
    rcases memo_close_partial f m calls i q.1 q.2 _ hi
      (List.getElem?_eq_getElem (by rw [hlen]; exact hlt)) with h | ⟨j, a', h1, h2, h3, h4⟩
    · exact h
    · rw [h4]
      have := hsep (a', q.2) (List.mem_of_getElem? h2) q (List.mem_of_getElem? hi) rfl h3
      simp only at this
      rw [this]

/-- **C41 refuted**: after a call with the array [100000], a call with [100001] returns the value
computed for [100000]. -/
theorem memo_exact_refuted : ∃ (calls : List (List Arr × String)),
    (memoRun (fun a _ => a) 25 S.empty calls).1 ≠ calls.map fun q => q.1 :=
  ⟨[([⟨[1], [100000]⟩], ""), ([⟨[1], [100001]⟩], "")], by decide +kernel⟩

/-- A history meeting the hypothesis of `memo_exact_partial`, with a genuine hit in it. -/
example : let calls : List (List Arr × String) :=
      [([⟨[1], [1]⟩], "a"), ([⟨[1], [2]⟩], "a"), ([⟨[1], [1]⟩], "a"), ([⟨[1], [1]⟩], "b")]
    (∀ p ∈ calls, ∀ q ∈ calls, p.2 = q.2 → matches_ p.1 (q.1.map some) = true → p.1 = q.1) ∧
    (memoRun (fun a s => (a, s)) 25 S.empty calls).2.cache.length = 3 := by decide +kernel

end Phyem.ArrayCache
