import Verif.Cochain.Lemmas
import Mathlib.Data.List.Induction
import Mathlib.Order.Bounds.Basic

/-!
Properties C43 (msepy store), C44 (interpolation) and C45 (msehtt store).
-/

namespace Phyem.Cochain

open Phyem

variable {V : Type}

/-! ### Specification -/

/-- A setting of auto cleaning the library accepts: off, on, or a number of at least two. -/
def Auto.ok : Auto → Bool
  | .off => true
  | .on => true
  | .num n => decide (n ≥ 2)

/-- The (rounded) time and cochain a `_set` call stores, if it is accepted. -/
def OpPy.stores : OpPy V → Option (ℚ × V)
  | .set a t (some v) => if a.ok then some (parseT t, v) else none
  | _ => none

def OpHtt.stores : OpHtt V → Option (ℚ × V)
  | .set a t (some v) => if a.ok then some (parseT t, v) else none
  | _ => none

/-- The last cochain stored for time `t` in a list of accepted `_set` calls. -/
def lastFor (l : List (ℚ × V)) (t : ℚ) : Option V := (l.reverse.find? fun p => p.1 = t).map Prod.snd

theorem lastFor_concat (l : List (ℚ × V)) (k : ℚ) (v : V) (t : ℚ) :
    lastFor (l ++ [(k, v)]) t = if t = k then some v else lastFor l t := by
  unfold lastFor
  rw [List.reverse_append]
  simp only [List.reverse_cons, List.reverse_nil, List.nil_append, List.singleton_append,
    List.find?_cons]
  by_cases h : t = k
  · subst h; simp
  · have : ¬ k = t := fun e => h e.symm
    simp [h, this]

/-! ### msepy -/

/-- What a `_set` call does, in terms of the store it starts from. -/
theorem setPy_cases (auto : Auto) (s : S V) (t : ℚ) (c : Option V) (hn : s.tcd.keys.Nodup) :
    ∃ d, (d = s.tcd ∨ ∃ n : ℕ, 2 ≤ n ∧ 2 * n < s.tcd.length ∧ Keeps n s.tcd d) ∧
      (d = s.tcd ∨ auto.ok) ∧
      ((auto.ok = true ∧ ∃ v, c = some v ∧ setPy auto s t c =
        (false, ⟨d.put (parseT t) v,
          some (newer s.newest (parseT t))⟩)) ∨
      ((auto.ok = false ∨ c = none) ∧ setPy auto s t c = (true, ⟨d, s.newest⟩))) := by
  have main : ∀ (n : ℤ), n ≥ 2 → ∃ d : Dict ℚ V,
      (d = s.tcd ∨ ∃ n : ℕ, 2 ≤ n ∧ 2 * n < s.tcd.length ∧ Keeps n s.tcd d) ∧
      (if (s.tcd.length : ℤ) > 2 * n then (cleanPy s (.num (-n))).2 else s) = ⟨d, s.newest⟩ := by
    intro n hn2
    split_ifs with h
    · refine ⟨keepLargest s.tcd n.toNat, Or.inr ⟨n.toNat, by omega, by omega,
        keepLargest_keeps _ hn _⟩, ?_⟩
      have : -n < 0 := by omega
      simp only [cleanPy, if_pos this, neg_neg]
    · exact ⟨s.tcd, Or.inl rfl, rfl⟩
  cases auto with
  | off =>
    refine ⟨s.tcd, Or.inl rfl, Or.inl rfl, ?_⟩
    cases c with
    | none => exact Or.inr ⟨Or.inr rfl, by simp [setPy]⟩
    | some v => exact Or.inl ⟨rfl, v, rfl, by simp [setPy]⟩
  | on =>
    obtain ⟨d, h1, h2⟩ := main 10 (by norm_num)
    refine ⟨d, h1, Or.inr rfl, ?_⟩
    cases c with
    | none => exact Or.inr ⟨Or.inr rfl, by simp only [setPy, h2]⟩
    | some v => exact Or.inl ⟨rfl, v, rfl, by simp only [setPy, h2]⟩
  | num n =>
    by_cases hn2 : n ≥ 2
    · obtain ⟨d, h1, h2⟩ := main n hn2
      refine ⟨d, h1, Or.inr (by simpa [Auto.ok] using hn2), ?_⟩
      cases c with
      | none => exact Or.inr ⟨Or.inr rfl, by simp only [setPy, if_pos hn2, h2]⟩
      | some v =>
        exact Or.inl ⟨by simpa [Auto.ok] using hn2, v, rfl, by
          simp only [setPy, if_pos hn2, h2]⟩
    · refine ⟨s.tcd, Or.inl rfl, Or.inl rfl, Or.inr ⟨Or.inl (by simpa [Auto.ok] using hn2), ?_⟩⟩
      simp only [setPy, if_neg hn2]

/-- The invariant of the msepy store: `l` are the stored (time, cochain) pairs so far. -/
structure GoodPy (l : List (ℚ × V)) (s : S V) : Prop where
  nodup : s.tcd.keys.Nodup
  last : ∀ t v, s.tcd.get t = some v → lastFor l t = some v
  none_iff : s.newest = none ↔ l = []
  newest : ∀ m, s.newest = some m → m ∈ s.tcd.keys ∧ IsGreatest {t | t ∈ l.map Prod.fst} m

theorem GoodPy.keep {l : List (ℚ × V)} {s : S V} (g : GoodPy l s) {n : ℕ} (hn : 0 < n)
    {d : Dict ℚ V} (k : Keeps n s.tcd d) : GoodPy l ⟨d, s.newest⟩ := by
  refine ⟨k.nodup, ?_, g.none_iff, ?_⟩
  · intro t v h
    have hm : t ∈ d.keys := (Dict.get_isSome d t).1 (by rw [h]; rfl)
    exact g.last t v ((k.same t hm).2 ▸ h)
  · intro m hm
    obtain ⟨h1, h2⟩ := g.newest m hm
    refine ⟨?_, h2⟩
    by_contra hnot
    have hpos : 0 < s.tcd.length := by
      rw [← Dict.keys_length]; exact List.length_pos_of_mem h1
    have : 0 < d.length := by rw [k.size]; omega
    rw [← Dict.keys_length] at this
    obtain ⟨u, hu⟩ := List.exists_mem_of_length_pos this
    have hlt := k.largest m h1 hnot u hu
    obtain ⟨v, hv⟩ := Option.isSome_iff_exists.1 ((Dict.get_isSome s.tcd u).2 (k.same u hu).1)
    have hl := g.last u v hv
    have : u ∈ l.map Prod.fst := by
      unfold lastFor at hl
      obtain ⟨p, hp, _⟩ := Option.map_eq_some_iff.1 hl
      have h3 := List.find?_some hp
      have h4 := List.mem_of_find?_eq_some hp
      simp at h3
      exact List.mem_map.2 ⟨p, by simpa using h4, h3⟩
    have := h2.2 this
    linarith

theorem GoodPy.put {l : List (ℚ × V)} {s : S V} (g : GoodPy l s) (k : ℚ) (v : V) :
    GoodPy (l ++ [(k, v)])
      ⟨s.tcd.put k v, some (newer s.newest k)⟩ := by
  refine ⟨Dict.nodup_put _ _ _ g.nodup, ?_, by simp, ?_⟩
  · intro t w h
    rw [Dict.get_put] at h
    rw [lastFor_concat]
    split_ifs at h ⊢ with e
    · exact h
    · exact g.last t w h
  · intro m hm
    simp only [Option.some.injEq] at hm
    cases hs : s.newest with
    | none =>
      rw [hs, newer] at hm
      have hl := g.none_iff.1 hs
      subst hm hl
      exact ⟨(Dict.mem_keys_put _ _ _ _).2 (Or.inl rfl), by simp, by intro t ht; simp at ht; simp [ht]⟩
    | some m0 =>
      rw [hs, newer] at hm
      obtain ⟨h1, h2, h3⟩ := g.newest m0 hs
      subst hm
      have h3 : ∀ t ∈ l.map Prod.fst, t ≤ m0 := h3
      refine ⟨(Dict.mem_keys_put _ _ _ _).2 ?_, ?_, ?_⟩
      · rcases max_choice m0 k with e | e <;> rw [e]
        · exact Or.inr h1
        · exact Or.inl rfl
      · simp only [List.map_append, List.map_cons, List.map_nil, List.mem_append,
          List.mem_singleton, Set.mem_setOf_eq]
        rcases max_choice m0 k with e | e <;> rw [e]
        · exact Or.inl h2
        · exact Or.inr rfl
      · intro t ht
        simp only [List.map_append, List.map_cons, List.map_nil, List.mem_append,
          List.mem_singleton, Set.mem_setOf_eq] at ht
        rcases ht with ht | rfl
        · exact le_max_of_le_left (h3 t ht)
        · exact le_max_right _ _

theorem cleanPy_cases {l : List (ℚ × V)} {s : S V} (g : GoodPy l s) (w : What) :
    (cleanPy s w).1 = true ∧ (cleanPy s w).2 = s ∨
    ∃ n d, 0 < n ∧ Keeps n s.tcd d ∧ cleanPy s w = (false, ⟨d, s.newest⟩) ∧
      (w = .none ∧ n = 1 ∨ w = .num (-(n : ℤ))) := by
  cases w with
  | all => exact Or.inl ⟨rfl, rfl⟩
  | other => exact Or.inl ⟨rfl, rfl⟩
  | num x =>
    by_cases hx : x < 0
    · exact Or.inr ⟨(-x).toNat, keepLargest s.tcd (-x).toNat, by omega,
        keepLargest_keeps _ g.nodup _, by simp [cleanPy, hx], Or.inr (by congr 1; omega)⟩
    · exact Or.inl (by simp [cleanPy, hx])
  | none =>
    cases hs : s.newest with
    | none => exact Or.inl (by simp [cleanPy, hs])
    | some m =>
      obtain ⟨h1, h2⟩ := g.newest m hs
      obtain ⟨v, hv⟩ := Option.isSome_iff_exists.1 ((Dict.get_isSome s.tcd m).2 h1)
      refine Or.inr ⟨1, [(m, v)], by omega, ?_, by simp [cleanPy, hs, hv], Or.inl ⟨rfl, rfl⟩⟩
      have hpos : 0 < s.tcd.length := by
        rw [← Dict.keys_length]; exact List.length_pos_of_mem h1
      refine ⟨by simp [Dict.keys], by simp; omega, ?_, ?_⟩
      · intro t ht
        simp [Dict.keys] at ht
        subst ht
        exact ⟨h1, by rw [hv]; simp [Dict.get]⟩
      · intro t ht hnot u hu
        simp [Dict.keys] at hnot hu
        subst hu
        obtain ⟨w, hw⟩ := Option.isSome_iff_exists.1 ((Dict.get_isSome s.tcd t).2 ht)
        have hl := g.last t w hw
        have : t ∈ l.map Prod.fst := by
          unfold lastFor at hl
          obtain ⟨p, hp, _⟩ := Option.map_eq_some_iff.1 hl
          have h3 := List.find?_some hp
          have h4 := List.mem_of_find?_eq_some hp
          simp at h3
          exact List.mem_map.2 ⟨p, by simpa using h4, h3⟩
        exact lt_of_le_of_ne (h2.2 this) hnot

theorem goodPy_run (ops : List (OpPy V)) : GoodPy (ops.filterMap OpPy.stores) (runPy ops) := by
  induction ops using List.reverseRecOn with
  | nil => exact ⟨by simp [runPy, S.empty, Dict.keys], by simp [runPy, S.empty, Dict.get],
      by simp [runPy, S.empty], by simp [runPy, S.empty]⟩
  | append_singleton ops o ih =>
    have e : runPy (ops ++ [o]) = (stepPy (runPy ops) o).2 := by simp [runPy]
    rw [e, List.filterMap_append]
    cases o with
    | clean w =>
      have : ([OpPy.clean w].filterMap OpPy.stores : List (ℚ × V)) = [] := rfl
      rw [this, List.append_nil]
      rcases cleanPy_cases ih w with h | ⟨n, d, h0, h1, h2, _⟩
      · rw [stepPy, h.2]; exact ih
      · rw [stepPy, h2]; exact ih.keep h0 h1
    | set a t c =>
      obtain ⟨d, h1, _, h2⟩ := setPy_cases a (runPy ops) t c ih.nodup
      have gd : GoodPy (ops.filterMap OpPy.stores) ⟨d, (runPy ops).newest⟩ := by
        rcases h1 with rfl | ⟨n, hn, _, hk⟩
        · exact ih
        · exact ih.keep (by omega) hk
      rw [stepPy]
      rcases h2 with ⟨ha, v, rfl, h2⟩ | ⟨hr, h2⟩
      · rw [h2]
        have : ([OpPy.set a t (some v)].filterMap OpPy.stores : List (ℚ × V)) = [(parseT t, v)] := by
          simp [OpPy.stores, ha]
        rw [this]
        exact gd.put _ _
      · rw [h2]
        have : ([OpPy.set a t c].filterMap OpPy.stores : List (ℚ × V)) = [] := by
          rcases hr with hr | rfl
          · cases c <;> simp [OpPy.stores, hr]
          · rfl
        rw [this, List.append_nil]
        exact gd

theorem parse_mem_fixed {ops : List (OpPy V)} {m : ℚ}
    (h : m ∈ (ops.filterMap OpPy.stores).map Prod.fst) : parseT m = m := by
  obtain ⟨p, hp, rfl⟩ := List.mem_map.1 h
  obtain ⟨o, _, ho⟩ := List.mem_filterMap.1 hp
  cases o with
  | clean w => simp [OpPy.stores] at ho
  | set a t c =>
    cases c with
    | none => simp [OpPy.stores] at ho
    | some v =>
      simp only [OpPy.stores] at ho
      split_ifs at ho
      cases ho
      exact parseT_parseT t

/-- **C43, look-ups.** After every history of set and clean calls (with any auto cleaning settings):
what `cochain[t]` returns is the last cochain set for `t` (up to rounding); `newest` is the largest
time ever set, and is None exactly when nothing was set; and `cochain[None]` is the last cochain set
for the newest time. -/
theorem msepy_lookup (ops : List (OpPy V)) :
    (∀ t v, getItem (runPy ops) (some t) = some v →
      lastFor (ops.filterMap OpPy.stores) (parseT t) = some v) ∧
    ((runPy ops).newest = none ↔ ops.filterMap OpPy.stores = []) ∧
    (∀ m, (runPy ops).newest = some m →
      IsGreatest {t | t ∈ (ops.filterMap OpPy.stores).map Prod.fst} m ∧
      (getItem (runPy ops) none).isSome = true ∧
      getItem (runPy ops) none = lastFor (ops.filterMap OpPy.stores) m) := by
  have g := goodPy_run ops
  refine ⟨fun t v h => g.last _ v h, g.none_iff, ?_⟩
  intro m hm
  obtain ⟨h1, h2⟩ := g.newest m hm
  obtain ⟨v, hv⟩ := Option.isSome_iff_exists.1 ((Dict.get_isSome _ m).2 h1)
  have hp : parseT m = m := parse_mem_fixed h2.1
  have hg : getItem (runPy ops) none = some v := by simp [getItem, hm, hp, hv]
  exact ⟨h2, by rw [hg]; rfl, by rw [hg]; exact (g.last m v hv).symm⟩

/-- **C43, nothing is lost without cleaning.** If no cleaning is requested (auto cleaning off),
`cochain[t]` is exactly the last cochain set for `t`, for every `t`. -/
theorem msepy_no_loss (ops : List (OpPy V))
    (hops : ∀ o ∈ ops, ∃ t c, o = .set .off t c) (t : ℚ) :
    getItem (runPy ops) (some t) = lastFor (ops.filterMap OpPy.stores) (parseT t) := by
  unfold getItem
  simp only
  induction ops using List.reverseRecOn with
  | nil => simp [runPy, S.empty, Dict.get, lastFor]
  | append_singleton ops o ih =>
    have ih := ih (fun o ho => hops o (by simp [ho]))
    have e : runPy (ops ++ [o]) = (stepPy (runPy ops) o).2 := by simp [runPy]
    obtain ⟨u, c, rfl⟩ := hops o (by simp)
    rw [e, List.filterMap_append]
    cases c with
    | none =>
      have : ([OpPy.set .off u none].filterMap OpPy.stores : List (ℚ × V)) = [] := rfl
      rw [this, List.append_nil]
      simpa [stepPy, setPy] using ih
    | some v =>
      have : ([OpPy.set .off u (some v)].filterMap OpPy.stores : List (ℚ × V)) = [(parseT u, v)] := by
        simp [OpPy.stores, Auto.ok]
      rw [this, lastFor_concat]
      simp only [stepPy, setPy, Dict.get_put, ih]

/-- **C43, cleaning.** In every reachable state `clean(-n)` keeps exactly the `n` largest times with
their cochains and `clean()` keeps exactly the newest one; every other request, and `clean()` on an
empty store, raises and changes nothing. -/
theorem msepy_clean (ops : List (OpPy V)) :
    (∀ n : ℕ, 0 < n → ∃ d, cleanPy (runPy ops) (.num (-(n : ℤ))) = (false, ⟨d, (runPy ops).newest⟩) ∧
      Keeps n (runPy ops).tcd d) ∧
    ((runPy ops).tcd ≠ [] → ∃ d, cleanPy (runPy ops) .none = (false, ⟨d, (runPy ops).newest⟩) ∧
      Keeps 1 (runPy ops).tcd d) ∧
    (∀ w, (w = .all ∨ w = .other ∨ (∃ x, 0 ≤ x ∧ w = .num x) ∨ (w = .none ∧ (runPy ops).tcd = [])) →
      cleanPy (runPy ops) w = (true, runPy ops)) := by
  have g := goodPy_run ops
  refine ⟨?_, ?_, ?_⟩
  · intro n hn
    have : -(n : ℤ) < 0 := by omega
    exact ⟨keepLargest (runPy ops).tcd n, by simp [cleanPy, hn], keepLargest_keeps _ g.nodup n⟩
  · intro hne
    rcases cleanPy_cases g .none with h | ⟨n, d, h0, h1, h2, h3⟩
    · exfalso
      cases hs : (runPy ops).newest with
      | none =>
        have := g.none_iff.1 hs
        obtain ⟨k, hk⟩ := List.exists_mem_of_ne_nil _ hne
        have := g.last k.1 k.2 (Dict.get_of_mem _ g.nodup _ _ hk)
        simp_all [lastFor]
      | some m =>
        obtain ⟨v, hv⟩ := Option.isSome_iff_exists.1 ((Dict.get_isSome _ m).2 (g.newest m hs).1)
        have := h.1
        simp [cleanPy, hs, hv] at this
    · rcases h3 with ⟨_, rfl⟩ | h3
      · exact ⟨d, h2, h1⟩
      · simp at h3
  · rintro w (rfl | rfl | ⟨x, hx, rfl⟩ | ⟨rfl, hE⟩)
    · rfl
    · rfl
    · have : ¬ x < 0 := by omega
      simp [cleanPy, this]
    · cases hs : (runPy ops).newest with
      | none => simp [cleanPy, hs]
      | some m =>
        have := (g.newest m hs).1
        rw [hE] at this
        simp [Dict.keys] at this

/-- **C43, setting.** In every reachable state an accepted `_set` makes the cochain available at its
time; every other time keeps its cochain, except that auto cleaning (only when more than twice the
configured number are stored) first keeps the configured number of largest times; a refused `_set`
raises. -/
theorem msepy_set (ops : List (OpPy V)) (auto : Auto) (t : ℚ) (c : Option V) :
    ∃ d, (d = (runPy ops).tcd ∨
        ∃ n : ℕ, 2 ≤ n ∧ 2 * n < (runPy ops).tcd.length ∧ (auto = .on ∧ n = 10 ∨ auto = .num n) ∧
          Keeps n (runPy ops).tcd d) ∧
      ((setPy auto (runPy ops) t c).1 = false ↔ auto.ok = true ∧ c.isSome = true) ∧
      (∀ v, auto.ok = true → c = some v → ∀ u, getItem (setPy auto (runPy ops) t c).2 (some u) =
        if parseT u = parseT t then some v else d.get (parseT u)) ∧
      (c = none → (setPy auto (runPy ops) t c).2.tcd = d) := by
  have hn := (goodPy_run ops).nodup
  generalize runPy ops = s at *
  have main : ∀ n : ℤ, n ≥ 2 → ∃ d : Dict ℚ V,
      (d = s.tcd ∨ ∃ m : ℕ, 2 ≤ m ∧ 2 * m < s.tcd.length ∧ (m : ℤ) = n ∧ Keeps m s.tcd d) ∧
      (if (s.tcd.length : ℤ) > 2 * n then (cleanPy s (.num (-n))).2 else s) = ⟨d, s.newest⟩ := by
    intro n hn2
    split_ifs with h
    · refine ⟨keepLargest s.tcd n.toNat, Or.inr ⟨n.toNat, by omega, by omega, by omega,
        keepLargest_keeps _ hn _⟩, ?_⟩
      have : -n < 0 := by omega
      simp only [cleanPy, if_pos this, neg_neg]
    · exact ⟨s.tcd, Or.inl rfl, rfl⟩
  have fin : ∀ d : Dict ℚ V, (match c with
      | none => ((true, ⟨d, s.newest⟩) : Bool × S V)
      | some v => (false, ⟨d.put (parseT t) v,
          some (newer s.newest (parseT t))⟩)) =
        setPy auto s t c → auto.ok = true →
      ((setPy auto s t c).1 = false ↔ auto.ok = true ∧ c.isSome = true) ∧
      (∀ v, auto.ok = true → c = some v → ∀ u, getItem (setPy auto s t c).2 (some u) =
        if parseT u = parseT t then some v else d.get (parseT u)) ∧
      (c = none → (setPy auto s t c).2.tcd = d) := by
    intro d h ha
    rw [← h]
    cases c with
    | none => simp
    | some w =>
      refine ⟨by simp [ha], ?_, by simp⟩
      intro v _ hv u
      cases hv
      simp [getItem, Dict.get_put]
  cases auto with
  | off =>
    refine ⟨s.tcd, Or.inl rfl, fin s.tcd ?_ rfl⟩
    cases c <;> simp only [setPy]
  | on =>
    obtain ⟨d, h1, h2⟩ := main 10 (by norm_num)
    refine ⟨d, ?_, fin d ?_ rfl⟩
    · rcases h1 with h1 | ⟨m, a, b, e, k⟩
      · exact Or.inl h1
      · exact Or.inr ⟨m, a, b, Or.inl ⟨rfl, by omega⟩, k⟩
    · cases c <;> simp only [setPy, h2]
  | num n =>
    by_cases hn2 : n ≥ 2
    · obtain ⟨d, h1, h2⟩ := main n hn2
      refine ⟨d, ?_, fin d ?_ (by simpa [Auto.ok] using hn2)⟩
      · rcases h1 with h1 | ⟨m, a, b, e, k⟩
        · exact Or.inl h1
        · exact Or.inr ⟨m, a, b, Or.inr (by rw [e]), k⟩
      · cases c <;> simp only [setPy, if_pos hn2, h2]
    · refine ⟨s.tcd, Or.inl rfl, ?_, ?_, ?_⟩
      · simp [setPy, if_neg hn2, Auto.ok, hn2]
      · simp [Auto.ok, hn2]
      · simp [setPy, if_neg hn2]

/-- **C43, bounded memory.** With a fixed setting of auto cleaning the store never holds more than
twice the configured number plus one cochains. -/
theorem msepy_bounded (auto : Auto) (n : ℕ) (ha : auto = .on ∧ n = 10 ∨ (auto = .num n ∧ 2 ≤ n))
    (ops : List (OpPy V)) (hops : ∀ a t c, OpPy.set a t c ∈ ops → a = auto) :
    (runPy ops).tcd.length ≤ 2 * n + 1 := by
  induction ops using List.reverseRecOn with
  | nil => simp [runPy, S.empty]
  | append_singleton ops o ih =>
    have ih := ih (fun a t c ho => hops a t c (by simp [ho]))
    have e : runPy (ops ++ [o]) = (stepPy (runPy ops) o).2 := by simp [runPy]
    have g := goodPy_run ops
    rw [e]
    cases o with
    | clean w =>
      rcases cleanPy_cases g w with h | ⟨m, d, h0, h1, h2, _⟩
      · rw [stepPy, h.2]; exact ih
      · rw [stepPy, h2]
        have := h1.size
        simp only; omega
    | set a t c =>
      have := hops a t c (by simp)
      subst this
      have hl : (if ((runPy ops).tcd.length : ℤ) > 2 * n then
          (cleanPy (runPy ops) (.num (-(n : ℤ)))).2 else runPy ops).tcd.length ≤ 2 * n := by
        split_ifs with h
        · have h' : -(n : ℤ) < 0 := by omega
          rw [cleanPy, if_pos h']
          have := (keepLargest_keeps _ g.nodup (-(-(n : ℤ))).toNat).size
          simp only; omega
        · omega
      have hp : ∀ (v : V) (k : ℚ) (d : Dict ℚ V), d.length ≤ 2 * n → (d.put k v).length ≤ 2 * n + 1 := by
        intro v k d hd
        have := Dict.length_put_le d k v
        omega
      rw [stepPy]
      rcases ha with ⟨rfl, rfl⟩ | ⟨rfl, h2⟩
      · cases c with
        | none => simp only [setPy]; exact Nat.le_succ_of_le hl
        | some v => simp only [setPy]; exact hp _ _ _ hl
      · have h2' : (n : ℤ) ≥ 2 := by omega
        cases c with
        | none => simp only [setPy, if_pos h2']; exact Nat.le_succ_of_le hl
        | some v => simp only [setPy, if_pos h2']; exact hp _ _ _ hl

/-- Times 0, 1, 1/2 and again 1/2 (up to rounding) are set; then all but the two largest are cleaned. -/
example : let ops : List (OpPy ℕ) := [.set .off 0 (some 7), .set .on 1 (some 8),
      .set .off (1 / 2) (some 9), .set .off (1 / 2 + 1 / 10 ^ 9) (some 10), .clean (.num (-2))]
    getItem (runPy ops) (some (1 / 2)) = some 10 ∧ (runPy ops).newest = some 1 ∧
    getItem (runPy ops) none = some 8 ∧ getItem (runPy ops) (some 0) = none := by
  decide +kernel

/-! ### Interpolation -/

/-- `a < b` are neighbouring stored times. -/
def Neighbours (s : S V) (a b : ℚ) : Prop :=
  a ∈ s.tcd.keys ∧ b ∈ s.tcd.keys ∧ a < b ∧ ∀ c ∈ s.tcd.keys, ¬ (a < c ∧ c < b)

/-- The linear interpolation between `(a, va)` and `(b, vb)` at `t`. -/
def linear [AddCommGroup V] [Module ℚ V] (a b : ℚ) (va vb : V) (t : ℚ) : V :=
  va + ((t - a) / (b - a)) • (vb - va)

/-- States in which all stored times are rounded and distinct (all reachable ones, see
`runPy_wf`, `runHtt_wf`). -/
structure WF (s : S V) : Prop where
  nodup : s.tcd.keys.Nodup
  rounded : ∀ t ∈ s.tcd.keys, parseT t = t

/-- Every reachable msepy store has distinct rounded times. -/
theorem runPy_wf (ops : List (OpPy V)) : WF (runPy ops) := by
  have g := goodPy_run ops
  refine ⟨g.nodup, ?_⟩
  intro t ht
  obtain ⟨v, hv⟩ := Option.isSome_iff_exists.1 ((Dict.get_isSome _ t).2 ht)
  have hl := g.last t v hv
  apply parse_mem_fixed (ops := ops)
  unfold lastFor at hl
  obtain ⟨p, hp, _⟩ := Option.map_eq_some_iff.1 hl
  have h3 := List.find?_some hp
  have h4 := List.mem_of_find?_eq_some hp
  simp at h3
  exact List.mem_map.2 ⟨p, by simpa using h4, h3⟩

theorem WF.getItem {s : S V} (w : WF s) {t : ℚ} (h : t ∈ s.tcd.keys) :
    getItem s (some t) = s.tcd.get t := by
  simp [Cochain.getItem, w.rounded t h]

theorem lerp_eq [AddCommGroup V] [Module ℚ V] {s : S V} (w : WF s) {a b : ℚ} {va vb : V}
    (ha : s.tcd.get a = some va) (hb : s.tcd.get b = some vb) (t : ℚ) :
    lerp s t (a, b) = some (linear a b va vb t) := by
  have ma := (Dict.get_isSome s.tcd a).1 (by rw [ha]; rfl)
  have mb := (Dict.get_isSome s.tcd b).1 (by rw [hb]; rfl)
  simp [lerp, w.getItem ma, w.getItem mb, ha, hb, linear]

theorem segIc_find (t : ℚ) (l : List ℚ) (hs : l.Pairwise (· < ·)) (a b : ℚ) (hab : a < b)
    (ha : a ∈ l) (hb : b ∈ l) (hbt : ∀ c ∈ l, ¬ (a < c ∧ c < b)) (h1 : a ≤ t) (h2 : t ≤ b) :
    segIc t l = some (a, b) ∨ (t = a ∧ ∃ c, c < a ∧ c ∈ l ∧ segIc t l = some (c, a)) := by
  induction l with
  | nil => simp at ha
  | cons x l ih =>
    cases l with
    | nil => simp at ha hb; rw [ha, hb] at hab; exact absurd hab (lt_irrefl _)
    | cons y l =>
      rw [List.pairwise_cons] at hs
      have hxy : x < y := hs.1 y (by simp)
      simp only [segIc]
      split_ifs with h
      · by_cases hxa : x = a
        · subst hxa
          have hby : b = y := by
            rcases List.mem_cons.1 hb with rfl | hb
            · exact absurd hab (lt_irrefl _)
            · rcases List.mem_cons.1 hb with rfl | hb
              · rfl
              · have : y < b := (List.pairwise_cons.1 hs.2).1 b hb
                exact absurd ⟨hxy, this⟩ (hbt y (by simp))
          exact Or.inl (by rw [hby])
        · have ha' : a ∈ y :: l := by
            rcases List.mem_cons.1 ha with e | ha
            · exact absurd e.symm hxa
            · exact ha
          have hya : y ≤ a := by
            rcases List.mem_cons.1 ha' with rfl | ha'
            · exact le_rfl
            · exact le_of_lt ((List.pairwise_cons.1 hs.2).1 a ha')
          have e1 : y = a := le_antisymm hya (le_trans h1 h.2)
          have e2 : t = a := le_antisymm (e1 ▸ h.2) h1
          exact Or.inr ⟨e2, x, e1 ▸ hxy, by simp, by rw [e1]⟩
      · have hxa : x ≠ a := by
          rintro rfl
          have : b ≠ y := by rintro rfl; exact h ⟨h1, h2⟩
          rcases List.mem_cons.1 hb with rfl | hb
          · exact absurd hab (lt_irrefl _)
          · rcases List.mem_cons.1 hb with rfl | hb
            · exact this rfl
            · have : y < b := (List.pairwise_cons.1 hs.2).1 b hb
              exact absurd ⟨hxy, this⟩ (hbt y (by simp))
        have ha' : a ∈ y :: l := by
          rcases List.mem_cons.1 ha with e | ha
          · exact absurd e.symm hxa
          · exact ha
        have hb' : b ∈ y :: l := by
          rcases List.mem_cons.1 hb with e | hb
          · have := hs.1 a ha'; rw [e] at hab; exact absurd (lt_trans this hab) (lt_irrefl _)
          · exact hb
        rcases ih hs.2 ha' hb' (fun c hc => hbt c (by simp [hc])) with h | ⟨e, c, h3, h4, h5⟩
        · exact Or.inl h
        · exact Or.inr ⟨e, c, h3, List.mem_cons_of_mem _ h4, h5⟩

theorem times_bounds {s : S V} (w : WF s) {a b : ℚ} (hn : Neighbours s a b) {t : ℚ} (h1 : a ≤ t)
    (h2 : t ≤ b) : ¬ (sortedKeys s.tcd).length ≤ 1 ∧ ¬ t < (sortedKeys s.tcd).headD 0 ∧
      ¬ (sortedKeys s.tcd).getLastD 0 < t := by
  obtain ⟨ha, hb, hab, _⟩ := hn
  have hs := sortedKeys_lt s.tcd w.nodup
  rw [← mem_sortedKeys] at ha hb
  generalize sortedKeys s.tcd = l at *
  refine ⟨?_, ?_, ?_⟩
  · intro hl
    match l, hl with
    | [], _ => simp at ha
    | [x], _ => simp at ha hb; rw [ha, hb] at hab; exact lt_irrefl _ hab
  · match l with
    | [] => simp at ha
    | x :: l =>
      simp only [List.headD_cons, not_lt]
      rcases List.mem_cons.1 ha with rfl | ha
      · exact h1
      · exact le_trans (le_of_lt ((List.pairwise_cons.1 hs).1 a ha)) h1
  · have hne : l ≠ [] := by rintro rfl; simp at ha
    have e : l.getLastD 0 = l.getLast hne := by
      rw [List.getLastD_eq_getLast?, List.getLast?_eq_some_getLast hne]; rfl
    rw [e, not_lt]
    rw [← List.dropLast_append_getLast hne, List.mem_append] at hb
    rw [← List.dropLast_append_getLast hne, List.pairwise_append] at hs
    rcases hb with hb | hb
    · exact le_trans h2 (le_of_lt (hs.2.2 b hb _ (by simp)))
    · simp at hb; rw [← hb]; exact h2

/-- **C44 for the msehtt interpolation**: between neighbouring stored times the result is the linear
interpolation of the two cochains. -/
theorem msehtt_interpolation [AddCommGroup V] [Module ℚ V] (s : S V) (w : WF s) (a b t : ℚ)
    (va vb : V) (hn : Neighbours s a b) (ha : s.tcd.get a = some va) (hb : s.tcd.get b = some vb)
    (h1 : a ≤ t) (h2 : t ≤ b) : interpIc s t = some (linear a b va vb t) := by
  obtain ⟨g1, g2, g3⟩ := times_bounds w hn h1 h2
  obtain ⟨ma, mb, hab, hbt⟩ := hn
  unfold interpIc
  simp only [if_neg g1, if_neg g2, if_neg g3]
  rcases segIc_find t (sortedKeys s.tcd) (sortedKeys_lt _ w.nodup) a b hab
    ((mem_sortedKeys _ _).2 ma) ((mem_sortedKeys _ _).2 mb)
    (fun c hc => hbt c ((mem_sortedKeys _ _).1 hc)) h1 h2 with h | ⟨e, c, hc, hm, h⟩
  · simp only [h]; exact lerp_eq w ha hb t
  · obtain ⟨vc, hvc⟩ := Option.isSome_iff_exists.1
      ((Dict.get_isSome s.tcd c).2 ((mem_sortedKeys _ _).1 hm))
    simp only [h, lerp_eq w hvc ha]
    subst e
    have hne : t - c ≠ 0 := by linarith
    simp [linear, div_self hne]

/-- The msehtt interpolation raises outside the range of the stored times and when fewer than two
are stored. -/
theorem msehtt_interpolation_range [AddCommGroup V] [Module ℚ V] (s : S V) (t : ℚ)
    (h : (∀ u ∈ s.tcd.keys, t < u) ∨ (∀ u ∈ s.tcd.keys, u < t) ∨ s.tcd.length ≤ 1) :
    interpIc s t = none := by
  unfold interpIc
  by_cases h0 : (sortedKeys s.tcd).length ≤ 1
  · simp only [if_pos h0]
  · simp only [if_neg h0]
    have hne : sortedKeys s.tcd ≠ [] := by intro e; rw [e] at h0; simp at h0
    rcases h with h | h | h
    · have : t < (sortedKeys s.tcd).headD 0 := by
        obtain ⟨x, l, e⟩ := List.exists_cons_of_ne_nil hne
        rw [e]
        exact h x ((mem_sortedKeys _ _).1 (by rw [e]; simp))
      rw [if_pos this]
    · have : (sortedKeys s.tcd).getLastD 0 < t := by
        rw [List.getLastD_eq_getLast?, List.getLast?_eq_some_getLast hne]
        exact h _ ((mem_sortedKeys _ _).1 (List.getLast_mem hne))
      by_cases h1 : t < (sortedKeys s.tcd).headD 0
      · rw [if_pos h1]
      · rw [if_neg h1, if_pos this]
    · rw [sortedKeys_length] at h0; exact absurd h h0

/-- **C44, partial, for msepy**: the interpolation is the linear one on the *first* segment (and at
stored times).  Missing: all later segments, see `msepy_interpolation_refuted`. -/
theorem msepy_interpolation_partial [AddCommGroup V] [Module ℚ V] (s : S V) (w : WF s) (a b t : ℚ)
    (va vb : V) (hn : Neighbours s a b) (ha : s.tcd.get a = some va) (hb : s.tcd.get b = some vb)
    (hfirst : ∀ c ∈ s.tcd.keys, a ≤ c) (ht : parseT t = t)
    (h1 : a ≤ t) (h2 : t ≤ b) : callPy s t = some (linear a b va vb t) := by
  obtain ⟨g1, g2, g3⟩ := times_bounds w hn h1 h2
  obtain ⟨ma, mb, hab, hbt⟩ := hn
  unfold callPy
  simp only [ht]
  by_cases hta : t = a
  · subst hta; simp [ha, linear]
  by_cases htb : t = b
  · subst htb
    have hne : t - a ≠ 0 := by linarith
    simp [hb, linear, div_self hne]
  · have hnot : s.tcd.get t = none := by
      rw [Dict.get_eq_none]
      intro hm
      exact hbt t hm ⟨lt_of_le_of_ne h1 (Ne.symm hta), lt_of_le_of_ne h2 htb⟩
    have g1' : ¬ (sortedKeys s.tcd).length < 2 := by omega
    simp only [hnot, if_neg g1', if_neg g2, if_neg g3]
    have hs := sortedKeys_lt s.tcd w.nodup
    have ma' := (mem_sortedKeys s.tcd a).2 ma
    have mb' := (mem_sortedKeys s.tcd b).2 mb
    have key : segPy t (sortedKeys s.tcd) = some (a, b) := by
      have hf : ∀ c ∈ sortedKeys s.tcd, a ≤ c := fun c hc => hfirst c ((mem_sortedKeys _ _).1 hc)
      have hbt : ∀ c ∈ sortedKeys s.tcd, ¬ (a < c ∧ c < b) := fun c hc =>
        hbt c ((mem_sortedKeys _ _).1 hc)
      generalize sortedKeys s.tcd = l at *
      match l with
      | [] => simp at ma'
      | [x] => simp at ma' mb'; rw [ma', mb'] at hab; exact absurd hab (lt_irrefl _)
      | x :: y :: l =>
        rw [List.pairwise_cons] at hs
        have hxa : x = a := by
          rcases List.mem_cons.1 ma' with e | m
          · exact e.symm
          · exact absurd (hs.1 a m) (not_lt.2 (hf x (by simp)))
        subst hxa
        have hby : b = y := by
          rcases List.mem_cons.1 mb' with e | m
          · rw [e] at hab; exact absurd hab (lt_irrefl _)
          · rcases List.mem_cons.1 m with e | m
            · exact e
            · have := (List.pairwise_cons.1 hs.2).1 b m
              exact absurd ⟨hs.1 y (by simp), this⟩ (hbt y (by simp))
        simp [segPy, h1, hby]
    simp only [key]
    exact lerp_eq w ha hb t

/-- **C44 refuted for msepy**: with cochains 0, 1, 5 stored at times 0, 1, 2, `cochain(3/2)` is 3/2
(extrapolated from the first segment) instead of 3. -/
theorem msepy_interpolation_refuted : ∃ (ops : List (OpPy ℚ)) (t : ℚ),
    Neighbours (runPy ops) 1 2 ∧ 1 ≤ t ∧ t ≤ 2 ∧
    (runPy ops).tcd.get 1 = some 1 ∧ (runPy ops).tcd.get 2 = some 5 ∧
    callPy (runPy ops) t = some (3 / 2) ∧ linear (1 : ℚ) 2 (1 : ℚ) 5 t = 3 := by
  refine ⟨[.set .off 0 (some 0), .set .off 1 (some 1), .set .off 2 (some 5)], 3 / 2, ?_, by norm_num,
    by norm_num, by decide +kernel, by decide +kernel, by decide +kernel, by simp [linear]; norm_num⟩
  unfold Neighbours
  decide +kernel

/-- The hypotheses of the interpolation theorems are met by a store with three cochains. -/
example : let s := runPy ([.set .off 2 (some 5), .set .off 0 (some 0), .set .off 1 (some 1)] :
      List (OpPy ℚ))
    WF s ∧ Neighbours s 0 1 ∧ (∀ c ∈ s.tcd.keys, (0 : ℚ) ≤ c) ∧ parseT (1 / 2) = 1 / 2 ∧
    Neighbours s 1 2 ∧ interpIc s (3 / 2) = some 3 ∧ callPy s (1 / 2) = some (1 / 2) := by
  refine ⟨runPy_wf _, ?_⟩
  unfold Neighbours
  decide +kernel

/-! ### msehtt -/

/-- What `clean(what)` does in msehtt, on a store with distinct times. -/
theorem cleanHtt_num (s : S V) (hn : s.tcd.keys.Nodup) (n : ℕ) (h : 0 < n) :
    ∃ d, cleanHtt s (.num (-(n : ℤ))) = (false, ⟨d, maxKey d⟩) ∧ Keeps n s.tcd d := by
  exact ⟨keepLargest s.tcd n, by simp [cleanHtt, h], keepLargest_keeps _ hn n⟩

/-- The number of cochains left by auto cleaning. -/
def Auto.left : Auto → Option ℕ
  | .off => none
  | .on => some 3
  | .num n => some n.toNat

theorem setHtt_cases (auto : Auto) (s : S V) (t : ℚ) (c : Option V) (hn : s.tcd.keys.Nodup) :
    (auto.ok = false ∧ setHtt auto s t c = (true, s)) ∨
    (auto.ok = true ∧ ∃ s' : S V,
      (s' = s ∧ (∀ n, auto.left = some n → s.tcd.length < n) ∨
        ∃ n, auto.left = some n ∧ 2 ≤ n ∧ n ≤ s.tcd.length ∧ Keeps (n - 1) s.tcd s'.tcd ∧
          s'.newest = maxKey s'.tcd) ∧
      (c = none ∧ setHtt auto s t c = (true, s') ∨
       ∃ v, c = some v ∧ setHtt auto s t c =
        (false, ⟨s'.tcd.put (parseT t) v,
          some (newer s'.newest (parseT t))⟩))) := by
  have main : ∀ n : ℤ, n ≥ 2 → ∃ s' : S V,
      (s' = s ∧ s.tcd.length < n.toNat ∨
        2 ≤ n.toNat ∧ n.toNat ≤ s.tcd.length ∧ Keeps (n.toNat - 1) s.tcd s'.tcd ∧
          s'.newest = maxKey s'.tcd) ∧
      (if (s.tcd.length : ℤ) ≥ n then
          (decide ((((cleanHtt s (.num (-n + 1))).2).tcd.length : ℤ) ≠ n - 1),
            (cleanHtt s (.num (-n + 1))).2)
        else (false, s)) = (false, s') := by
    intro n hn2
    split_ifs with h
    · obtain ⟨d, hd, hk⟩ := cleanHtt_num s hn (n - 1).toNat (by omega)
      have e : -(((n - 1).toNat : ℕ) : ℤ) = -n + 1 := by omega
      rw [e] at hd
      have hsz := hk.size
      refine ⟨⟨d, maxKey d⟩, Or.inr ⟨by omega, by omega, ?_, rfl⟩, ?_⟩
      · have : n.toNat - 1 = (n - 1).toNat := by omega
        rw [this]; exact hk
      · rw [hd]
        have : ((d.length : ℤ)) = n - 1 := by omega
        simp [this]
    · exact ⟨s, Or.inl ⟨rfl, by omega⟩, rfl⟩
  cases auto with
  | off =>
    refine Or.inr ⟨rfl, s, Or.inl ⟨rfl, by simp [Auto.left]⟩, ?_⟩
    cases c with
    | none => exact Or.inl ⟨rfl, by simp [setHtt]⟩
    | some v => exact Or.inr ⟨v, rfl, by simp [setHtt]⟩
  | on =>
    obtain ⟨s', h1, h2⟩ := main 3 (by norm_num)
    refine Or.inr ⟨rfl, s', ?_, ?_⟩
    · rcases h1 with ⟨a, b⟩ | ⟨a, b, k, m⟩
      · exact Or.inl ⟨a, by intro n hn'; simp [Auto.left] at hn'; subst hn'; exact b⟩
      · exact Or.inr ⟨3, rfl, a, b, k, m⟩
    · cases c with
      | none => exact Or.inl ⟨rfl, by simp only [setHtt, h2]; simp⟩
      | some v => exact Or.inr ⟨v, rfl, by simp only [setHtt, h2]; simp⟩
  | num n =>
    by_cases hn2 : n ≥ 2
    · obtain ⟨s', h1, h2⟩ := main n hn2
      refine Or.inr ⟨by simpa [Auto.ok] using hn2, s', ?_, ?_⟩
      · rcases h1 with ⟨a, b⟩ | ⟨a, b, k, m⟩
        · exact Or.inl ⟨a, by intro k hk; simp [Auto.left] at hk; omega⟩
        · exact Or.inr ⟨n.toNat, rfl, a, b, k, m⟩
      · cases c with
        | none => exact Or.inl ⟨rfl, by simp only [setHtt, if_pos hn2, h2]; simp⟩
        | some v =>
          exact Or.inr ⟨v, rfl, by
            simp only [setHtt, if_pos hn2, h2]; simp⟩
    · exact Or.inl ⟨by simpa [Auto.ok] using hn2, by simp only [setHtt, if_neg hn2]⟩

/-- The part of the invariant that holds in every history. -/
structure GoodHtt (l : List (ℚ × V)) (s : S V) : Prop where
  nodup : s.tcd.keys.Nodup
  last : ∀ t v, s.tcd.get t = some v → lastFor l t = some v

theorem GoodHtt.keep {l : List (ℚ × V)} {s : S V} (g : GoodHtt l s) {n : ℕ} {d : Dict ℚ V}
    (k : Keeps n s.tcd d) (m : Option ℚ) : GoodHtt l ⟨d, m⟩ := by
  refine ⟨k.nodup, ?_⟩
  intro t v h
  have hm : t ∈ d.keys := (Dict.get_isSome d t).1 (by rw [h]; rfl)
  exact g.last t v ((k.same t hm).2 ▸ h)

theorem goodHtt_run (ops : List (OpHtt V)) : GoodHtt (ops.filterMap OpHtt.stores) (runHtt ops) := by
  induction ops using List.reverseRecOn with
  | nil => exact ⟨by simp [runHtt, S.empty, Dict.keys], by simp [runHtt, S.empty, Dict.get]⟩
  | append_singleton ops o ih =>
    have e : runHtt (ops ++ [o]) = (stepHtt (runHtt ops) o).2 := by simp [runHtt]
    rw [e, List.filterMap_append]
    generalize runHtt ops = s at *
    cases o with
    | clean w =>
      have : ([OpHtt.clean w].filterMap OpHtt.stores : List (ℚ × V)) = [] := rfl
      rw [this, List.append_nil]
      have hempty : GoodHtt (ops.filterMap OpHtt.stores) (⟨[], none⟩ : S V) :=
        ⟨by simp [Dict.keys], by simp [Dict.get]⟩
      cases w with
      | all => exact hempty
      | other => exact ih
      | num x =>
        by_cases hx : x < 0
        · simp only [stepHtt, cleanHtt, if_pos hx]
          exact ih.keep (keepLargest_keeps _ ih.nodup _) _
        · simp only [stepHtt, cleanHtt, if_neg hx]; exact ih
      | none =>
        cases hs : s.newest with
        | none => simp only [stepHtt, cleanHtt, hs]; exact hempty
        | some m =>
          cases hg : s.tcd.get m with
          | none => simp only [stepHtt, cleanHtt, hs, hg]; exact ih
          | some v =>
            simp only [stepHtt, cleanHtt, hs, hg]
            refine ⟨by simp [Dict.keys], ?_⟩
            intro t w h
            simp only [Dict.get] at h
            split_ifs at h with h1
            cases h; subst h1; exact ih.last _ _ hg
    | cleanT t =>
      have : ([OpHtt.cleanT t].filterMap OpHtt.stores : List (ℚ × V)) = [] := rfl
      rw [this, List.append_nil]
      refine ⟨Dict.nodup_del _ _ ih.nodup, ?_⟩
      intro u v h
      simp only [stepHtt, cleanTHtt, Dict.get_del] at h
      split_ifs at h
      exact ih.last u v h
    | set a t c =>
      rw [stepHtt]
      have hrej : (a.ok = false ∨ c = none) →
          ([OpHtt.set a t c].filterMap OpHtt.stores : List (ℚ × V)) = [] := by
        rintro (hr | rfl)
        · cases c <;> simp [OpHtt.stores, hr]
        · rfl
      rcases setHtt_cases a s t c ih.nodup with ⟨ha, h⟩ | ⟨ha, s', hs', h⟩
      · rw [h, hrej (Or.inl ha), List.append_nil]; exact ih
      · have g' : GoodHtt (ops.filterMap OpHtt.stores) s' := by
          rcases hs' with ⟨rfl, _⟩ | ⟨n, _, _, _, k, _⟩
          · exact ih
          · exact ih.keep k s'.newest
        rcases h with ⟨rfl, h⟩ | ⟨v, rfl, h⟩
        · rw [h, hrej (Or.inr rfl), List.append_nil]; exact g'
        · rw [h]
          have : ([OpHtt.set a t (some v)].filterMap OpHtt.stores : List (ℚ × V)) =
              [(parseT t, v)] := by simp [OpHtt.stores, ha]
          rw [this]
          refine ⟨Dict.nodup_put _ _ _ g'.nodup, ?_⟩
          intro u w hu
          rw [Dict.get_put] at hu
          rw [lastFor_concat]
          split_ifs at hu ⊢ with e
          · exact hu
          · exact g'.last u w hu

/-- Every reachable msehtt store has distinct rounded times. -/
theorem runHtt_wf (ops : List (OpHtt V)) : WF (runHtt ops) := by
  have g := goodHtt_run ops
  refine ⟨g.nodup, ?_⟩
  intro t ht
  obtain ⟨v, hv⟩ := Option.isSome_iff_exists.1 ((Dict.get_isSome _ t).2 ht)
  have hl := g.last t v hv
  unfold lastFor at hl
  obtain ⟨p, hp, _⟩ := Option.map_eq_some_iff.1 hl
  have h3 := List.find?_some hp
  have h4 := List.mem_of_find?_eq_some hp
  simp only [decide_eq_true_eq] at h3
  rw [List.mem_reverse] at h4
  obtain ⟨o, _, ho⟩ := List.mem_filterMap.1 h4
  cases o with
  | clean w => simp [OpHtt.stores] at ho
  | cleanT w => simp [OpHtt.stores] at ho
  | set a u c =>
    cases c with
    | none => simp [OpHtt.stores] at ho
    | some v =>
      simp only [OpHtt.stores] at ho
      split_ifs at ho
      cases ho
      rw [← h3]
      exact parseT_parseT u

/-- **C45, look-ups.** After every history, what `cochain[t]` returns is the last cochain set for
`t`. -/
theorem msehtt_lookup (ops : List (OpHtt V)) (t : ℚ) (v : V)
    (h : getItem (runHtt ops) (some t) = some v) :
    lastFor (ops.filterMap OpHtt.stores) (parseT t) = some v :=
  (goodHtt_run ops).last _ v h

/-- **C45, auto cleaning.** In every reachable state: a `_set` is accepted exactly when the setting
and the cochain are; the cochain just set is then stored; with auto cleaning at `n` at most `n` cochains
are stored afterwards, and the ones removed are older than all the ones kept. -/
theorem msehtt_auto_cleaning (ops : List (OpHtt V)) (auto : Auto) (t : ℚ) (c : Option V) :
    let r := setHtt auto (runHtt ops) t c
    (r.1 = false ↔ auto.ok = true ∧ c.isSome = true) ∧
    (∀ v, r.1 = false → c = some v → getItem r.2 (some t) = some v ∧
      (∀ n, auto.left = some n → r.2.tcd.length ≤ n) ∧
      (∀ u, parseT u ≠ parseT t → getItem r.2 (some u) = getItem (runHtt ops) (some u) ∨
        (getItem r.2 (some u) = none ∧ ∃ n, auto.left = some n ∧ n ≤ (runHtt ops).tcd.length ∧
          ∀ w ∈ r.2.tcd.keys, w ≠ parseT t → parseT u < w))) := by
  have g := goodHtt_run ops
  generalize runHtt ops = s at *
  rcases setHtt_cases auto s t c g.nodup with ⟨ha, h⟩ | ⟨ha, s', hs', h⟩
  · rw [h]; simp [ha]
  · rcases h with ⟨rfl, h⟩ | ⟨v, rfl, h⟩
    · rw [h]; simp
    · rw [h]
      refine ⟨by simp [ha], ?_⟩
      intro w _ hw
      cases hw
      refine ⟨by simp [getItem, Dict.get_put], ?_, ?_⟩
      · intro n hn
        have hl := Dict.length_put_le s'.tcd (parseT t) v
        simp only
        rcases hs' with ⟨rfl, hb⟩ | ⟨m, hm, h2, h3, k, _⟩
        · have := hb n hn; omega
        · rw [hn] at hm; cases hm
          have := k.size; omega
      · intro u hu
        simp only [getItem, Dict.get_put, if_neg hu]
        rcases hs' with ⟨rfl, hb⟩ | ⟨m, hm, h2, h3, k, _⟩
        · exact Or.inl rfl
        · by_cases hin : parseT u ∈ s'.tcd.keys
          · exact Or.inl (k.same _ hin).2
          · have hnone := (Dict.get_eq_none s'.tcd _).2 hin
            by_cases hin2 : parseT u ∈ s.tcd.keys
            · refine Or.inr ⟨hnone, m, hm, h3, ?_⟩
              intro w hw hne
              rw [Dict.mem_keys_put] at hw
              rcases hw with rfl | hw
              · exact absurd rfl hne
              · exact k.largest _ hin2 hin w hw
            · left
              rw [hnone, (Dict.get_eq_none s.tcd _).2 hin2]

/-- The newest time is truthful: None when nothing is stored, otherwise the largest stored time. -/
def NewestTruthful (s : S V) : Prop :=
  (s.tcd = [] → s.newest = none) ∧
  (s.tcd ≠ [] → ∃ m, s.newest = some m ∧ IsGreatest {t | t ∈ s.tcd.keys} m)

theorem truthful_maxKey (d : Dict ℚ V) : NewestTruthful ⟨d, maxKey d⟩ := by
  refine ⟨(maxKey_spec d).1, ?_⟩
  intro hne
  have hpos : 0 < (sortedKeys d).length := by
    rw [sortedKeys_length]; exact List.length_pos_of_ne_nil hne
  have hne' : sortedKeys d ≠ [] := List.ne_nil_of_length_pos hpos
  have : maxKey d = some ((sortedKeys d).getLast hne') := List.getLast?_eq_some_getLast hne'
  exact ⟨_, this, ((maxKey_spec d).2 _).1 this⟩

theorem truthful_put {s : S V} (h : NewestTruthful s) (k : ℚ) (v : V) : NewestTruthful
    ⟨s.tcd.put k v, some (newer s.newest k)⟩ := by
  refine ⟨?_, ?_⟩
  · intro e
    have : k ∈ (s.tcd.put k v).keys := (Dict.mem_keys_put _ _ _ _).2 (Or.inl rfl)
    rw [show s.tcd.put k v = [] from e] at this
    simp [Dict.keys] at this
  · intro _
    refine ⟨_, rfl, ?_⟩
    by_cases he : s.tcd = []
    · rw [h.1 he, he, newer]
      exact ⟨by simp [Dict.put, Dict.keys], by intro t ht; simp [Dict.put, Dict.keys] at ht; simp [ht]⟩
    · obtain ⟨m, hm, h1, h2⟩ := h.2 he
      have h2 : ∀ t ∈ s.tcd.keys, t ≤ m := h2
      rw [hm, newer]
      refine ⟨(Dict.mem_keys_put _ _ _ _).2 ?_, ?_⟩
      · rcases max_choice m k with e | e <;> rw [e]
        · exact Or.inr h1
        · exact Or.inl rfl
      · intro t ht
        rcases (Dict.mem_keys_put _ _ _ _).1 ht with rfl | ht
        · exact le_max_right _ _
        · exact le_max_of_le_left (h2 t ht)

/-- **C45, partial: newest.** In every history that never calls `clean(t=…)` on the newest time,
`newest` is truthful, and `cochain[None]` is available as soon as something is stored.  Missing:
`clean(t=newest)`, see `msehtt_newest_refuted`. -/
theorem msehtt_newest_partial (ops : List (OpHtt V))
    (hsafe : ∀ pre t post, ops = pre ++ .cleanT t :: post →
      (runHtt pre).newest ≠ some (parseT t)) :
    NewestTruthful (runHtt ops) ∧
    ((runHtt ops).tcd ≠ [] → (getItem (runHtt ops) none).isSome = true) := by
  have main : NewestTruthful (runHtt ops) := by
    induction ops using List.reverseRecOn with
    | nil => exact ⟨fun _ => rfl, fun h => absurd rfl h⟩
    | append_singleton ops o ih =>
      have ih := ih (fun pre t post e => hsafe pre t (post ++ [o]) (by rw [e]; simp))
      have e : runHtt (ops ++ [o]) = (stepHtt (runHtt ops) o).2 := by simp [runHtt]
      have g := goodHtt_run ops
      have hs := hsafe ops
      rw [e]
      generalize hgen : runHtt ops = s at *
      cases o with
      | clean w =>
        cases w with
        | all => exact ⟨fun _ => rfl, fun h => absurd rfl h⟩
        | other => exact ih
        | num x =>
          by_cases hx : x < 0
          · simp only [stepHtt, cleanHtt, if_pos hx]; exact truthful_maxKey _
          · simp only [stepHtt, cleanHtt, if_neg hx]; exact ih
        | none =>
          cases hs : s.newest with
          | none =>
            simp only [stepHtt, cleanHtt, hs]
            exact ⟨fun _ => rfl, fun h => absurd rfl h⟩
          | some m =>
            cases hg : s.tcd.get m with
            | none => simp only [stepHtt, cleanHtt, hs, hg]; exact ih
            | some v =>
              simp only [stepHtt, cleanHtt, hs, hg]
              exact ⟨by simp, fun _ => ⟨m, rfl, by simp [Dict.keys], by
                intro t ht; simp [Dict.keys] at ht; simp [ht]⟩⟩
      | cleanT t =>
        have hne := hs t [] rfl
        simp only [stepHtt, cleanTHtt]
        by_cases he : s.tcd = []
        · rw [he]; exact ⟨fun _ => ih.1 he, fun h => absurd rfl h⟩
        · obtain ⟨m, hm, h1, h2⟩ := ih.2 he
          have hmt : m ≠ parseT t := by rintro rfl; exact hne hm
          have hmem : m ∈ (s.tcd.del (parseT t)).keys := (Dict.mem_keys_del _ _ _).2 ⟨hmt, h1⟩
          refine ⟨?_, fun _ => ⟨m, hm, hmem, ?_⟩⟩
          · intro e
            rw [show s.tcd.del (parseT t) = [] from e] at hmem
            simp [Dict.keys] at hmem
          · intro u hu
            exact h2 ((Dict.mem_keys_del _ _ _).1 hu).2
      | set a t c =>
        rw [stepHtt]
        rcases setHtt_cases a s t c g.nodup with ⟨ha, h⟩ | ⟨ha, s', hs', h⟩
        · rw [h]; exact ih
        · have t' : NewestTruthful s' := by
            rcases hs' with ⟨rfl, _⟩ | ⟨n, _, _, _, _, hm⟩
            · exact ih
            · have := truthful_maxKey s'.tcd
              rw [← hm] at this
              exact this
          rcases h with ⟨rfl, h⟩ | ⟨v, rfl, h⟩
          · rw [h]; exact t'
          · rw [h]; exact truthful_put t' _ _
  refine ⟨main, ?_⟩
  intro hne
  obtain ⟨m, hm, h1, _⟩ := main.2 hne
  have : getItem (runHtt ops) none = (runHtt ops).tcd.get m := by
    simp [getItem, hm, (runHtt_wf ops).rounded m h1]
  rw [this]
  exact (Dict.get_isSome _ m).2 h1

/-- **C45 refuted**: after `clean(t=newest)` the newest time points to a removed cochain: it is not
stored, `cochain[None]` raises although a cochain is stored, and `clean()` raises. -/
theorem msehtt_newest_refuted : ∃ ops : List (OpHtt ℕ),
    (runHtt ops).tcd ≠ [] ∧ ¬ NewestTruthful (runHtt ops) ∧ getItem (runHtt ops) none = none ∧
    (cleanHtt (runHtt ops) .none).1 = true := by
  refine ⟨[.set .off 0 (some 7), .set .off 1 (some 8), .cleanT 1], by decide +kernel, ?_,
    by decide +kernel, by decide +kernel⟩
  intro h
  obtain ⟨m, hm, h1, _⟩ := h.2 (by decide +kernel)
  have e : (runHtt [OpHtt.set .off 0 (some 7), .set .off 1 (some 8), .cleanT 1]).newest = some 1 := by
    decide +kernel
  rw [e] at hm
  cases hm
  revert h1
  show ¬ ((1 : ℚ) ∈ (runHtt [OpHtt.set .off 0 (some 7), .set .off 1 (some 8), .cleanT 1]).tcd.keys)
  decide +kernel

/-- **C45, cleaning.** On every reachable store `clean(-n)` keeps exactly the `n` largest times and
`clean('all')` empties the store. -/
theorem msehtt_clean (ops : List (OpHtt V)) :
    (∀ n : ℕ, 0 < n → ∃ d, cleanHtt (runHtt ops) (.num (-(n : ℤ))) = (false, ⟨d, maxKey d⟩) ∧
      Keeps n (runHtt ops).tcd d ∧ NewestTruthful (⟨d, maxKey d⟩ : S V)) ∧
    cleanHtt (runHtt ops) .all = (false, ⟨[], none⟩) ∧
    (∀ t u, getItem (cleanTHtt (runHtt ops) t) (some u) =
      if parseT u = parseT t then none else getItem (runHtt ops) (some u)) := by
  refine ⟨?_, rfl, ?_⟩
  · intro n hn
    obtain ⟨d, h1, h2⟩ := cleanHtt_num (runHtt ops) (goodHtt_run ops).nodup n hn
    exact ⟨d, h1, h2, truthful_maxKey d⟩
  · intro t u
    simp [getItem, cleanTHtt, Dict.get_del]

/-- A history meeting the hypothesis of `msehtt_newest_partial`, with cleaning of an older time and
auto cleaning. -/
example : let ops : List (OpHtt ℕ) := [.set .on 0 (some 7), .set .on 1 (some 8), .set .on 2 (some 9),
      .cleanT 1, .set (.num 2) 3 (some 10)]
    (runHtt [OpHtt.set .on 0 (some 7), .set .on 1 (some 8), .set .on 2 (some 9)]).newest ≠
        some (parseT 1) ∧
      (runHtt ops).newest = some 3 ∧ (runHtt ops).tcd = [(2, 9), (3, 10)] := by decide +kernel

end Phyem.Cochain
