import Verif.Dds.Group
import Verif.Dds.OpsThm
import Std.Data.String.ToNat

/-!
# What comes back from files
-/

namespace Phyem.Dds

variable {K Obj : Type}

/-- Data are accepted exactly if there are coordinates and components, all coordinates are for the same regions, and in
each region all arrays are there and have the same shape. Components may have further regions. -/
theorem make_iff (coo val : List (Dict K)) :
    ((make coo val).isSome ↔ val ≠ [] ∧ ∃ x cs, coo = x :: cs ∧
      (∀ d ∈ cs, ∀ r, r ∈ d.map Prod.fst ↔ r ∈ x.map Prod.fst) ∧
      ∀ p ∈ x, ∀ d ∈ cs ++ val, ∃ a, d.lookup p.1 = some a ∧ a.shape = p.2.shape) ∧
    ∀ f, make coo val = some f → f = ⟨coo, val⟩ := by
  have hlk : ∀ (d : Dict K) (r : ℕ), (d.lookup r).isSome ↔ r ∈ d.map Prod.fst := by
    intro d r
    induction d with
    | nil => simp
    | cons p l ih =>
      obtain ⟨a, b⟩ := p
      rw [List.lookup_cons]
      by_cases h : r = a
      · subst h; simp
      · have : (r == a) = false := by simpa using h
        rw [this]
        simp only [List.map_cons, List.mem_cons, h, false_or]
        exact ih
  have hsk : ∀ d e : Dict K, sameKeys d e = true ↔ ∀ r, r ∈ d.map Prod.fst ↔ r ∈ e.map Prod.fst := by
    intro d e
    unfold sameKeys
    simp only [Bool.and_eq_true, List.all_eq_true, hlk]
    constructor
    · rintro ⟨h1, h2⟩ r
      constructor
      · intro h; obtain ⟨p, hp, rfl⟩ := List.mem_map.1 h; exact h1 p hp
      · intro h; obtain ⟨p, hp, rfl⟩ := List.mem_map.1 h; exact h2 p hp
    · intro h
      exact ⟨fun p hp => (h _).1 (List.mem_map_of_mem hp), fun p hp => (h _).2 (List.mem_map_of_mem hp)⟩
  have hsh : ∀ (d : Dict K) r s, shapeIs d r s = true ↔ ∃ a, d.lookup r = some a ∧ a.shape = s := by
    intro d r s
    unfold shapeIs
    cases d.lookup r with
    | none => simp
    | some a => simp
  cases coo with
  | nil => simp [make]
  | cons x cs =>
    have hcond : ((cs.all (fun d => sameKeys d x) &&
        x.all (fun p => cs.all (fun d => shapeIs d p.1 p.2.shape) && val.all (fun d => shapeIs d p.1 p.2.shape))) = true)
        ↔ (∀ d ∈ cs, ∀ r, r ∈ d.map Prod.fst ↔ r ∈ x.map Prod.fst) ∧
          ∀ p ∈ x, ∀ d ∈ cs ++ val, ∃ a, d.lookup p.1 = some a ∧ a.shape = p.2.shape := by
      simp only [Bool.and_eq_true, List.all_eq_true, hsk, hsh, List.mem_append]
      refine and_congr_right fun _ => ?_
      constructor
      · rintro h p hp d (hd | hd)
        · exact (h p hp).1 d hd
        · exact (h p hp).2 d hd
      · exact fun h p hp => ⟨fun d hd => h p hp d (Or.inl hd), fun d hd => h p hp d (Or.inr hd)⟩
    unfold make
    dsimp only
    by_cases hc : (cs.all (fun d => sameKeys d x) &&
        x.all (fun p => cs.all (fun d => shapeIs d p.1 p.2.shape) && val.all (fun d => shapeIs d p.1 p.2.shape))) = true
    · rw [if_pos hc]
      have hc' := hcond.1 hc
      cases val with
      | nil => simp
      | cons v vs =>
        dsimp only
        refine ⟨⟨fun _ => ⟨by simp, x, cs, rfl, hc'⟩, fun _ => rfl⟩, fun f hf => ?_⟩
        simpa using hf.symm
    · rw [if_neg hc]
      refine ⟨⟨fun h => (by cases h), ?_⟩, fun f hf => (by cases hf)⟩
      rintro ⟨-, x', cs', e, h⟩
      simp only [List.cons.injEq] at e
      obtain ⟨rfl, rfl⟩ := e
      exact absurd (hcond.2 h) hc

/-- A group is made exactly if the coordinates and all variables have the same regions, the names are different, no variable is empty and
all arrays of a region have the same shape. -/
theorem makeGroup_iff (coo : List (Dict K)) (g : Given K) :
    ((makeGroup coo g).isSome ↔ ∃ x cs, coo = x :: cs ∧ g.names.Nodup ∧ (∀ v ∈ g.vals, v ≠ []) ∧
      (∀ d ∈ cs ++ g.vals.flatten, ∀ r, r ∈ d.map Prod.fst ↔ r ∈ x.map Prod.fst) ∧
      ∀ p ∈ x, ∀ d ∈ cs ++ g.vals.flatten, ∃ a, d.lookup p.1 = some a ∧ a.shape = p.2.shape) ∧
    ∀ f, makeGroup coo g = some f → f = ⟨coo, g.vals, g.names⟩ := by
  have hlk : ∀ (d : Dict K) (r : ℕ), (d.lookup r).isSome ↔ r ∈ d.map Prod.fst := by
    intro d r
    induction d with
    | nil => simp
    | cons p l ih =>
      obtain ⟨a, b⟩ := p
      rw [List.lookup_cons]
      by_cases h : r = a
      · subst h; simp
      · have : (r == a) = false := by simpa using h
        rw [this]
        simp only [List.map_cons, List.mem_cons, h, false_or]
        exact ih
  have hsk : ∀ d e : Dict K, sameKeys d e = true ↔ ∀ r, r ∈ d.map Prod.fst ↔ r ∈ e.map Prod.fst := by
    intro d e
    unfold sameKeys
    simp only [Bool.and_eq_true, List.all_eq_true, hlk]
    constructor
    · rintro ⟨h1, h2⟩ r
      constructor
      · intro h; obtain ⟨p, hp, rfl⟩ := List.mem_map.1 h; exact h1 p hp
      · intro h; obtain ⟨p, hp, rfl⟩ := List.mem_map.1 h; exact h2 p hp
    · intro h
      exact ⟨fun p hp => (h _).1 (List.mem_map_of_mem hp), fun p hp => (h _).2 (List.mem_map_of_mem hp)⟩
  have hsh : ∀ (d : Dict K) r s, shapeIs d r s = true ↔ ∃ a, d.lookup r = some a ∧ a.shape = s := by
    intro d r s
    unfold shapeIs
    cases d.lookup r with
    | none => simp
    | some a => simp
  cases coo with
  | nil => simp [makeGroup]
  | cons x cs =>
    unfold makeGroup
    dsimp only
    by_cases hc : (cs.all (fun d => sameKeys d x) && decide g.names.Nodup &&
        g.vals.all (fun v => !v.isEmpty && v.all (fun d => sameKeys d x)) &&
        x.all (fun p => cs.all (fun d => shapeIs d p.1 p.2.shape) &&
          g.vals.all (fun v => v.all fun d => shapeIs d p.1 p.2.shape))) = true
    · rw [if_pos hc]
      simp only [Bool.and_eq_true, List.all_eq_true, hsk, hsh, decide_eq_true_eq, Bool.not_eq_true', List.isEmpty_eq_false_iff] at hc
      obtain ⟨⟨⟨c1, c2⟩, c3⟩, c4⟩ := hc
      refine ⟨⟨fun _ => ⟨x, cs, rfl, c2, fun v hv => (c3 v hv).1, ?_, ?_⟩, fun _ => rfl⟩, fun f hf => by simpa using hf.symm⟩
      · intro d hd
        rcases List.mem_append.1 hd with hd | hd
        · exact c1 d hd
        · obtain ⟨v, hv, hd⟩ := List.mem_flatten.1 hd
          exact (c3 v hv).2 d hd
      · intro p hp d hd
        rcases List.mem_append.1 hd with hd | hd
        · exact (c4 p hp).1 d hd
        · obtain ⟨v, hv, hd⟩ := List.mem_flatten.1 hd
          exact (c4 p hp).2 v hv d hd
    · rw [if_neg hc]
      refine ⟨⟨fun h => (by cases h), ?_⟩, fun f hf => (by cases hf)⟩
      rintro ⟨x', cs', e, h1, h2, h3, h4⟩
      simp only [List.cons.injEq] at e
      obtain ⟨rfl, rfl⟩ := e
      refine absurd ?_ hc
      simp only [Bool.and_eq_true, List.all_eq_true, hsk, hsh, decide_eq_true_eq, Bool.not_eq_true', List.isEmpty_eq_false_iff]
      exact ⟨⟨⟨fun d hd => h3 d (by simp [hd]), h1⟩,
        fun v hv => ⟨h2 v hv, fun d hd => h3 d (List.mem_append.2 (.inr (List.mem_flatten.2 ⟨v, hv, hd⟩)))⟩⟩,
        fun p hp => ⟨fun d hd => h4 p hp d (by simp [hd]),
          fun v hv d hd => h4 p hp d (List.mem_append.2 (.inr (List.mem_flatten.2 ⟨v, hv, hd⟩)))⟩⟩

/-- A group of two variables on two regions. -/
example : let x : Dict ℚ := [(0, ⟨[1, 1], [0]⟩), (3, ⟨[1, 2], [0, 1]⟩)]
    (makeGroup [x, x] (.dict [("u", [x]), ("v", [x, x])])).isSome := by decide +kernel

/-- The docstring says that all dictionaries have the same keys; components with a further region are accepted. The maximum
then counts that region, and the norm fails. -/
theorem extra_region_refuted :
    let x : Dict ℚ := [(0, ⟨[1, 1], [0]⟩)]
    let v : Dict ℚ := [(0, ⟨[1, 1], [2]⟩), (7, ⟨[1, 1], [100]⟩)]
    make [x, x] [v] = some ⟨[x, x], [v]⟩ ∧ maximum ⟨[x, x], [v]⟩ = some [100] ∧ L2sq ⟨[x, x], [v]⟩ = none := by
  refine ⟨by rfl, by decide +kernel, by decide +kernel⟩

/-- What is read from the file of an object is the object. -/
theorem read_rws {f : Fld K} (h : make f.coo f.val = some f) :
    read (Obj := Obj) f.file = some (.rws f) := by
  unfold read Fld.file
  dsimp only
  rw [h]; rfl

/-- The names of a list are different. -/
lemma names_nodup (n : ℕ) : ((List.range n).map fun n => n.repr).Nodup := by
  apply List.Nodup.map _ List.nodup_range
  intro a b h
  exact Nat.repr_inj.1 h

lemma nth_name {n i : ℕ} (h : i < n) : ((List.range n).map fun n => n.repr).idxOf i.repr = i := by
  have h' : i < ((List.range n).map fun n => n.repr).length := by simpa using h
  have : ((List.range n).map fun n => n.repr)[i] = i.repr := by simp
  rw [← this]
  exact (names_nodup n).idxOf_getElem i h'

/-- A group that was made can be read from its file: every variable has its number, and its number as a name. -/
theorem read_group {coo : List (Dict K)} {given : Given K} {g : Group K} (h : makeGroup coo given = some g) :
    ∃ g', read (Obj := Obj) g.file = some (.grouped g') ∧ (∀ i, g'.nth i = g.nth i) ∧
      (∀ i < g.vals.length, g'.named i.repr = g.nth i) ∧ g'.names.length = g.names.length := by
  have hg : g = ⟨coo, given.vals, given.names⟩ := by
    unfold makeGroup at h
    cases coo with
    | nil => cases h
    | cons x cs =>
      dsimp only at h
      split_ifs at h
      simpa using h.symm
  have hnl : given.names.length = given.vals.length := by cases given <;> simp [Given.names, Given.vals]
  have h' : makeGroup coo (.list given.vals) = some ⟨coo, given.vals, (List.range given.vals.length).map fun n => n.repr⟩ := by
    unfold makeGroup at h ⊢
    cases coo with
    | nil => cases h
    | cons x cs =>
      dsimp only at h ⊢
      split_ifs at h with hc
      rw [if_pos]
      · rfl
      · simp only [Bool.and_eq_true, decide_eq_true_eq] at hc ⊢
        exact ⟨⟨⟨hc.1.1.1, names_nodup _⟩, hc.1.2⟩, hc.2⟩
  subst hg
  refine ⟨⟨coo, given.vals, (List.range given.vals.length).map fun n => n.repr⟩,
    by unfold read Group.file; dsimp only; rw [h']; rfl, fun i => rfl, fun i hi => ?_, by simp [hnl]⟩
  unfold Group.named
  dsimp only at hi ⊢
  rw [if_pos (by simp only [List.mem_map, List.mem_range]; exact ⟨i, hi, rfl⟩), nth_name hi]
  rfl

/-- A variable of a group is what it was made of, under its number and under its name. -/
theorem group_get {coo : List (Dict K)} {given : Given K} {g : Group K} (h : makeGroup coo given = some g) :
    ∀ i (hi : i < given.vals.length), g.nth i = some ⟨coo, given.vals[i]⟩ ∧
      ∀ s, given.names[i]? = some s → g.named s = some ⟨coo, given.vals[i]⟩ := by
  have hg : g = ⟨coo, given.vals, given.names⟩ ∧ given.names.Nodup := by
    unfold makeGroup at h
    cases coo with
    | nil => cases h
    | cons x cs =>
      dsimp only at h
      split_ifs at h with hc
      simp only [Bool.and_eq_true, decide_eq_true_eq] at hc
      exact ⟨by simpa using h.symm, hc.1.1.2⟩
  obtain ⟨hg, hn⟩ := hg
  have key : ∀ i (hi : i < given.vals.length), g.nth i = some ⟨coo, given.vals[i]⟩ := by
    intro i hi
    subst hg
    unfold Group.nth
    dsimp only
    rw [List.getElem?_eq_getElem hi]
    simp only [Option.bind_some]
    unfold makeGroup at h
    unfold make
    cases coo with
    | nil => cases h
    | cons x cs =>
      dsimp only at h ⊢
      split_ifs at h with hc
      simp only [Bool.and_eq_true, List.all_eq_true, decide_eq_true_eq] at hc
      obtain ⟨⟨⟨h1, -⟩, h3⟩, h4⟩ := hc
      have hm : given.vals[i] ∈ given.vals := List.getElem_mem hi
      rw [if_pos]
      · have := (h3 _ hm).1
        cases hv : given.vals[i] with
        | nil => rw [hv] at this; simp at this
        | cons a b => rfl
      · simp only [Bool.and_eq_true, List.all_eq_true]
        exact ⟨h1, fun p hp => ⟨(h4 p hp).1, fun d hd => (h4 p hp).2 _ hm d hd⟩⟩
  refine fun i hi => ⟨key i hi, fun s hs => ?_⟩
  have hil : i < given.names.length := by
    by_contra hc
    rw [List.getElem?_eq_none (by omega)] at hs
    cases hs
  rw [List.getElem?_eq_getElem hil] at hs
  obtain rfl : given.names[i] = s := by simpa using hs
  subst hg
  unfold Group.named
  dsimp only
  rw [if_pos (List.getElem_mem hil), hn.idxOf_getElem i hil]
  exact key i hi

/-- A group with the variables `1` and `0`, in this order. -/
def swapped : Given ℚ := .dict [("1", [[(0, ⟨[1, 1], [5]⟩)]]), ("0", [[(0, ⟨[1, 1], [6]⟩)]])]

/-- The names of the variables are not in the file: a variable is not found under its name after reading. If the names are
numbers, another variable is found. -/
theorem group_names_refuted :
    let x : Dict ℚ := [(0, ⟨[1, 1], [0]⟩)]
    (∃ g g' : Group ℚ, makeGroup [x, x] (.dict [("u", [[(0, ⟨[1, 1], [5]⟩)]])]) = some g ∧
      read (Obj := Unit) g.file = some (.grouped g') ∧ (g.named "u").isSome ∧ g'.named "u" = none) ∧
    (∃ g g' : Group ℚ, makeGroup [x, x] swapped = some g ∧ read (Obj := Unit) g.file = some (.grouped g') ∧
      g.named "0" = some ⟨[x, x], [[(0, ⟨[1, 1], [6]⟩)]]⟩ ∧ g'.named "0" = some ⟨[x, x], [[(0, ⟨[1, 1], [5]⟩)]]⟩) := by
  dsimp only
  refine ⟨⟨⟨_, _, ["u"]⟩, ⟨_, _, ["0"]⟩, rfl, rfl, rfl, rfl⟩, ⟨⟨_, _, ["1", "0"]⟩, ⟨_, _, ["0", "1"]⟩, rfl, rfl, rfl, rfl⟩⟩

/-- `read_rws`, `read_group` and `group_get` with a group of a scalar and a vector. -/
example : let x : Dict ℚ := [(0, ⟨[1, 2], [0, 1]⟩), (3, ⟨[2, 2], [0, 1, 2, 3]⟩)]
    (makeGroup [x, x] (.dict [("u", [x]), ("v", [x, x])])).isSome ∧ make [x, x] [x] = some ⟨[x, x], [x]⟩ := by
  exact ⟨by decide +kernel, by rfl⟩

lemma setItem_lookup {l : List (String × Obj)} {k s : String} {o : Obj} :
    (setItem l k o).lookup s = if s = k then some o else l.lookup s := by
  have hap : ∀ (l m : List (String × Obj)), (l ++ m).lookup s = (l.lookup s).or (m.lookup s) := by
    intro l m
    induction l with
    | nil => simp
    | cons p l ih =>
      obtain ⟨a, b⟩ := p
      rw [List.cons_append, List.lookup_cons, List.lookup_cons]
      cases s == a
      · exact ih
      · rfl
  unfold setItem
  by_cases h : (l.any fun p => p.1 == k) = true
  · rw [if_pos h]
    induction l with
    | nil => simp at h
    | cons p l ih =>
      obtain ⟨a, b⟩ := p
      rw [List.map_cons]
      by_cases e : a = k
      · subst e
        simp only [if_true]
        rw [List.lookup_cons, List.lookup_cons]
        by_cases e' : s = a
        · subst e'; simp
        · have : (s == a) = false := by simpa using e'
          rw [this, if_neg e']
          dsimp only
          clear ih h
          induction l with
          | nil => rfl
          | cons q l ih =>
            obtain ⟨c, d⟩ := q
            rw [List.map_cons, List.lookup_cons]
            by_cases e2 : c = a
            · subst e2
              simp only [if_true]
              rw [List.lookup_cons, this]
              exact ih
            · simp only [e2, if_false]
              rw [List.lookup_cons]
              cases s == c
              · exact ih
              · rfl
      · simp only [e, if_false]
        rw [List.lookup_cons, List.lookup_cons]
        by_cases e' : s = a
        · subst e'
          simp [e]
        · have : (s == a) = false := by simpa using e'
          rw [this]
          dsimp only
          apply ih
          simp only [List.any_cons, Bool.or_eq_true, beq_iff_eq, e, false_or] at h
          exact h
  · rw [if_neg h, hap]
    by_cases e : s = k
    · subst e
      rw [if_pos rfl]
      have hn : l.lookup s = none := by
        rw [List.lookup_eq_none_iff]
        intro p hp
        by_contra hc
        apply h
        rw [List.any_eq_true]
        refine ⟨p, hp, ?_⟩
        simp only [bne_iff_ne, ne_eq, not_not, beq_iff_eq] at hc ⊢
        exact hc.symm
      rw [hn]
      simp
    · rw [if_neg e]
      have : (s == k) = false := by simpa using e
      simp [List.lookup_cons, this]

/-- `ph.save` and `ph.read`: saving fails exactly if an object has the key `key`; what is read has, for each key, the last
object that was given with it, and nothing else. -/
theorem save_read (objs : List (String × Obj)) :
    ((save (K := K) objs).isSome ↔ ∀ p ∈ objs, p.1 ≠ "key") ∧
    ∀ file, save (K := K) objs = some file → ∃ l, read file = some (.objects l) ∧
      ∀ s, l.lookup s = objs.reverse.lookup s := by
  have gen : ∀ (objs : List (String × Obj)) (l0 : List (String × Obj)),
      ((objs.foldlM (fun l p => if p.1 ≠ "key" then some (setItem l p.1 p.2) else none) l0).isSome ↔
        ∀ p ∈ objs, p.1 ≠ "key") ∧
      ∀ l, objs.foldlM (fun l p => if p.1 ≠ "key" then some (setItem l p.1 p.2) else none) l0 = some l →
        ∀ s, l.lookup s = (objs.reverse.lookup s).or (l0.lookup s) := by
    intro objs
    induction objs with
    | nil => intro l0; simp
    | cons q objs ih =>
      obtain ⟨k, o⟩ := q
      intro l0
      rw [List.foldlM_cons]
      by_cases hk : k ≠ "key"
      · dsimp only
        rw [if_pos hk]
        simp only [bind, Option.bind_some]
        obtain ⟨h1, h2⟩ := ih (setItem l0 k o)
        refine ⟨?_, fun l hl s => ?_⟩
        · rw [h1]
          simp [hk]
        · rw [h2 l hl s, setItem_lookup, List.reverse_cons]
          have hap : ∀ (l m : List (String × Obj)), (l ++ m).lookup s = (l.lookup s).or (m.lookup s) := by
            intro l m
            induction l with
            | nil => simp
            | cons p l ih =>
              obtain ⟨a, b⟩ := p
              rw [List.cons_append, List.lookup_cons, List.lookup_cons]
              cases s == a
              · exact ih
              · rfl
          rw [hap]
          cases objs.reverse.lookup s with
          | some o => simp
          | none =>
            simp only [Option.none_or, List.lookup_cons, List.lookup_nil]
            by_cases e : s = k
            · rw [if_pos e, e]; simp
            · have : (s == k) = false := by simpa using e
              rw [this, if_neg e]; simp
      · dsimp only
        rw [if_neg hk]
        simp only [bind, Option.bind_none]
        push Not at hk
        refine ⟨⟨fun h => (by cases h), fun h => absurd hk (h (k, o) (by simp))⟩, fun l hl => (by cases hl)⟩
  obtain ⟨h1, h2⟩ := gen objs []
  refine ⟨?_, fun file hf => ?_⟩
  · unfold save
    rw [Option.isSome_map]
    exact h1
  · unfold save at hf
    rw [Option.map_eq_some_iff] at hf
    obtain ⟨l, hl, rfl⟩ := hf
    refine ⟨l, rfl, fun s => ?_⟩
    rw [h2 l hl s]
    simp

example : ∃ l, (save (K := ℚ) [("u", 1), ("p", 2), ("u", 3)]).bind read = some (.objects l) ∧
    l.lookup "u" = some 3 ∧ l.length = 2 := ⟨_, rfl, by decide, rfl⟩

end Phyem.Dds
