import Verif.Multigrid.Spec
import Mathlib.Data.List.Basic
import Mathlib.Tactic.Linarith
import Mathlib.Tactic.Ring

namespace Phyem.Multigrid

/-! ### The pairing stack -/

/-- The loop of `pairs` on the part of the scheme from position `k` on. -/
def aux (k : Nat) (l : List Step) : Option (List Nat × List (Nat × Option Nat)) :=
  (l.zipIdx k).foldr (fun x st => pairStep st x) (some ([], []))

theorem aux_cons (k : Nat) (s : Step) (l : List Step) :
    aux k (s :: l) = pairStep (aux (k + 1) l) (s, k) := by
  simp [aux, List.zipIdx_cons]

theorem pairs_eq (l : List Step) :
    pairs l = (aux 0 l).map (fun p => p.2 ++ p.1.map (fun i => (i, none))) := by
  unfold pairs aux
  rw [List.foldl_reverse]
  cases (l.zipIdx).foldr (fun x st => pairStep st x) (some ([], [])) with
  | none => rfl
  | some p => rfl

structure PInv (full : List Step) (k : Nat) (a b : Int) (stack : List Nat)
    (dict : List (Nat × Option Nat)) : Prop where
  len : (stack.length : Int) = b - a
  sorted : stack.Pairwise (· < ·)
  ge : ∀ s ∈ stack, k ≤ s
  layer : ∀ (j s : Nat), stack[j]? = some s → full[s]? = some (Step.I (a + j))
  nodup : (dict.map Prod.fst).Nodup
  disj : ∀ i v, (i, v) ∈ dict → i ∉ stack
  keys : ∀ i, k ≤ i → ((i ∈ stack ∨ ∃ v, (i, v) ∈ dict) ↔ ∃ l, full[i]? = some (Step.I l))
  keysge : ∀ i v, (i, v) ∈ dict → k ≤ i
  values : ∀ r l, k ≤ r → full[r]? = some (Step.R l) → ∃ i, (i, some r) ∈ dict
  uniq : ∀ i i' r, (i, some r) ∈ dict → (i', some r) ∈ dict → i = i'
  match_ : ∀ i v, (i, v) ∈ dict → ∃ r, v = some r ∧ k ≤ r ∧ r < i ∧
    ∃ l, full[r]? = some (Step.R l) ∧ full[i]? = some (Step.I (l - 1))
  nested : ∀ i r i' r', (i, some r) ∈ dict → (i', some r') ∈ dict → r < r' → r' < i → i' < i
  stackOut : ∀ i r s, (i, some r) ∈ dict → s ∈ stack → s < r ∨ i < s

theorem aux_inv (full : List Step) : ∀ (l : List Step) (k : Nat) (a b : Int),
    full.drop k = l → Path a l b →
    ∀ stack dict, aux k l = some (stack, dict) → PInv full k a b stack dict := by
  intro l
  induction l with
  | nil =>
    intro k a b hd hp stack dict h
    simp only [Path] at hp
    subst hp
    simp [aux] at h
    obtain ⟨rfl, rfl⟩ := h
    have hk : full.length ≤ k := by simpa using hd
    constructor <;> simp
    · intro i hi l
      rw [List.getElem?_eq_none (by omega)]; simp
    · intro r l hr h
      rw [List.getElem?_eq_none (by omega)] at h; cases h
  | cons s l ih =>
    intro k a b hd hp stack dict h
    obtain ⟨rfl, hp⟩ := hp
    rw [aux_cons] at h
    have hks : full[k]? = some s := by
      have : (full.drop k)[0]? = some s := by rw [hd]; rfl
      simpa using this
    have hd' : full.drop (k + 1) = l := by
      rw [← List.tail_drop, hd]; rfl
    cases ha : aux (k + 1) l with
    | none => rw [ha] at h; simp [pairStep] at h
    | some p =>
      obtain ⟨st, dc⟩ := p
      have I := ih (k + 1) s.dst b hd' hp st dc ha
      rw [ha] at h
      cases s with
      | I lay =>
        simp only [pairStep, Option.some.injEq, Prod.mk.injEq] at h
        obtain ⟨rfl, rfl⟩ := h
        simp only [Step.dst, Step.src] at I ⊢
        constructor
        · have := I.len; push_cast [List.length_cons]; omega
        · rw [List.pairwise_cons]
          refine ⟨fun s hs => ?_, I.sorted⟩
          have := I.ge s hs; omega
        · intro s hs
          rcases List.mem_cons.1 hs with rfl | hs
          · exact le_refl _
          · have := I.ge s hs; omega
        · intro j s hs
          cases j with
          | zero => simp at hs; subst hs; simpa using hks
          | succ j =>
            have := I.layer j s (by simpa using hs)
            rw [this]; congr 2; push_cast; ring
        · exact I.nodup
        · intro i v hv hm
          rcases List.mem_cons.1 hm with rfl | hm
          · have := I.keysge _ _ hv; omega
          · exact I.disj _ _ hv hm
        · intro i hi
          by_cases h : i = k
          · subst h; simp [hks]
          · rw [← I.keys i (by omega)]
            simp [h]
        · intro i v hv; have := I.keysge _ _ hv; omega
        · intro r l hr h
          have : r ≠ k := by rintro rfl; rw [hks] at h; cases h
          exact I.values r l (by omega) h
        · exact I.uniq
        · intro i v hv
          obtain ⟨r, h1, h2, h3⟩ := I.match_ i v hv
          exact ⟨r, h1, by omega, h3⟩
        · exact I.nested
        · intro i r s hv hm
          rcases List.mem_cons.1 hm with rfl | hm
          · obtain ⟨r', h1, h2, _⟩ := I.match_ i _ hv
            cases h1; left; omega
          · exact I.stackOut _ _ _ hv hm
      | R lay =>
        cases st with
        | nil => simp [pairStep] at h
        | cons i0 st =>
        simp only [pairStep, Option.some.injEq, Prod.mk.injEq] at h
        obtain ⟨rfl, rfl⟩ := h
        simp only [Step.dst, Step.src] at I ⊢
        have hi0 : full[i0]? = some (Step.I (lay - 1)) := by
          have := I.layer 0 i0 rfl
          simpa using this
        have hi0k : k + 1 ≤ i0 := I.ge i0 (by simp)
        have hsort := List.pairwise_cons.1 I.sorted
        have hi0d : ∀ v, (i0, v) ∉ dc := fun v hv => I.disj _ _ hv (by simp)
        have mem' : ∀ {i v}, (i, v) ∈ dc ++ [(i0, some k)] → (i, v) ∈ dc ∨ (i = i0 ∧ v = some k) := by
          intro i v h; simpa using h
        constructor
        · have := I.len; push_cast [List.length_cons] at this; omega
        · exact hsort.2
        · intro s hs; have := I.ge s (by simp [hs]); omega
        · intro j s hs
          have := I.layer (j + 1) s (by simpa using hs)
          rw [this]; congr 2; push_cast; ring
        · rw [List.map_append, List.nodup_append]
          refine ⟨I.nodup, by simp, ?_⟩
          intro x hx y hy
          simp at hy; subst hy
          rintro rfl
          obtain ⟨⟨a, v⟩, hm, e⟩ := List.mem_map.1 hx
          simp only at e; subst e
          exact hi0d v hm
        · intro i v hv hm
          rcases mem' hv with hv | ⟨rfl, rfl⟩
          · exact I.disj _ _ hv (by simp [hm])
          · have := hsort.1 _ hm; omega
        · intro i hi
          by_cases h : i = k
          · subst h
            rw [hks]
            simp only [Option.some.injEq, reduceCtorEq, exists_false, iff_false, not_or, not_exists]
            refine ⟨fun hm => ?_, fun v hv => ?_⟩
            · have := I.ge i (by simp [hm]); omega
            · rcases mem' hv with hv | ⟨rfl, _⟩
              · have := I.keysge _ _ hv; omega
              · omega
          · rw [← I.keys i (by omega)]
            constructor
            · rintro (hm | ⟨v, hv⟩)
              · left; simp [hm]
              · rcases mem' hv with hv | ⟨rfl, _⟩
                · right; exact ⟨v, hv⟩
                · left; simp
            · rintro (hm | ⟨v, hv⟩)
              · rcases List.mem_cons.1 hm with rfl | hm
                · right; exact ⟨some k, by simp⟩
                · left; exact hm
              · right; exact ⟨v, by simp [hv]⟩
        · intro i v hv
          rcases mem' hv with hv | ⟨rfl, _⟩
          · have := I.keysge _ _ hv; omega
          · omega
        · intro r l hr h
          by_cases hrk : r = k
          · subst hrk; exact ⟨i0, by simp⟩
          · obtain ⟨i, hi⟩ := I.values r l (by omega) h
            exact ⟨i, by simp [hi]⟩
        · intro i i' r h1 h2
          rcases mem' h1 with g1 | ⟨e1, g1⟩ <;> rcases mem' h2 with g2 | ⟨e2, g2⟩
          · exact I.uniq _ _ _ g1 g2
          · obtain ⟨r', e, hr', _⟩ := I.match_ _ _ g1
            cases e; cases g2; omega
          · obtain ⟨r', e, hr', _⟩ := I.match_ _ _ g2
            cases e; cases g1; omega
          · rw [e1, e2]
        · intro i v hv
          rcases mem' hv with hv | ⟨rfl, rfl⟩
          · obtain ⟨r, h1, h2, h3⟩ := I.match_ i v hv
            exact ⟨r, h1, by omega, h3⟩
          · exact ⟨k, rfl, le_refl _, by omega, lay, hks, hi0⟩
        · intro i r i' r' h1 h2 h3 h4
          rcases mem' h1 with g1 | ⟨e1, g1⟩ <;> rcases mem' h2 with g2 | ⟨e2, g2⟩
          · exact I.nested _ _ _ _ g1 g2 h3 h4
          · cases g2
            obtain ⟨r'', e, hr', _⟩ := I.match_ _ _ g1
            cases e; omega
          · cases g1
            subst e1
            rcases I.stackOut _ _ i g2 (by simp) with h | h
            · omega
            · exact h
          · cases g1; cases g2; omega
        · intro i r s hv hm
          rcases mem' hv with hv | ⟨rfl, h⟩
          · exact I.stackOut _ _ _ hv (by simp [hm])
          · right; exact hsort.1 _ hm

theorem proper_of_inv {full : List Step} {a b : Int} {stack : List Nat}
    {dict : List (Nat × Option Nat)} (I : PInv full 0 a b stack dict) :
    ProperPairing full (dict ++ stack.map (fun i => (i, none))) := by
  have mem' : ∀ {i v}, (i, v) ∈ dict ++ stack.map (fun i => (i, none)) →
      (i, v) ∈ dict ∨ (i ∈ stack ∧ v = none) := by
    intro i v h; simpa [eq_comm] using h
  constructor
  · rw [List.map_append, List.nodup_append]
    refine ⟨I.nodup, ?_, ?_⟩
    · rw [List.map_map]
      have : (Prod.fst ∘ fun i : Nat => (i, (none : Option Nat))) = id := by
        funext i; rfl
      rw [this, List.map_id]
      exact I.sorted.imp (fun h => by omega)
    · intro x hx y hy
      obtain ⟨⟨a, v⟩, hm, e⟩ := List.mem_map.1 hx
      simp only at e; subst e
      simp at hy
      rintro rfl
      exact I.disj _ _ hm hy
  · intro i
    rw [← I.keys i (Nat.zero_le _)]
    constructor
    · rintro ⟨v, hv⟩
      rcases mem' hv with hv | ⟨hs, _⟩
      · exact Or.inr ⟨v, hv⟩
      · exact Or.inl hs
    · rintro (hs | ⟨v, hv⟩)
      · exact ⟨none, by simp [hs]⟩
      · exact ⟨v, by simp [hv]⟩
  · intro r l h
    obtain ⟨i, hi⟩ := I.values r l (Nat.zero_le _) h
    refine ⟨i, by simp [hi], ?_⟩
    intro j hj
    rcases mem' hj with hj | ⟨_, hj⟩
    · exact I.uniq _ _ _ hj hi
    · cases hj
  · intro i r h
    rcases mem' h with h | ⟨_, h⟩
    · obtain ⟨r', e, _, h3, h4⟩ := I.match_ _ _ h
      cases e; exact ⟨h3, h4⟩
    · cases h
  · intro i r i' r' h1 h2
    rcases mem' h1 with h1 | ⟨_, h1⟩ <;> rcases mem' h2 with h2 | ⟨_, h2⟩
    · exact I.nested _ _ _ _ h1 h2
    · cases h2
    · cases h1
    · cases h1

theorem aux_some_iff : ∀ (l : List Step) (k : Nat) (a b : Int), Path a l b →
    ((aux k l).isSome ↔ ∀ s ∈ l, s.src ≤ b) ∧
    ∀ p, aux k l = some p → (p.1.length : Int) = b - a := by
  intro l
  induction l with
  | nil =>
    intro k a b hp
    simp only [Path] at hp
    simp [aux, hp]
  | cons s l ih =>
    intro k a b hp
    obtain ⟨rfl, hp⟩ := hp
    obtain ⟨h1, h2⟩ := ih (k + 1) _ _ hp
    rw [aux_cons]
    cases ha : aux (k + 1) l with
    | none =>
      rw [ha] at h1
      simp at h1
      obtain ⟨x, hx, hb⟩ := h1
      simp only [pairStep, Option.isSome_none, Bool.false_eq_true, false_iff, List.mem_cons,
        forall_eq_or_imp, not_and, reduceCtorEq, false_implies, implies_true, and_true]
      intro _ h
      have := h x hx
      omega
    | some p =>
      obtain ⟨st, dc⟩ := p
      have hlen := h2 _ ha
      rw [ha] at h1
      simp at h1
      cases s with
      | I lay =>
        simp only [Step.dst, Step.src] at hlen ⊢
        simp only [pairStep, Option.isSome_some, true_iff, List.mem_cons, forall_eq_or_imp,
          Option.some.injEq]
        refine ⟨⟨?_, h1⟩, ?_⟩
        · have : (0 : Int) ≤ st.length := by omega
          simp [Step.src]; omega
        · rintro p rfl; push_cast [List.length_cons]; omega
      | R lay =>
        simp only [Step.dst, Step.src] at hlen ⊢
        cases st with
        | nil =>
          simp at hlen
          simp [pairStep, Step.src]
          intro h; omega
        | cons i st =>
          simp only [pairStep, Option.isSome_some, true_iff, List.mem_cons, forall_eq_or_imp,
            Option.some.injEq]
          push_cast [List.length_cons] at hlen
          refine ⟨⟨?_, h1⟩, ?_⟩
          · omega
          · rintro p rfl; simp only; omega

/-! ### The cycles are paths -/

theorem Path.append {l l' : List Step} : ∀ {a b c : Int}, Path a l b → Path b l' c →
    Path a (l ++ l') c := by
  induction l with
  | nil => intro a b c h h'; simp only [Path] at h; subst h; exact h'
  | cons s l ih => intro a b c h h'; exact ⟨h.1, ih h.2 h'⟩

theorem Path.single (s : Step) : Path s.src [s] s.dst := ⟨rfl, rfl⟩

theorem path_down (n : Nat) : Path n ((downLayers (n + 1)).map .R) 0 := by
  induction n with
  | zero => simp [downLayers, Path]
  | succ n ih =>
    have : downLayers (n + 1 + 1) = ((n + 1 : Nat) : Int) :: downLayers (n + 1) := by
      have e : (List.range (n + 1 + 1)).reverse = (n + 1) :: (List.range (n + 1)).reverse := by
        rw [List.range_succ]; simp
      unfold downLayers
      rw [e, List.dropLast_cons_of_ne_nil (by simp)]
      simp
    rw [this, List.map_cons]
    refine ⟨rfl, ?_⟩
    simpa [Step.dst] using ih

theorem upLayers_succ (n : Nat) : upLayers (n + 1) = (List.range n).map Int.ofNat := by
  simp [upLayers, List.range_succ]

theorem path_up (n : Nat) : Path 0 ((upLayers (n + 1)).map .I) n := by
  induction n with
  | zero => simp [upLayers_succ, Path]
  | succ n ih =>
    rw [upLayers_succ] at ih ⊢
    rw [List.range_succ, List.map_append, List.map_append]
    refine ih.append ?_
    exact Path.single (.I (n : Int))

theorem emitN_path (a : Int) (d : Dir) : ∀ (k : Nat) (st : List Step × Int), Path a st.1 st.2 →
    Path a (emitN d k st).1 (emitN d k st).2 := by
  intro k
  induction k with
  | zero => intro st h; exact h
  | succ k ih =>
    intro st h
    refine ih _ ?_
    cases d with
    | R =>
      exact h.append (Path.single (.R st.2))
    | I =>
      exact h.append (Path.single (.I st.2))

theorem walk_path (a : Int) : ∀ (seq : List Nat) (d : Dir) (st : List Step × Int),
    Path a st.1 st.2 → Path a (walk d seq st).1 (walk d seq st).2 := by
  intro seq
  induction seq with
  | nil => intro d st h; exact h
  | cons s seq ih => intro d st h; exact ih _ _ (emitN_path a d s st h)

theorem Path.last {l : List Step} : ∀ {a b : Int}, Path a l b →
    ∀ s, l.getLast? = some s → s.dst = b := by
  induction l with
  | nil => intro a b _ s h; simp at h
  | cons s l ih =>
    intro a b h t ht
    cases l with
    | nil =>
      simp at ht; subst ht; exact h.2
    | cons x l => exact ih h.2 t (by simpa using ht)

theorem accept_some {n : Nat} {l l' : List Step} (h : accept n l = some l') :
    l = l' ∧ ∃ x, l.getLast? = some (Step.I x) ∧ x = (n : Int) - 2 := by
  unfold accept at h
  split at h
  · rename_i x hx
    split at h
    · cases h; exact ⟨rfl, x, hx, by assumption⟩
    · cases h
  · cases h

/-! ### Layers visited -/

theorem mem_down {n : Nat} {x : Int} (h : x ∈ downLayers n) : 1 ≤ x ∧ x < n := by
  unfold downLayers at h
  cases n with
  | zero => simp at h
  | succ n =>
    have e : (List.range (n + 1)).reverse.dropLast = ((List.range' 1 n)).reverse := by
      rw [List.range_eq_range', List.range'_succ, List.reverse_cons, List.dropLast_concat]
    rw [e] at h
    simp at h
    obtain ⟨a, ha, rfl⟩ := h
    push_cast
    omega

theorem mem_up {n : Nat} {x : Int} (h : x ∈ upLayers n) : 0 ≤ x ∧ x + 1 < n := by
  cases n with
  | zero => simp [upLayers] at h
  | succ n =>
    rw [upLayers_succ] at h
    simp at h
    obtain ⟨a, ha, rfl⟩ := h
    push_cast
    omega

theorem within_append (n : Nat) (l l' : List Step) :
    WithinLayers n (l ++ l') ↔ WithinLayers n l ∧ WithinLayers n l' := by
  constructor
  · intro h
    exact ⟨fun s hs => h s (by simp [hs]), fun s hs => h s (by simp [hs])⟩
  · rintro ⟨h1, h2⟩ s hs
    rcases List.mem_append.1 hs with h | h
    · exact h1 s h
    · exact h2 s h

/-- Where a leg of length `k` ends. -/
def legEnd : Dir → Nat → Int → Int
  | .R, k, c => c - k
  | .I, k, c => c + k

theorem emitN_layer (d : Dir) : ∀ (k : Nat) (st : List Step × Int),
    (emitN d k st).2 = legEnd d k st.2 := by
  intro k
  induction k with
  | zero => intro st; cases d <;> simp [emitN, legEnd]
  | succ k ih =>
    intro st
    simp only [emitN, ih]
    cases d <;> simp only [emit, legEnd] <;> push_cast <;> ring

theorem emitN_within (n : Nat) (d : Dir) : ∀ (k : Nat) (st : List Step × Int),
    (0 ≤ st.2 ∧ st.2 < n) →
    (WithinLayers n (emitN d k st).1 ↔
      WithinLayers n st.1 ∧ (0 ≤ legEnd d k st.2 ∧ legEnd d k st.2 < n)) := by
  intro k
  induction k with
  | zero => intro st h; cases d <;> simp [emitN, legEnd, h]
  | succ k ih =>
    intro st h
    simp only [emitN]
    by_cases h1 : 0 ≤ (emit d st).2 ∧ (emit d st).2 < n
    · rw [ih _ h1]
      cases d with
      | R =>
        simp only [emit, within_append] at h1 ⊢
        have e : legEnd .R k (st.2 - 1) = legEnd .R (k + 1) st.2 := by
          simp only [legEnd]; push_cast; ring
        rw [e]
        have : WithinLayers n [Step.R st.2] := by
          intro s hs; simp at hs; subst hs; exact ⟨h, h1⟩
        simp [this]
      | I =>
        simp only [emit, within_append] at h1 ⊢
        have e : legEnd .I k (st.2 + 1) = legEnd .I (k + 1) st.2 := by
          simp only [legEnd]; push_cast; ring
        rw [e]
        have : WithinLayers n [Step.I st.2] := by
          intro s hs; simp at hs; subst hs; exact ⟨h, h1⟩
        simp [this]
    · have sub : ∀ (k : Nat) (s : List Step × Int), s.1 <+: (emitN d k s).1 := by
        intro k
        induction k with
        | zero => intro s; exact List.prefix_rfl
        | succ k ih2 =>
          intro s
          refine List.IsPrefix.trans ?_ (ih2 _)
          cases d <;> exact ⟨_, rfl⟩
      constructor
      · intro hw
        exfalso
        have hm : ∀ s ∈ (emit d st).1, s ∈ (emitN d k (emit d st)).1 :=
          fun s hs => (sub k _).subset hs
        cases d with
        | R => exact h1 (hw _ (hm (.R st.2) (by simp [emit]))).2
        | I => exact h1 (hw _ (hm (.I st.2) (by simp [emit]))).2
      · rintro ⟨_, h2⟩
        exfalso
        cases d <;> simp only [emit, legEnd] at h1 h2 <;> push_cast at h2 <;> omega

theorem walk_within (n : Nat) : ∀ (seq : List Nat) (d : Dir) (st : List Step × Int),
    (0 ≤ st.2 ∧ st.2 < n) →
    (WithinLayers n (walk d seq st).1 ↔
      WithinLayers n st.1 ∧ ∀ t ∈ turnLayers d seq st.2, 0 ≤ t ∧ t < n) := by
  intro seq
  induction seq with
  | nil => intro d st h; simp [walk, turnLayers]
  | cons s seq ih =>
    intro d st h
    have e := emitN_layer d s st
    have ht : turnLayers d (s :: seq) st.2 =
        legEnd d s st.2 :: turnLayers d.flip seq (legEnd d s st.2) := by
      cases d <;> rfl
    rw [ht]
    simp only [walk, List.mem_cons, forall_eq_or_imp]
    by_cases h1 : 0 ≤ legEnd d s st.2 ∧ legEnd d s st.2 < n
    · rw [ih _ _ (by rw [e]; exact h1), emitN_within n d s st h, e]
      tauto
    · have sub : ∀ (ss : List Nat) (d : Dir) (s : List Step × Int), s.1 <+: (walk d ss s).1 := by
        have sub1 : ∀ (d : Dir) (k : Nat) (s : List Step × Int), s.1 <+: (emitN d k s).1 := by
          intro d k
          induction k with
          | zero => intro s; exact List.prefix_rfl
          | succ k ih2 =>
            intro s
            refine List.IsPrefix.trans ?_ (ih2 _)
            cases d <;> exact ⟨_, rfl⟩
        intro ss
        induction ss with
        | nil => intro d s; exact List.prefix_rfl
        | cons x ss ih2 => intro d s; exact (sub1 d x s).trans (ih2 _ _)
      constructor
      · intro hw
        have : WithinLayers n (emitN d s st).1 := fun x hx => hw x ((sub _ _ _).subset hx)
        rw [emitN_within n d s st h] at this
        exact absurd this.2 h1
      · rintro ⟨_, h2, _⟩; exact absurd h2 h1

end Phyem.Multigrid
