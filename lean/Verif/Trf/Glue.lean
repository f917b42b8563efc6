import Verif.Trf.Geo
import Mathlib.Data.List.Nodup
import Mathlib.Tactic.Push

/-! The keys of the vertices and the points of the mesh. -/

namespace Phyem.Trf

lemma nodesOf_mem {B : Base} {c : ℕ} {n : Nodes} (h : nodesOf B c = some n) : (c, n) ∈ B := by
  unfold nodesOf at h
  rw [Option.map_eq_some_iff] at h
  obtain ⟨q, hq, rfl⟩ := h
  have h1 := List.mem_of_find?_eq_some hq
  have h2 := List.find?_some hq
  simp only [decide_eq_true_eq] at h2
  rw [← h2]; exact h1

lemma mem_unique {B : Base} (hk : (B.map Prod.fst).Nodup) {c : ℕ} {n n' : Nodes} (h : (c, n) ∈ B)
    (h' : (c, n') ∈ B) : n = n' := by
  have := List.inj_on_of_nodup_map hk h h' rfl
  exact (Prod.mk.inj this).2

lemma nodesOf_some {B : Base} (hk : (B.map Prod.fst).Nodup) {c : ℕ} {n : Nodes} (h : (c, n) ∈ B) :
    nodesOf B c = some n := by
  cases hn : nodesOf B c with
  | none =>
    unfold nodesOf at hn
    rw [Option.map_eq_none_iff, List.find?_eq_none] at hn
    have := hn _ h
    simp at this
  | some n' => rw [mem_unique hk h (nodesOf_mem hn)]

lemma key_corner {n : Nodes} {a c : ℕ} {p : Pt} (h : Corner n a p) : keyAt n c p = .node a := by
  rcases h with ⟨rfl, rfl⟩ | ⟨rfl, rfl⟩ | ⟨rfl, rfl⟩ | ⟨rfl, rfl⟩ <;> norm_num [keyAt]

lemma key_side (n : Nodes) (c : ℕ) (d : Dir) {t : ℚ} (h : -1 < t) (h' : t < 1) :
    keyAt n c (sidePt d t) = edgeKey (ends n d).1 (ends n d).2 t := by
  have e1 : t ≠ -1 := h.ne'
  have e2 : t ≠ 1 := h'.ne
  have e3 : ¬ (-1 : ℚ) = t := fun e => e1 e.symm
  have e4 : ¬ (1 : ℚ) = t := fun e => e2 e.symm
  cases d <;> norm_num [keyAt, sidePt, ends, e1, e2, e3, e4]

lemma key_inner (n : Nodes) (c : ℕ) {p : Pt} (h1 : -1 < p.x) (h2 : p.x < 1) (h3 : -1 < p.y) (h4 : p.y < 1) :
    keyAt n c p = .triple c p.x p.y := by
  unfold keyAt
  rw [if_neg (by rintro ⟨_, h⟩; exact h3.ne' h), if_neg (by rintro ⟨h, _⟩; exact h2.ne h),
    if_neg (by rintro ⟨h, _⟩; exact h1.ne' h), if_neg (by rintro ⟨h, _⟩; exact h2.ne h),
    if_neg h1.ne', if_neg h2.ne, if_neg h3.ne', if_neg h4.ne]

/-- Where a point of the square can be. -/
lemma square_cases (n : Nodes) {p : Pt} (h : InSquare p) :
    (∃ a, Corner n a p) ∨ (∃ d t, -1 < t ∧ t < 1 ∧ p = sidePt d t) ∨
    (-1 < p.x ∧ p.x < 1 ∧ -1 < p.y ∧ p.y < 1) := by
  obtain ⟨x, y⟩ := p
  obtain ⟨h1, h2, h3, h4⟩ := h
  simp only at h1 h2 h3 h4
  rcases h1.eq_or_lt with e1 | e1
  · subst e1
    rcases h3.eq_or_lt with e3 | e3
    · subst e3; exact Or.inl ⟨n.n0, Or.inl ⟨rfl, rfl⟩⟩
    · rcases h4.eq_or_lt with e4 | e4
      · subst e4; exact Or.inl ⟨n.n3, Or.inr (Or.inr (Or.inr ⟨rfl, rfl⟩))⟩
      · exact Or.inr (Or.inl ⟨.N, y, e3, e4, rfl⟩)
  · rcases h2.eq_or_lt with e2 | e2
    · subst e2
      rcases h3.eq_or_lt with e3 | e3
      · subst e3; exact Or.inl ⟨n.n1, Or.inr (Or.inl ⟨rfl, rfl⟩)⟩
      · rcases h4.eq_or_lt with e4 | e4
        · subst e4; exact Or.inl ⟨n.n2, Or.inr (Or.inr (Or.inl ⟨rfl, rfl⟩))⟩
        · exact Or.inr (Or.inl ⟨.S, y, e3, e4, rfl⟩)
    · rcases h3.eq_or_lt with e3 | e3
      · subst e3; exact Or.inr (Or.inl ⟨.W, x, e1, e2, rfl⟩)
      · rcases h4.eq_or_lt with e4 | e4
        · subst e4; exact Or.inr (Or.inl ⟨.E, x, e1, e2, rfl⟩)
        · exact Or.inr (Or.inr ⟨e1, e2, e3, e4⟩)

lemma ends_ne {n : Nodes} (h : [n.n0, n.n1, n.n2, n.n3].Nodup) (d : Dir) : (ends n d).1 ≠ (ends n d).2 := by
  simp only [List.nodup_cons, List.mem_cons, not_or, List.not_mem_nil, not_false_eq_true, List.nodup_nil,
    and_true] at h
  obtain ⟨⟨h1, h2, h3⟩, ⟨h4, h5⟩, h6⟩ := h
  cases d <;> simp only [ends] <;> intro e <;> simp_all

lemma edgeKey_eq {a b a' b' : ℕ} {t t' : ℚ} (h : edgeKey a b t = edgeKey a' b' t') :
    ((a = a' ∧ b = b') ∨ (a = b' ∧ b = a')) ∧ t = t' := by
  unfold edgeKey at h
  injection h with h1 h2 h3
  have h1' : min a b = min a' b' := by exact_mod_cast h1
  have h2' : max a b = max a' b' := by exact_mod_cast h2
  refine ⟨?_, h3⟩
  omega

lemma edgeKey_symm (a b : ℕ) (t : ℚ) : edgeKey a b t = edgeKey b a t := by
  unfold edgeKey
  rw [min_comm, max_comm]

lemma edge_ne_inner {a b c : ℕ} (hab : a ≠ b) {t x y : ℚ} (h2 : x < 1) :
    edgeKey a b t ≠ .triple c x y := by
  intro h
  unfold edgeKey at h
  injection h with h1 h2' h3
  have : 1 ≤ max a b := by omega
  have : (1 : ℚ) ≤ ((max a b : ℕ) : ℚ) := by exact_mod_cast this
  linarith

variable {B : Base}

/-- The keys tell the points of the mesh apart. -/
lemma key_iff_same (hp : Proper B) (hal : Aligned B) {c c' : ℕ} {n n' : Nodes} (hn : (c, n) ∈ B)
    (hn' : (c', n') ∈ B) {p p' : Pt} (hs : InSquare p) (hs' : InSquare p') :
    keyAt n c p = keyAt n' c' p' ↔ Same B c p c' p' := by
  constructor
  · intro h
    rcases square_cases n hs with ⟨a, ha⟩ | ⟨d, t, t0, t1, rfl⟩ | ⟨h1, h2, h3, h4⟩ <;>
    rcases square_cases n' hs' with ⟨a', ha'⟩ | ⟨d', t', t0', t1', rfl⟩ | ⟨h1', h2', h3', h4'⟩
    · rw [key_corner ha, key_corner ha'] at h
      injection h with h
      subst h
      exact Or.inr ⟨n, n', hn, hn', Or.inl ⟨a, ha, ha'⟩⟩
    · rw [key_corner ha, key_side _ _ _ t0' t1'] at h; exact absurd h (by unfold edgeKey; exact fun h => by cases h)
    · rw [key_corner ha, key_inner _ _ h1' h2' h3' h4'] at h; cases h
    · rw [key_corner ha', key_side _ _ _ t0 t1] at h; exact absurd h (by unfold edgeKey; exact fun h => by cases h)
    · rw [key_side _ _ _ t0 t1, key_side _ _ _ t0' t1'] at h
      have hk := edgeKey_eq h
      clear h
      obtain ⟨hk, rfl⟩ := hk
      rcases hk with ⟨e1, e2⟩ | ⟨e1, e2⟩
      · refine Or.inr ⟨n, n', hn, hn', Or.inr ⟨(ends n d).1, (ends n d).2, (t + 1) / 2, by linarith, by linarith,
          ⟨d, Or.inl ⟨rfl, ?_⟩⟩, ⟨d', Or.inl ⟨by rw [e1, e2], ?_⟩⟩⟩⟩
        · congr 1; ring
        · congr 1; ring
      · exact absurd (Prod.ext e1 e2) (hal _ hn _ hn' d d')
    · rw [key_side _ _ _ t0 t1, key_inner _ _ h1' h2' h3' h4'] at h
      exact absurd h (edge_ne_inner (ends_ne (hp.nodes _ hn) d) h2')
    · rw [key_corner ha', key_inner _ _ h1 h2 h3 h4] at h; cases h
    · rw [key_side _ _ _ t0' t1', key_inner _ _ h1 h2 h3 h4] at h
      exact absurd h.symm (edge_ne_inner (ends_ne (hp.nodes _ hn') d') h2)
    · rw [key_inner _ _ h1 h2 h3 h4, key_inner _ _ h1' h2' h3' h4'] at h
      injection h with e1 e2 e3
      exact Or.inl ⟨by exact_mod_cast e1, Pt.ext e2 e3⟩
  · rintro (⟨rfl, rfl⟩ | ⟨m, m', hm, hm', h⟩)
    · rw [mem_unique hp.keys hn hn']
    · rw [← mem_unique hp.keys hn hm, ← mem_unique hp.keys hn' hm'] at h
      rcases h with ⟨a, h, h'⟩ | ⟨a, b, f, f0, f1, h, h'⟩
      · rw [key_corner h, key_corner h']
      · have key : ∀ {n : Nodes} {c : ℕ} {p : Pt}, Divides n a b f p →
            (f = 0 → keyAt n c p = .node a) ∧ (f = 1 → keyAt n c p = .node b) := by
          intro n c p ⟨d, h⟩
          constructor <;> intro e <;> subst e <;> rcases h with ⟨e, rfl⟩ | ⟨e, rfl⟩
          all_goals
            cases d <;> simp only [ends, Prod.mk.injEq] at e <;> obtain ⟨rfl, rfl⟩ := e <;>
            apply key_corner <;> simp only [Corner, sidePt] <;> norm_num
        rcases f0.eq_or_lt with e | f0
        · rw [(key h).1 e.symm, (key h').1 e.symm]
        · rcases f1.eq_or_lt with e | f1
          · rw [(key h).2 e, (key h').2 e]
          · obtain ⟨d, h⟩ := h
            obtain ⟨d', h'⟩ := h'
            rcases h with ⟨e, rfl⟩ | ⟨e, rfl⟩ <;> rcases h' with ⟨e', rfl⟩ | ⟨e', rfl⟩
            · rw [key_side _ _ _ (by linarith) (by linarith), key_side _ _ _ (by linarith) (by linarith), e, e']
            · exact absurd (by rw [e, e']; rfl) (hal _ hn _ hn' d d')
            · exact absurd (by rw [e, e']; rfl) (hal _ hn _ hn' d d')
            · rw [key_side _ _ _ (by linarith) (by linarith), key_side _ _ _ (by linarith) (by linarith), e, e']

/-! The numbers. -/

lemma addKeys_nodup (l seen : List Key) (h : seen.Nodup) : (addKeys seen l).Nodup := by
  induction l generalizing seen with
  | nil => exact h
  | cons k l ih =>
    rw [addKeys]
    split_ifs with hk
    · exact ih _ h
    · exact ih _ (by
        rw [List.nodup_append]
        exact ⟨h, by simp, by intro a ha b hb; rw [List.mem_singleton] at hb; subst hb
                              exact fun e => hk (e ▸ ha)⟩)

lemma mem_addKeys (l seen : List Key) (k : Key) : k ∈ addKeys seen l ↔ k ∈ seen ∨ k ∈ l := by
  induction l generalizing seen with
  | nil => simp [addKeys]
  | cons k' l ih =>
    rw [addKeys]
    split_ifs with hk
    · rw [ih, List.mem_cons]
      constructor
      · rintro (h | h) <;> simp [h]
      · rintro (h | rfl | h) <;> simp [*]
    · rw [ih, List.mem_append, List.mem_singleton, List.mem_cons, or_assoc]

lemma allKeys_map {L : List Elem} {m : List (Elem × List Key)} (h : allKeys B L = some m) :
    m.map Prod.fst = L ∧ ∀ q ∈ m, keysOf B q.1 = some q.2 := by
  induction L generalizing m with
  | nil => simp only [allKeys, Option.some.injEq] at h; subst h; simp
  | cons e l ih =>
    simp only [allKeys, Option.bind_eq_some_iff, Option.map_eq_some_iff] at h
    obtain ⟨k, hk, m', hm', rfl⟩ := h
    obtain ⟨h1, h2⟩ := ih hm'
    refine ⟨by simp [h1], ?_⟩
    intro q hq
    rcases List.mem_cons.mp hq with rfl | hq
    · exact hk
    · exact h2 q hq

/-- The keys of an element are those of its vertices. -/
lemma keysOf_eq {e : Elem} {k : List Key} (h : keysOf B e = some k) :
    ∃ n, (e.cell, n) ∈ B ∧ k = e.corners.map (keyAt n e.cell) := by
  cases e with
  | quad c =>
    simp only [keysOf, Option.map_eq_some_iff] at h
    obtain ⟨n, hn, rfl⟩ := h
    exact ⟨n, nodesOf_mem hn, by norm_num [Elem.corners, keyAt]⟩
  | tri t =>
    simp only [keysOf, Option.map_eq_some_iff] at h
    obtain ⟨n, hn, rfl⟩ := h
    exact ⟨n, nodesOf_mem hn, rfl⟩

lemma corners_square {e : Elem} {p : Pt} (h : p ∈ e.corners) : InSquare p := by
  cases e with
  | quad c =>
    simp only [Elem.corners, List.mem_cons, List.not_mem_nil, or_false] at h
    rcases h with rfl | rfl | rfl | rfl <;> norm_num [InSquare]
  | tri t =>
    simp only [Elem.corners, List.mem_cons, List.not_mem_nil, or_false] at h
    rcases h with rfl | rfl | rfl
    · exact in_square (in_va _)
    · exact in_square (in_vb _)
    · exact in_square (in_vc _)

/-- An entry of the element map: the positions of the keys of the vertices in one list of keys without
repetition. -/
lemma elementMap_eq {L : List Elem} {em : List (Elem × List ℕ)} (h : elementMap B L = some em) :
    em.map Prod.fst = L ∧ ∃ pool : List Key, pool.Nodup ∧
      (∀ q ∈ em, ∃ n, (q.1.cell, n) ∈ B ∧ q.2 = q.1.corners.map (fun p => pool.idxOf (keyAt n q.1.cell p)) ∧
        ∀ p ∈ q.1.corners, keyAt n q.1.cell p ∈ pool) ∧
      ∀ k ∈ pool, ∃ q ∈ em, pool.idxOf k ∈ q.2 := by
  unfold elementMap at h
  rw [Option.map_eq_some_iff] at h
  obtain ⟨m, hm, rfl⟩ := h
  obtain ⟨h1, h2⟩ := allKeys_map hm
  refine ⟨by simp only [List.map_map]; rw [← h1]; rfl, addKeys [] (m.flatMap Prod.snd), addKeys_nodup _ _ (by simp), ?_, ?_⟩
  swap
  · intro k hk
    have hk' := hk
    rw [mem_addKeys] at hk'
    rcases hk' with hk' | hk'
    · cases hk'
    · rw [List.mem_flatMap] at hk'
      obtain ⟨q, hq, hkq⟩ := hk'
      exact ⟨_, List.mem_map_of_mem hq, List.mem_map_of_mem hkq⟩
  intro q hq
  rw [List.mem_map] at hq
  obtain ⟨q', hq', rfl⟩ := hq
  obtain ⟨n, hn, hk⟩ := keysOf_eq (h2 q' hq')
  refine ⟨n, hn, ?_, ?_⟩
  · simp only [hk, List.map_map]; rfl
  · intro p hp
    rw [mem_addKeys]
    right
    rw [List.mem_flatMap]
    exact ⟨q', hq', by rw [hk]; exact List.mem_map_of_mem hp⟩

end Phyem.Trf
