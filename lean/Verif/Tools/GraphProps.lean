import Verif.Tools.Graph
import Mathlib.Data.List.Perm.Basic
import Mathlib.Data.List.Nodup
import Mathlib.Data.List.Induction

/-!
Property C59: undirected graphs.
-/

namespace Phyem.Graph

variable {α : Type} [DecidableEq α]

theorem lookup_ensure (e : List (α × List α)) (a x : α) :
    ((ensure e a).lookup x).getD [] = (e.lookup x).getD [] := by
  unfold ensure
  split_ifs with h
  · rfl
  · rw [List.lookup_append]
    cases hl : e.lookup x with
    | some v => simp
    | none =>
      by_cases hx : x = a
      · subst hx; simp [List.lookup]
      · have : (x == a) = false := by simpa using hx
        simp [List.lookup, this]

theorem keys_ensure (e : List (α × List α)) (a x : α) :
    x ∈ (ensure e a).map Prod.fst ↔ x = a ∨ x ∈ e.map Prod.fst := by
  unfold ensure
  split_ifs with h
  · constructor
    · exact Or.inr
    · rintro (rfl | h'); exacts [h, h']
  · simp only [List.map_append, List.mem_append, List.map_cons, List.map_nil, List.mem_singleton]
    tauto

theorem nodup_ensure (e : List (α × List α)) (a : α) (h : (e.map Prod.fst).Nodup) :
    ((ensure e a).map Prod.fst).Nodup := by
  unfold ensure
  split_ifs with h'
  · exact h
  · rw [List.map_append, List.nodup_append]
    refine ⟨h, by simp, ?_⟩
    intro x hx y hy
    simp at hy
    subst hy
    intro hxy
    subst hxy
    exact h' hx

theorem keys_link (e : List (α × List α)) (a b : α) : (link e a b).map Prod.fst = e.map Prod.fst := by
  unfold link
  rw [List.map_map]
  apply List.map_congr_left
  intro p _
  simp only [Function.comp]
  split_ifs <;> rfl

theorem lookup_link (e : List (α × List α)) (a b x : α) :
    ((link e a b).lookup x).getD [] =
      if x = a ∧ a ∈ e.map Prod.fst then
        (if b ∈ (e.lookup a).getD [] then (e.lookup a).getD [] else (e.lookup a).getD [] ++ [b])
      else (e.lookup x).getD [] := by
  induction e with
  | nil => simp [link]
  | cons p e ih =>
    obtain ⟨k, l⟩ := p
    simp only [link, List.map_cons] at ih ⊢
    by_cases hk : k = a
    · subst hk
      by_cases hx : x = k
      · subst hx; simp [List.lookup]
      · have : (x == k) = false := by simpa using hx
        simp only [if_true, List.lookup, this, ih, hx, false_and, if_false]
    · by_cases hx : x = k
      · subst hx; simp [List.lookup, hk]
      · have h1 : (x == k) = false := by simpa using hx
        simp only [if_neg hk, List.lookup, h1, ih]
        by_cases hxa : x = a
        · subst hxa
          have : (x == k) = false := h1
          simp only [true_and, List.mem_cons, hx, false_or, this]
        · simp [hxa]

/-- The invariant of all reachable graphs. -/
structure Good (g : G α) : Prop where
  keys : (g.edges.map Prod.fst).Nodup
  keysNodes : ∀ a ∈ g.edges.map Prod.fst, a ∈ g.nodes
  nbrNodup : ∀ a, (nbrs g a).Nodup
  nbrNode : ∀ a b, b ∈ nbrs g a → a ∈ g.nodes ∧ b ∈ g.nodes
  symm : ∀ a b, b ∈ nbrs g a ↔ a ∈ nbrs g b

theorem nbrs_addEdge (g : G α) (a b : α) (ha : a ∈ g.nodes) (hb : b ∈ g.nodes) :
    ∃ g', addEdge g a b = some g' ∧ g'.nodes = g.nodes ∧
      (∀ x, nbrs g' x =
        let l := if x = a then (if b ∈ nbrs g a then nbrs g a else nbrs g a ++ [b]) else nbrs g x
        if x = b then (if a ∈ l then l else l ++ [a]) else l) ∧
      (∀ y, y ∈ g'.edges.map Prod.fst ↔ y = a ∨ y = b ∨ y ∈ g.edges.map Prod.fst) ∧
      ((g.edges.map Prod.fst).Nodup → (g'.edges.map Prod.fst).Nodup) := by
  unfold addEdge
  rw [if_pos ha, if_pos hb]
  refine ⟨_, rfl, rfl, ?_, ?_, ?_⟩
  · intro x
    simp only [nbrs]
    have hka : a ∈ (ensure (ensure g.edges a) b).map Prod.fst := by
      simp [keys_ensure]
    have hkb : b ∈ (link (ensure (ensure g.edges a) b) a b).map Prod.fst := by
      rw [keys_link]; simp [keys_ensure]
    have h1 : ∀ y, ((link (ensure (ensure g.edges a) b) a b).lookup y).getD [] =
        if y = a then (if b ∈ (g.edges.lookup a).getD [] then (g.edges.lookup a).getD []
          else (g.edges.lookup a).getD [] ++ [b]) else (g.edges.lookup y).getD [] := by
      intro y
      rw [lookup_link]
      simp only [hka, and_true, lookup_ensure]
    rw [lookup_link]
    simp only [hkb, and_true, h1]
    by_cases hx : x = b
    · subst hx; rw [if_pos rfl, if_pos rfl]; congr
    · rw [if_neg hx, if_neg hx]; congr
  · intro y
    simp only [keys_link, keys_ensure]; tauto
  · intro h
    simp only [keys_link]
    exact nodup_ensure _ _ (nodup_ensure _ _ h)

theorem mem_nbrs_addEdge (g g' : G α) (a b : α) (h : addEdge g a b = some g') (x y : α) :
    y ∈ nbrs g' x ↔ y ∈ nbrs g x ∨ (x = a ∧ y = b) ∨ (x = b ∧ y = a) := by
  have ha : a ∈ g.nodes := by by_contra hn; simp [addEdge, hn] at h
  have hb : b ∈ g.nodes := by by_contra hn; simp [addEdge, hn] at h
  obtain ⟨g'', h1, _, h3, _⟩ := nbrs_addEdge g a b ha hb
  rw [h] at h1
  cases h1
  rw [h3 x]
  by_cases hxa : x = a
  · by_cases hxb : x = b
    · subst hxa; subst hxb
      simp only [if_true]
      split_ifs <;> simp_all
    · subst hxa
      simp only [if_true, if_neg hxb]
      split_ifs with h5
      · constructor
        · exact Or.inl
        · rintro (h6 | ⟨_, rfl⟩ | ⟨h6, _⟩)
          exacts [h6, h5, absurd h6 hxb]
      · simp [hxb]
  · by_cases hxb : x = b
    · subst hxb
      simp only [if_true, if_neg hxa]
      split_ifs with h5
      · constructor
        · exact Or.inl
        · rintro (h6 | ⟨h6, _⟩ | ⟨_, rfl⟩)
          exacts [h6, absurd h6 hxa, h5]
      · simp [hxa]
    · simp [hxa, hxb]

theorem good_empty : Good (empty : G α) :=
  ⟨by simp [empty], by simp [empty], by simp [nbrs, empty], by simp [nbrs, empty],
    by simp [nbrs, empty]⟩

theorem good_step (g : G α) (hg : Good g) (op : Op α) : Good (step g op) := by
  cases op with
  | node a ok =>
    simp only [step, addNode]
    split_ifs with h1 h2
    · exact hg
    · refine ⟨hg.keys, ?_, hg.nbrNodup, ?_, hg.symm⟩
      · intro x hx; simp only [Option.getD_some, List.mem_append]; exact Or.inl (hg.keysNodes x hx)
      · intro x y hxy
        have := hg.nbrNode x y hxy
        simp only [Option.getD_some, List.mem_append]
        exact ⟨Or.inl this.1, Or.inl this.2⟩
    · exact hg
  | edge a b =>
    simp only [step]
    cases h : addEdge g a b with
    | none => exact hg
    | some g' =>
      simp only [Option.getD_some]
      have ha : a ∈ g.nodes := by by_contra hn; simp [addEdge, hn] at h
      have hb : b ∈ g.nodes := by by_contra hn; simp [addEdge, hn] at h
      obtain ⟨g'', h1, h2, h3, h4, h5⟩ := nbrs_addEdge g a b ha hb
      rw [h] at h1
      cases h1
      refine ⟨h5 hg.keys, ?_, ?_, ?_, ?_⟩
      · intro x hx
        rw [h2]
        rcases (h4 x).1 hx with rfl | rfl | hx
        exacts [ha, hb, hg.keysNodes x hx]
      · intro x
        rw [h3 x]
        have hn : ∀ (l : List α) (c : α), l.Nodup → c ∉ l → (l ++ [c]).Nodup := by
          intro l c hl hc
          rw [List.nodup_append]
          refine ⟨hl, by simp, ?_⟩
          intro y hy z hz
          simp at hz
          subst hz
          rintro rfl
          exact hc hy
        have hl1 : (if x = a then (if b ∈ nbrs g a then nbrs g a else nbrs g a ++ [b])
            else nbrs g x).Nodup := by
          split_ifs with h6 h7
          · exact hg.nbrNodup a
          · exact hn _ _ (hg.nbrNodup a) h7
          · exact hg.nbrNodup x
        simp only
        by_cases hxb : x = b
        · rw [if_pos hxb]
          split_ifs with h6
          · exact hg.nbrNodup a
          · exact hn _ _ (hg.nbrNodup a) (by assumption)
          · exact hn _ _ (hg.nbrNodup a) (by assumption)
          · exact hn _ _ (hn _ _ (hg.nbrNodup a) (by assumption)) (by assumption)
          · exact hg.nbrNodup x
          · exact hn _ _ (hg.nbrNodup x) (by assumption)
        · rw [if_neg hxb]; exact hl1
      · intro x y hxy
        rw [h2]
        rw [mem_nbrs_addEdge g g' a b h] at hxy
        rcases hxy with h6 | ⟨rfl, rfl⟩ | ⟨rfl, rfl⟩
        exacts [hg.nbrNode x y h6, ⟨ha, hb⟩, ⟨hb, ha⟩]
      · intro x y
        rw [mem_nbrs_addEdge g g' a b h, mem_nbrs_addEdge g g' a b h, hg.symm x y]
        tauto

theorem good_run (ops : List (Op α)) : Good (run ops) := by
  unfold run
  have : ∀ (ops : List (Op α)) (g : G α), Good g → Good (ops.foldl step g) := by
    intro ops
    induction ops with
    | nil => intro g h; exact h
    | cons x xs ih => intro g h; exact ih _ (good_step g h x)
  exact this ops empty good_empty

/-- **C59, structure.** After any history: neighbourhood is symmetric, without repetition, and only
between existing nodes. -/
theorem graph_undirected (ops : List (Op α)) :
    (∀ a b, b ∈ nbrs (run ops) a ↔ a ∈ nbrs (run ops) b) ∧
    (∀ a, (nbrs (run ops) a).Nodup) ∧
    (∀ a b, b ∈ nbrs (run ops) a → a ∈ (run ops).nodes ∧ b ∈ (run ops).nodes) :=
  ⟨(good_run ops).symm, (good_run ops).nbrNodup, (good_run ops).nbrNode⟩

/-- **C59, nodes.** `add_node` is accepted exactly when the name is new and the coordinates are numbers; then it adds that one
node and no edge. Otherwise it raises. -/
theorem add_node_spec (g : G α) (a : α) (ok : Bool) :
    (addNode g a ok = none ↔ a ∈ g.nodes ∨ ok = false) ∧
    ∀ g', addNode g a ok = some g' → (∀ x, x ∈ g'.nodes ↔ x = a ∨ x ∈ g.nodes) ∧ g'.edges = g.edges := by
  unfold addNode
  constructor
  · by_cases h : a ∈ g.nodes <;> cases ok <;> simp [h]
  · intro g' h
    split_ifs at h with h1 h2
    cases h
    refine ⟨fun x => ?_, rfl⟩
    simp [or_comm]

/-- **C59, nodes.** No name is held twice, and `add_edge` is accepted exactly when both ends are nodes. -/
theorem nodes_nodup (ops : List (Op α)) : (run ops).nodes.Nodup := by
  unfold run
  have : ∀ (ops : List (Op α)) (g : G α), g.nodes.Nodup → (ops.foldl step g).nodes.Nodup := by
    intro ops
    induction ops with
    | nil => intro g h; exact h
    | cons x xs ih =>
      intro g h
      refine ih _ ?_
      cases x with
      | node a ok =>
        simp only [step, addNode]
        split_ifs with h1 h2
        · exact h
        · simp only [Option.getD_some]
          rw [List.nodup_append]
          refine ⟨h, by simp, ?_⟩
          rintro x hx y hy rfl
          simp at hy
          exact h1 (hy ▸ hx)
        · exact h
      | edge a b =>
        simp only [step, addEdge]
        split_ifs <;> exact h
  exact this ops empty (by simp [empty])

theorem add_edge_accepted (g : G α) (a b : α) : (addEdge g a b).isSome ↔ a ∈ g.nodes ∧ b ∈ g.nodes := by
  unfold addEdge
  by_cases ha : a ∈ g.nodes <;> by_cases hb : b ∈ g.nodes <;> simp [ha, hb]

/-- **C59, exactness.** Two nodes are neighbours exactly when an accepted `add_edge` joined them (in
either order): nothing is lost, nothing is invented. -/
theorem graph_edges_exact (ops : List (Op α)) (x y : α) :
    y ∈ nbrs (run ops) x ↔ ∃ pre post a b, ops = pre ++ .edge a b :: post ∧
      (addEdge (run pre) a b).isSome ∧ ((x = a ∧ y = b) ∨ (x = b ∧ y = a)) := by
  induction ops using List.reverseRecOn with
  | nil => simp [run, nbrs, empty]
  | append_singleton ops op ih =>
    have e : run (ops ++ [op]) = step (run ops) op := by simp [run]
    rw [e]
    have split : (∃ pre post a b, ops ++ [op] = pre ++ .edge a b :: post ∧
        (addEdge (run pre) a b).isSome ∧ ((x = a ∧ y = b) ∨ (x = b ∧ y = a))) ↔
        (y ∈ nbrs (run ops) x ∨ ∃ a b, op = .edge a b ∧ (addEdge (run ops) a b).isSome ∧
          ((x = a ∧ y = b) ∨ (x = b ∧ y = a))) := by
      rw [ih]
      constructor
      · rintro ⟨pre, post, a, b, h1, h2, h3⟩
        rcases List.eq_nil_or_concat post with rfl | ⟨post', z, rfl⟩
        · have := List.append_inj' h1 rfl
          obtain ⟨rfl, h5⟩ := this
          simp at h5
          exact Or.inr ⟨a, b, h5, h2, h3⟩
        · left
          have h1' : ops ++ [op] = (pre ++ .edge a b :: post') ++ [z] := by
            rw [h1]; simp
          obtain ⟨h6, _⟩ := List.append_inj' h1' rfl
          exact ⟨pre, post', a, b, h6, h2, h3⟩
      · rintro (⟨pre, post, a, b, rfl, h2, h3⟩ | ⟨a, b, rfl, h2, h3⟩)
        · exact ⟨pre, post ++ [op], a, b, by simp, h2, h3⟩
        · exact ⟨ops, [], a, b, rfl, h2, h3⟩
    rw [split]
    cases op with
    | node a ok =>
      have : nbrs (step (run ops) (.node a ok)) x = nbrs (run ops) x := by
        simp only [step, addNode]; split_ifs <;> rfl
      rw [this]; simp
    | edge a b =>
      simp only [step]
      cases h : addEdge (run ops) a b with
      | none => simp [h]
      | some g' =>
        simp only [Option.getD_some]
        rw [mem_nbrs_addEdge _ _ _ _ h]
        constructor
        · rintro (h1 | h1)
          · exact Or.inl h1
          · exact Or.inr ⟨a, b, rfl, by simp [h], h1⟩
        · rintro (h1 | ⟨a', b', h2, _, h1⟩)
          · exact Or.inl h1
          · cases h2; exact Or.inr h1

/-! ### Drawing -/

theorem mem_directed (g : G α) (hg : Good g) (a b : α) :
    (a, b) ∈ directed g ↔ b ∈ nbrs g a := by
  unfold directed nbrs
  have hk := hg.keys
  generalize g.edges = e at hk
  clear hg
  induction e with
  | nil => simp
  | cons p e ih =>
    obtain ⟨k, l⟩ := p
    simp only [List.map_cons, List.nodup_cons] at hk
    have h' := ih hk.2
    rw [List.flatMap_cons, List.mem_append]
    refine (or_congr Iff.rfl h').trans ?_
    by_cases hka : a = k
    · subst hka
      have : e.lookup a = none := by
        rw [List.lookup_eq_none_iff]
        intro p hp
        simp only [beq_eq_false_iff_ne, ne_eq, bne_iff_ne]
        rintro rfl
        exact hk.1 (List.mem_map.2 ⟨p, hp, rfl⟩)
      simp [List.lookup, this]
    · have h1 : (a == k) = false := by simpa using hka
      simp [List.lookup, h1, Ne.symm hka]

theorem directed_nodup (g : G α) (hg : Good g) : (directed g).Nodup := by
  have hn := hg.nbrNodup
  have hk := hg.keys
  unfold nbrs at hn
  unfold directed
  generalize g.edges = e at hk hn
  clear hg
  induction e with
  | nil => simp
  | cons p e ih =>
    obtain ⟨k, l⟩ := p
    simp only [List.map_cons, List.nodup_cons] at hk
    rw [List.flatMap_cons, List.nodup_append]
    refine ⟨?_, ih hk.2 ?_, ?_⟩
    · have := hn k
      simp [List.lookup] at this
      exact this.map (fun x y h => by simpa using h)
    · intro a
      by_cases hka : a = k
      · subst hka
        have : e.lookup a = none := by
          rw [List.lookup_eq_none_iff]
          intro p hp
          simp only [beq_eq_false_iff_ne, ne_eq, bne_iff_ne]
          rintro rfl
          exact hk.1 (List.mem_map.2 ⟨p, hp, rfl⟩)
        simp [this]
      · have h1 : (a == k) = false := by simpa using hka
        have := hn a
        simpa [List.lookup, h1] using this
    · rintro ⟨a, b⟩ h1 ⟨c, d⟩ h2 h3
      obtain ⟨z, _, hz⟩ := List.mem_map.1 h1
      obtain ⟨q, hq, h2⟩ := List.mem_flatMap.1 h2
      obtain ⟨w, _, hw⟩ := List.mem_map.1 h2
      simp only [Prod.mk.injEq] at hz hw h3
      apply hk.1
      refine List.mem_map.2 ⟨q, hq, ?_⟩
      rw [hw.1, ← h3.1, ← hz.1]

/-- State of the loop after the prefix `done`. -/
structure Vis (done : List (α × α)) (s : List (α × α) × Nat) : Prop where
  sub : ∀ e ∈ s.1, e ∈ done
  nodup : s.1.Nodup
  cover : ∀ e ∈ done, e ∈ s.1 ∨ (e.2, e.1) ∈ s.1
  once : ∀ a b, a ≠ b → (a, b) ∈ s.1 → (b, a) ∉ s.1
  count : s.2 + s.1.length = done.length
  loops : ∀ a, (a, a) ∈ done → (a, a) ∈ s.1

theorem vis_step (done : List (α × α)) (s : List (α × α) × Nat) (e : α × α) (h : Vis done s)
    (hn : e ∉ done) : Vis (done ++ [e]) (visit s e) := by
  obtain ⟨a, b⟩ := e
  unfold visit
  simp only
  split_ifs with h1
  · refine ⟨?_, h.nodup, ?_, h.once, ?_, ?_⟩
    · intro e he; exact List.mem_append_left _ (h.sub e he)
    · intro e he
      rcases List.mem_append.1 he with h2 | h2
      · exact h.cover e h2
      · simp at h2; subst h2; exact Or.inr h1
    · have := h.count
      simp; omega
    · intro c hc
      rcases List.mem_append.1 hc with h2 | h2
      · exact h.loops c h2
      · simp at h2
        obtain ⟨rfl, rfl⟩ := h2
        exact h1
  · refine ⟨?_, ?_, ?_, ?_, ?_, ?_⟩
    · intro e he
      rcases List.mem_append.1 he with h2 | h2
      · exact List.mem_append_left _ (h.sub e h2)
      · exact List.mem_append_right _ h2
    · rw [List.nodup_append]
      refine ⟨h.nodup, by simp, ?_⟩
      intro x hx y hy
      simp at hy
      subst hy
      rintro rfl
      exact hn (h.sub _ hx)
    · intro e he
      rcases List.mem_append.1 he with h2 | h2
      · rcases h.cover e h2 with h3 | h3
        · exact Or.inl (List.mem_append_left _ h3)
        · exact Or.inr (List.mem_append_left _ h3)
      · exact Or.inl (List.mem_append_right _ h2)
    · intro c d hcd h2 h3
      rcases List.mem_append.1 h2 with g2 | g2
      · rcases List.mem_append.1 h3 with g3 | g3
        · exact h.once c d hcd g2 g3
        · simp at g3
          obtain ⟨rfl, rfl⟩ := g3
          exact h1 g2
      · simp at g2
        obtain ⟨rfl, rfl⟩ := g2
        rcases List.mem_append.1 h3 with g3 | g3
        · exact h1 g3
        · simp at g3
          exact hcd g3.2
    · have := h.count
      simp; omega
    · intro c hc
      rcases List.mem_append.1 hc with h2 | h2
      · exact List.mem_append_left _ (h.loops c h2)
      · exact List.mem_append_right _ h2

theorem vis_fold (L : List (α × α)) (hL : L.Nodup) : Vis L (L.foldl visit ([], 0)) := by
  have : ∀ (todo done : List (α × α)) (s : List (α × α) × Nat), (done ++ todo).Nodup →
      Vis done s → Vis (done ++ todo) (todo.foldl visit s) := by
    intro todo
    induction todo with
    | nil => intro done s _ h; simpa using h
    | cons e todo ih =>
      intro done s hn h
      rw [List.foldl_cons]
      have hn' : (done ++ [e] ++ todo).Nodup := by simpa using hn
      have he : e ∉ done := by
        intro hd
        rw [List.nodup_append] at hn
        exact hn.2.2 e hd e (by simp) rfl
      have := ih (done ++ [e]) (visit s e) hn' (vis_step done s e h he)
      simpa using this
  have := this L [] ([], 0) (by simpa using hL)
    ⟨by simp, by simp, by simp, by simp, by simp, by simp⟩
  simpa using this

/-- **C59, drawing visits each edge once.** After any history, every undirected edge `{a, b}` is drawn
in exactly one of the two directions and once, and nothing else is drawn. -/
theorem draw_visits_once (ops : List (Op α)) :
    (drawn (run ops)).Nodup ∧
    (∀ a b, b ∈ nbrs (run ops) a → (a, b) ∈ drawn (run ops) ∨ (b, a) ∈ drawn (run ops)) ∧
    (∀ a b, a ≠ b → (a, b) ∈ drawn (run ops) → (b, a) ∉ drawn (run ops)) ∧
    (∀ a b, (a, b) ∈ drawn (run ops) → b ∈ nbrs (run ops) a) := by
  have hg := good_run ops
  have v := vis_fold _ (directed_nodup _ hg)
  refine ⟨v.nodup, ?_, v.once, ?_⟩
  · intro a b h
    exact v.cover (a, b) ((mem_directed _ hg a b).2 h)
  · intro a b h
    exact (mem_directed _ hg a b).1 (v.sub _ h)

/-- **C59, partial: the assertion.** The routine completes exactly when no node is its own neighbour.
Missing: graphs with self loops, see `draw_self_loop_refuted`. -/
theorem draw_completes_iff_partial (ops : List (Op α)) :
    draw (run ops) = some (drawn (run ops)) ↔ ∀ a, a ∉ nbrs (run ops) a := by
  have hg := good_run ops
  have hL := directed_nodup _ hg
  have v := vis_fold _ hL
  set P := ((directed (run ops)).foldl visit ([], 0)).1 with hP
  -- skipped edges are the reverses of the drawn edges that are no loops
  have hperm : ((directed (run ops)).filter (fun e => decide (e ∉ P))).Perm
      ((P.filter (fun e => decide (e.1 ≠ e.2))).map (fun e => (e.2, e.1))) := by
    rw [List.perm_ext_iff_of_nodup (hL.filter _)]
    · rintro ⟨a, b⟩
      simp only [List.mem_filter, decide_eq_true_eq, List.mem_map, Prod.mk.injEq, Prod.exists]
      constructor
      · rintro ⟨h1, h2⟩
        have hr : (b, a) ∈ P := (v.cover (a, b) h1).resolve_left h2
        refine ⟨b, a, ⟨hr, ?_⟩, rfl, rfl⟩
        rintro rfl
        exact h2 hr
      · rintro ⟨x, y, ⟨h1, h2⟩, rfl, rfl⟩
        refine ⟨?_, v.once x y h2 h1⟩
        have := (mem_directed _ hg x y).1 (v.sub _ h1)
        exact (mem_directed _ hg y x).2 ((hg.symm x y).1 this)
    · apply List.Nodup.map
      · rintro ⟨a, b⟩ ⟨c, d⟩ h
        simp only [Prod.mk.injEq] at h
        rw [h.1, h.2]
      · exact v.nodup.filter _
  have hlen := hperm.length_eq
  rw [List.length_map] at hlen
  have hin : ((directed (run ops)).filter (fun e => decide (e ∈ P))).Perm P := by
    rw [List.perm_ext_iff_of_nodup (hL.filter _) v.nodup]
    intro e
    simp only [List.mem_filter, decide_eq_true_eq]
    exact ⟨fun h => h.2, fun h => ⟨v.sub e h, h⟩⟩
  have hsum := List.length_eq_length_filter_add (l := directed (run ops)) (fun e => decide (e ∈ P))
  have hneg : (directed (run ops)).filter (fun e => !decide (e ∈ P)) =
      (directed (run ops)).filter (fun e => decide (e ∉ P)) := by
    apply List.filter_congr
    intro e _
    by_cases h : e ∈ P <;> simp [h]
  rw [hneg, hin.length_eq, hlen] at hsum
  have hcount := v.count
  rw [← hP] at hcount
  have hskip : ((directed (run ops)).foldl visit ([], 0)).2 =
      (P.filter (fun e => decide (e.1 ≠ e.2))).length := by omega
  have hdraw : draw (run ops) = some (drawn (run ops)) ↔
      (P.filter (fun e => decide (e.1 ≠ e.2))).length = P.length := by
    unfold draw drawn
    simp only
    rw [hskip, ← hP]
    by_cases h : (P.filter (fun e => decide (e.1 ≠ e.2))).length = P.length
    · rw [if_pos h]; exact ⟨fun _ => h, fun _ => rfl⟩
    · rw [if_neg h]; exact ⟨fun e => (by cases e), fun e => absurd e h⟩
  rw [hdraw, List.length_filter_eq_length_iff]
  constructor
  · intro h a ha
    have := v.loops a ((mem_directed _ hg a a).2 ha)
    have := h _ this
    simp at this
  · rintro h ⟨a, b⟩ he
    simp only [decide_eq_true_eq]
    rintro rfl
    exact h a ((mem_directed _ hg a a).1 (v.sub _ he))

/-- **C59 refuted for self loops**: `add_edge(0, 0)` is accepted, and then the routine fails. -/
theorem draw_self_loop_refuted :
    ∃ ops : List (Op Nat), (addEdge (run [.node 0 true]) 0 0).isSome ∧
      ops = [.node 0 true, .edge 0 0] ∧ draw (run ops) = none :=
  ⟨_, by decide +kernel, rfl, by decide +kernel⟩

/-- The graph of the file's main block. -/
example : let ops : List (Op Nat) := [.node 0 true, .node 1 true, .node 2 true, .node 3 true,
      .edge 0 1, .edge 1 2, .edge 1 3, .edge 3 1]
    draw (run ops) = some [(0, 1), (1, 2), (1, 3)] ∧ nbrs (run ops) 1 = [0, 2, 3] := by
  decide +kernel

end Phyem.Graph
