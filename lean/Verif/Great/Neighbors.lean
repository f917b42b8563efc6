import Verif.Great.Lemmas

/-!
C81: the neighbours of an element.
-/

namespace Phyem.Great

open Phyem.Dict

/-- Every face of every element type is a side of the reference element, with the nodes in the order of the corners. -/
theorem faces_are_sides (s : Shape) : faces s = (sides s).map (nodesOn s) := faces_eq s

/-- The table of neighbours can always be made. It has a row per element, in the order of the elements, and a row has
an entry per face. -/
theorem neighbors_total (mesh : Mesh) (hn : (keys mesh).Nodup) :
    ∃ nb, neighbors mesh = some nb ∧ keys nb = keys mesh ∧
      ∀ e s row, get mesh e = some s → get nb e = some row → row.length = (sides s).length := by
  obtain ⟨nb, h, hd⟩ := neighbors_done mesh hn
  refine ⟨nb, h, hd.keys_eq, fun e s row hs hr => ?_⟩
  rw [hd.length_eq e s row hs hr, faces_eq, List.length_map]

/-- The entry of a face is `e'` when exactly one other position has the same nodes and that position is a face of
`e'`. -/
theorem neighbors_right (mesh : Mesh) (hn : (keys mesh).Nodup) (nb : Dict ℕ (List (Option ℕ)))
    (h : neighbors mesh = some nb) (e f : ℕ) (row : List (Option ℕ)) (v : Option ℕ)
    (hr : get nb e = some row) (hv : row[f]? = some v) (e' : ℕ) :
    v = some e' ↔ ∃ q, q.1 = e' ∧ Meet mesh (e, f) q ∧ ∀ q', Meet mesh (e, f) q' → q' = q := by
  obtain ⟨nb', h', hd⟩ := neighbors_done mesh hn
  obtain rfl := Option.some.inj (h.symm.trans h')
  rw [hd.entry e f row v hr hv e']
  constructor
  · rintro ⟨k, p, q, hm, hpq⟩
    have hnd := nodup_entry mesh hn k _ hm
    have hne : p ≠ q := by simpa using hnd
    have key : ∀ a b : Position, (∀ x, x ∈ [p, q] ↔ x = a ∨ x = b) → a ≠ b → a = (e, f) → b.1 = e' →
        ∃ q, q.1 = e' ∧ Meet mesh (e, f) q ∧ ∀ q', Meet mesh (e, f) q' → q' = q := by
      intro a b hab hne hae hb
      have hin : ∀ x, x = a ∨ x = b ↔ ∃ n, FaceAt mesh x n ∧ sorted n = k := fun x => by
        rw [← hab, mem_entry mesh hn k _ hm]
      obtain ⟨n, hn1, hn2⟩ := (hin a).1 (.inl rfl)
      obtain ⟨n', hn1', hn2'⟩ := (hin b).1 (.inr rfl)
      subst hae
      refine ⟨b, hb, ⟨hne, n, n', hn1, hn1', (sorted_eq_iff _ _).1 (hn2.trans hn2'.symm)⟩, ?_⟩
      rintro q' ⟨hne', m, m', hm1, hm1', hperm⟩
      obtain rfl := hm1.unique hn1
      rcases (hin q').2 ⟨m', hm1', by rw [← (sorted_eq_iff _ _).2 hperm, hn2]⟩ with h | h
      · exact absurd h.symm hne'
      · exact h
    rcases hpq with ⟨h1, h2⟩ | ⟨h1, h2⟩
    · exact key p q (by simp) hne h1 h2
    · exact key q p (by simp [or_comm]) hne.symm h1 h2
  · rintro ⟨q, hq, ⟨hne, n, n', hn1, hn1', hperm⟩, huniq⟩
    obtain ⟨ps, hps, hin⟩ := exists_entry mesh hn (e, f) n hn1
    have hmem := mem_entry mesh hn _ ps hps
    have hnd := nodup_entry mesh hn _ ps hps
    have hq' : q ∈ ps := (hmem q).2 ⟨n', hn1', ((sorted_eq_iff _ _).2 hperm).symm⟩
    have hall : ∀ x, x ∈ ps ↔ x ∈ [(e, f), q] := by
      intro x
      simp only [List.mem_cons, List.not_mem_nil, or_false]
      constructor
      · intro hx
        by_cases hxe : x = (e, f)
        · exact .inl hxe
        · obtain ⟨m, hm1, hm2⟩ := (hmem x).1 hx
          exact .inr (huniq x ⟨fun h => hxe h.symm, n, m, hn1, hm1, (sorted_eq_iff _ _).1 hm2.symm⟩)
      · rintro (rfl | rfl)
        · exact hin
        · exact hq'
    have hperm2 : ps.Perm [(e, f), q] :=
      (List.perm_ext_iff_of_nodup hnd (by simp [hne])).2 hall
    have hlen := hperm2.length_eq
    obtain ⟨a, b, rfl⟩ : ∃ a b, ps = [a, b] := by
      match ps, hlen with
      | [a, b], _ => exact ⟨a, b, rfl⟩
    refine ⟨_, a, b, hps, ?_⟩
    have ha := (hall a).1 (by simp)
    have hb := (hall b).1 (by simp)
    have hab : a ≠ b := by simpa using hnd
    simp only [List.mem_cons, List.not_mem_nil, or_false] at ha hb
    rcases ha with rfl | rfl
    · rcases hb with rfl | rfl
      · exact absurd rfl hab
      · exact .inl ⟨rfl, hq⟩
    · rcases hb with rfl | rfl
      · exact .inr ⟨rfl, hq⟩
      · exact absurd rfl hab

/-- Neighbours are mutual: when `e'` is the neighbour of `e` at a face, `e` is the neighbour of `e'` at the face with
the same nodes. -/
theorem neighbors_mutual (mesh : Mesh) (hn : (keys mesh).Nodup) (nb : Dict ℕ (List (Option ℕ)))
    (h : neighbors mesh = some nb) (e f e' : ℕ) (row : List (Option ℕ)) (hr : get nb e = some row)
    (hv : row[f]? = some (some e')) :
    ∃ f' row', Meet mesh (e, f) (e', f') ∧ get nb e' = some row' ∧ row'[f']? = some (some e) := by
  obtain ⟨⟨e1, f'⟩, hq, hmeet, huniq⟩ := (neighbors_right mesh hn nb h e f row _ hr hv e').1 rfl
  dsimp only at hq
  subst hq
  obtain ⟨nb', h', hk, hlen⟩ := neighbors_total mesh hn
  obtain rfl := Option.some.inj (h.symm.trans h')
  obtain ⟨hne, n, n', hn1, hn2, hperm⟩ := hmeet
  obtain ⟨s, hs, side, hside, -⟩ := id hn2
  have hk' : e1 ∈ keys nb := by rw [hk]; exact (get_isSome _ _).1 (by rw [hs]; rfl)
  obtain ⟨row', hrow'⟩ := Option.isSome_iff_exists.1 ((get_isSome nb e1).2 hk')
  have hlt : f' < row'.length := by
    rw [hlen _ _ _ hs hrow']
    exact (List.getElem?_eq_some_iff.1 hside).1
  refine ⟨f', row', ⟨hne, n, n', hn1, hn2, hperm⟩, hrow', ?_⟩
  have hv' : row'[f']? = some row'[f'] := List.getElem?_eq_getElem hlt
  rw [hv']
  congr 1
  refine (neighbors_right mesh hn nb h e1 f' row' _ hrow' hv' e).2 ⟨(e, f), rfl, ⟨hne.symm, n', n, hn2, hn1, hperm.symm⟩, ?_⟩
  rintro q' ⟨hne', m, m', hm, hm', hperm'⟩
  obtain rfl := hm.unique hn2
  by_contra hq'
  have := huniq q' ⟨fun h => hq' h.symm, n, m', hn1, hm', hperm.trans hperm'⟩
  exact hne' this.symm

/-- Where no face has more than two positions, a face without neighbour is a face that no other one meets. -/
theorem no_neighbor_iff (mesh : Mesh) (hn : (keys mesh).Nodup)
    (h2 : ∀ p q q', Meet mesh p q → Meet mesh p q' → q = q') (nb : Dict ℕ (List (Option ℕ)))
    (h : neighbors mesh = some nb) (e f : ℕ) (row : List (Option ℕ)) (v : Option ℕ)
    (hr : get nb e = some row) (hv : row[f]? = some v) :
    v = none ↔ ∀ q, ¬ Meet mesh (e, f) q := by
  have key := neighbors_right mesh hn nb h e f row v hr hv
  constructor
  · rintro rfl q hq
    have := (key q.1).2 ⟨q, rfl, hq, fun q' hq' => h2 _ _ _ hq' hq⟩
    cases this
  · intro hno
    cases v with
    | none => rfl
    | some e' =>
      obtain ⟨q, -, hq, -⟩ := (key e').1 rfl
      exact absurd hq (hno q)

/-- Three triangles and a quad round an inner node, and what the code says of them. -/
def fan : Mesh := [(7, .tri 0 1 2), (3, .tri 0 2 3), (9, .ccw 0 3 4 5), (1, .quad 0 5 1 6)]

example : (keys fan).Nodup := by decide

example : neighbors fan = some [(7, [some 1, none, some 3]), (3, [some 7, none, some 9]),
    (9, [some 1, none, some 3, none]), (1, [some 7, none, some 9, none])] := by decide +kernel

example : Meet fan (7, 2) (3, 0) :=
  ⟨by decide, [0, 2], [0, 2], ⟨_, rfl, _, rfl, rfl⟩, ⟨_, rfl, _, rfl, rfl⟩, .refl _⟩

/-- Without the hypothesis the claim is false: of three faces on the same nodes none has a neighbour, as if they were
on the boundary. -/
theorem no_neighbor_iff_refuted :
    ¬ ∀ (mesh : Mesh), (keys mesh).Nodup → ∀ (nb : Dict ℕ (List (Option ℕ))), neighbors mesh = some nb →
      ∀ (e f : ℕ) (row : List (Option ℕ)) (v : Option ℕ), get nb e = some row → row[f]? = some v →
      (v = none ↔ ∀ q, ¬ Meet mesh (e, f) q) := by
  intro h
  have := (h [(0, .tri 0 1 2), (1, .tri 0 1 3), (2, .tri 0 1 4)] (by decide)
    [(0, [none, none, none]), (1, [none, none, none]), (2, [none, none, none])] (by decide +kernel)
    0 0 [none, none, none] none rfl rfl).1 rfl (1, 0)
  exact this ⟨by decide, [0, 1], [0, 1], ⟨_, rfl, _, rfl, rfl⟩, ⟨_, rfl, _, rfl, rfl⟩, .refl _⟩

/-- Two quads one above the other on a mesh that is periodic in that direction (nodes `0`, `1` on one side of it and
`2`, `3` on the other): every side face has both its nodes in common with a side face of the other element, which is
elsewhere, and the code takes the one for the other. -/
theorem two_layers_refuted :
    neighbors [(0, .quad 0 1 2 3), (1, .quad 1 0 3 2)] =
      some [(0, [some 1, some 1, some 1, some 1]), (1, [some 0, some 0, some 0, some 0])] := by decide +kernel

end Phyem.Great
