import Verif.PoolGM.Lemmas

/-!
The numbering of a mesh is right when the blocks of every element fit its places.
-/

namespace Phyem.PoolGM

variable {rev : Bool}

theorem PInv.mono {F : List ℕ → ℕ × ℕ} {done done' : ℕ → Cell → Prop} {st : St} {log : Place → ℕ → Prop}
    (h : PInv rev F done st log) (hd : ∀ e c, done e c → done' e c) : PInv rev F done' st log :=
  ⟨h.core, h.nodeGet, h.nodeLog, h.poolGet, h.poolLog, fun e c n hk => hd e c (h.insideLog e c n hk)⟩

theorem logWith_append (log : Place → ℕ → Prop) (pl : Cell → Place) (w w' : List (Cell × ℕ)) :
    logWith (logWith log pl w) pl w' = logWith log pl (w ++ w') := by
  funext k n
  simp only [logWith, List.mem_append, eq_iff_iff]
  constructor
  · rintro ((h | ⟨c, h, e⟩) | ⟨c, h, e⟩)
    · exact Or.inl h
    · exact Or.inr ⟨c, Or.inl h, e⟩
    · exact Or.inr ⟨c, Or.inr h, e⟩
  · rintro (h | ⟨c, h | h, e⟩)
    · exact Or.inl (Or.inl h)
    · exact Or.inl (Or.inr ⟨c, h, e⟩)
    · exact Or.inr ⟨c, h, e⟩

/-- All cells of a block. -/
def blockCells : Block → List Cell
  | .node _ cells => cells
  | .ent _ _ _ cells => cells
  | .inner cells => cells

theorem block_cells {st st' : St} {b : Block} {w : List (Cell × ℕ)}
    (hr : runBlock rev st b = some (w, st')) : ∀ x ∈ w, x.1 ∈ blockCells b := by
  have key : ∀ {cut sh l tgt} {cells : List Cell} {w : List (Cell × ℕ)}, assign cut sh l tgt cells = some w →
      ∀ x ∈ w, x.1 ∈ cells := by
    intro cut sh l tgt cells w h x hx
    unfold assign at h
    split_ifs at h
    simp only [Option.some.injEq] at h
    subst h
    simp only [List.mem_filterMap, Option.map_eq_some_iff] at hx
    obtain ⟨⟨c, t⟩, hm, n, -, rfl⟩ := hx
    have hm := List.mem_zipIdx_iff_getElem?.1 hm
    exact List.mem_of_getElem? hm
  cases b with
  | node v cells =>
    simp only [runBlock] at hr
    cases hg : Dict.get st.nodes v <;> simp only [hg, Option.some.injEq, Prod.mk.injEq] at hr <;>
      obtain ⟨rfl, -⟩ := hr <;> intro x hx <;> simp only [List.mem_map] at hx <;>
      obtain ⟨c, hc, rfl⟩ := hx <;> exact hc
  | ent cut k shape cells =>
    simp only [runBlock] at hr
    cases hg : Dict.get st.pool k with
    | some x =>
      simp only [hg, Option.map_eq_some_iff, Prod.mk.injEq] at hr
      obtain ⟨w', ha, rfl, -⟩ := hr
      exact key ha
    | none =>
      simp only [hg] at hr
      cases hg' : (if rev = true then Dict.get st.pool k.reverse else none) with
      | some x =>
        simp only [hg', Option.map_eq_some_iff, Prod.mk.injEq] at hr
        obtain ⟨w', ha, rfl, -⟩ := hr
        exact key ha
      | none =>
        simp only [hg', Option.map_eq_some_iff, Prod.mk.injEq] at hr
        obtain ⟨w', ha, rfl, -⟩ := hr
        exact key ha
  | inner cells =>
    simp only [runBlock, Option.some.injEq, Prod.mk.injEq] at hr
    obtain ⟨rfl, -⟩ := hr
    intro x hx
    exact (List.of_mem_zip (a := x.1) (b := x.2) hx).1

theorem blocks_inv {F : List ℕ → ℕ × ℕ} {label : ℕ} {pl : Cell → Place} :
    ∀ {bs : List Block} {done : ℕ → Cell → Prop} {st st' : St} {log : Place → ℕ → Prop}
      {w : List (Cell × ℕ)}, PInv rev F done st log → (∀ b ∈ bs, Fits rev F label pl b) →
      (bs.flatMap innerCells).Nodup → (∀ c ∈ bs.flatMap innerCells, ¬ done label c) →
      runBlocks rev st bs = some (w, st') →
      PInv rev F (fun e c => done e c ∨ e = label ∧ c ∈ bs.flatMap innerCells) st' (logWith log pl w) ∧
        ∀ x ∈ w, x.1 ∈ bs.flatMap blockCells := by
  intro bs
  induction bs with
  | nil =>
    intro done st st' log w h _ _ _ hr
    simp only [runBlocks, Option.some.injEq, Prod.mk.injEq] at hr
    obtain ⟨rfl, rfl⟩ := hr
    have : logWith log pl [] = log := by funext k n; simp [logWith]
    rw [this]
    exact ⟨h.mono fun _ _ => Or.inl, by simp⟩
  | cons b bs ih =>
    intro done st st' log w h hb hnd hd hr
    simp only [runBlocks, Option.bind_eq_some_iff, Option.map_eq_some_iff, Prod.mk.injEq] at hr
    obtain ⟨r, h1, r', h2, rfl, rfl⟩ := hr
    rw [List.flatMap_cons, List.nodup_append] at hnd
    have hi := block_inv h (hb b (by simp)) (fun c hc => hd c (by simp [hc])) h1
    obtain ⟨hj, hw⟩ := ih hi (fun b' hb' => hb b' (by simp [hb'])) hnd.2.1 (by
      rintro c hc (hc' | ⟨-, hc'⟩)
      · exact hd c (by rw [List.flatMap_cons]; exact List.mem_append_right _ hc) hc'
      · exact hnd.2.2 c hc' c hc rfl) h2
    rw [logWith_append] at hj
    refine ⟨hj.mono ?_, ?_⟩
    · rintro e c ((h' | ⟨rfl, h'⟩) | ⟨rfl, h'⟩)
      · exact Or.inl h'
      · exact Or.inr ⟨rfl, by rw [List.flatMap_cons]; exact List.mem_append_left _ h'⟩
      · exact Or.inr ⟨rfl, by rw [List.flatMap_cons]; exact List.mem_append_right _ h'⟩
    · intro x hx
      rw [List.flatMap_cons]
      rcases List.mem_append.1 hx with hx | hx
      · exact List.mem_append_left _ (block_cells h1 x hx)
      · exact List.mem_append_right _ (hw x hx)

theorem array_mem {w : List (Cell × ℕ)} {c : Cell} {n : ℕ} (h : array w c = some n) : (c, n) ∈ w := by
  unfold array at h
  simp only [Option.map_eq_some_iff] at h
  obtain ⟨x, hx, rfl⟩ := h
  have h1 := List.find?_some hx
  have h2 := List.mem_of_find?_eq_some hx
  simp only [beq_iff_eq] at h1
  subst h1
  exact List.mem_reverse.1 h2

theorem ravel_spec {a : Cell → Option ℕ} : ∀ {cs : List Cell} {ns : List ℕ}, ravel a cs = some ns →
    ns.length = cs.length ∧ ∀ i : ℕ, ns[i]? = (cs[i]?).bind a := by
  intro cs
  induction cs with
  | nil =>
    intro ns h
    simp only [ravel, Option.some.injEq] at h
    subst h
    exact ⟨rfl, by simp⟩
  | cons c cs ih =>
    intro ns h
    simp only [ravel, Option.bind_eq_some_iff, Option.map_eq_some_iff] at h
    obtain ⟨n, hn, ns', hns, rfl⟩ := h
    obtain ⟨h1, h2⟩ := ih hns
    refine ⟨by simp [h1], fun i => ?_⟩
    cases i with
    | zero => simp [hn]
    | succ i => simpa using h2 i

/-- What is asked of an element: its blocks fit, and the arrays are ravelled completely. -/
structure ElemOK (rev : Bool) (F : List ℕ → ℕ × ℕ) (x : Elem) (pl : Cell → Place) : Prop where
  fits : ∀ b ∈ x.blocks, Fits rev F x.label pl b
  inner : (x.blocks.flatMap innerCells).Nodup
  order : ∀ c ∈ x.blocks.flatMap blockCells, ∃ c' ∈ x.order, pl c' = pl c
  cover : ∀ c ∈ x.order, c ∈ x.blocks.flatMap blockCells

theorem elem_inv {F : List ℕ → ℕ × ℕ} {x : Elem} {pl : Cell → Place} {done : ℕ → Cell → Prop}
    {st st' : St} {log : Place → ℕ → Prop} {ns : List ℕ} (h : PInv rev F done st log)
    (ok : ElemOK rev F x pl) (hd : ∀ c, ¬ done x.label c)
    (hr : runElem rev st x.blocks x.order = some (ns, st')) :
    ∃ log', PInv rev F (fun e c => done e c ∨ e = x.label) st' log' ∧ (∀ k n, log k n → log' k n) ∧
      ns.length = x.order.length ∧
      (∀ (i : ℕ) (c : Cell) (n : ℕ), x.order[i]? = some c → ns[i]? = some n → log' (pl c) n) ∧
      (∀ k n, log' k n → log k n ∨ n ∈ ns) := by
  unfold runElem at hr
  simp only [Option.bind_eq_some_iff, Option.map_eq_some_iff, Prod.mk.injEq] at hr
  obtain ⟨r, h1, ns', h2, rfl, rfl⟩ := hr
  obtain ⟨hi, hw⟩ := blocks_inv h ok.fits ok.inner (fun c _ => hd c) h1
  obtain ⟨hl, hg⟩ := ravel_spec h2
  refine ⟨_, hi.mono ?_, fun k n hk => Or.inl hk, hl, ?_, ?_⟩
  · rintro e c (h' | ⟨h', -⟩)
    · exact Or.inl h'
    · exact Or.inr h'
  · intro i c n hc hn
    rw [hg, hc, Option.bind_some] at hn
    exact Or.inr ⟨c, array_mem hn, rfl⟩
  · rintro k n (hk | ⟨c, hc, rfl⟩)
    · exact Or.inl hk
    · right
      obtain ⟨c', hc', ec⟩ := ok.order c (hw _ hc)
      obtain ⟨i, hi'⟩ := List.mem_iff_getElem?.1 hc'
      have hlt : i < ns'.length := by rw [hl]; exact (List.getElem?_eq_some_iff.1 hi').1
      have e := hg i
      rw [hi', Option.bind_some, List.getElem?_eq_getElem hlt] at e
      have := (hi.core.same (pl c) n (pl c) ns'[i] (Or.inr ⟨c, hc, rfl⟩)
        (Or.inr ⟨c', array_mem e.symm, ec⟩)).2 (.refl _)
      rw [this]
      exact List.getElem_mem hlt

theorem assign_total (cut : Bool) {sh : ℕ × ℕ} {l : List ℕ} {cells : List Cell} (hl : l.length = sh.1 * sh.2)
    (hc : cells.length = sh.1 * sh.2) :
    ∃ w, assign cut sh l sh cells = some w ∧ ∀ c ∈ cells, ∃ n, (c, n) ∈ w := by
  have e : ∃ w, assign cut sh l sh cells = some w := by
    unfold assign
    rw [if_pos ⟨Or.inl rfl, Or.inl rfl⟩]
    exact ⟨_, rfl⟩
  obtain ⟨w, hw⟩ := e
  refine ⟨w, hw, fun c hcc => ?_⟩
  obtain ⟨t, ht⟩ := List.mem_iff_getElem?.1 hcc
  have hlt : t < l.length := by rw [hl, ← hc]; exact (List.getElem?_eq_some_iff.1 ht).1
  exact ⟨l[t], (mem_assign hl hc hw c _).2 ⟨t, ht, List.getElem?_eq_getElem hlt⟩⟩

theorem block_total {F : List ℕ → ℕ × ℕ} {done : ℕ → Cell → Prop} {st : St} {log : Place → ℕ → Prop}
    {label : ℕ} {pl : Cell → Place} {b : Block} (h : PInv rev F done st log)
    (hb : Fits rev F label pl b) :
    ∃ r, runBlock rev st b = some r ∧ ∀ c ∈ blockCells b, ∃ n, (c, n) ∈ r.1 := by
  cases b with
  | node v cells =>
    cases hg : Dict.get st.nodes v with
    | some N =>
      exact ⟨_, by simp only [runBlock, hg]; rfl, fun c hc => ⟨N, List.mem_map.2 ⟨c, hc, rfl⟩⟩⟩
    | none =>
      exact ⟨_, by simp only [runBlock, hg]; rfl, fun c hc => ⟨st.cur, List.mem_map.2 ⟨c, hc, rfl⟩⟩⟩
  | ent cut key shape cells =>
    obtain ⟨rfl, hF, hlen, -⟩ := hb
    cases hg : Dict.get st.pool key with
    | some x =>
      obtain ⟨h1, h2, -⟩ := h.poolGet key x hg
      obtain ⟨w, hw, hc⟩ := assign_total cut h2 hlen
      exact ⟨(w, st), by simp only [runBlock, hg, h1, hw, Option.map_some], hc⟩
    | none =>
      cases hg' : (if rev = true then Dict.get st.pool key.reverse else none) with
      | some x =>
        have hrev : rev = true := by
          by_contra hc
          rw [if_neg hc] at hg'
          cases hg'
        have hg2 := hg'
        rw [if_pos hrev] at hg2
        obtain ⟨h1, h2, -⟩ := h.poolGet key.reverse x hg2
        rw [hF hrev] at h1 h2
        obtain ⟨w, hw, hc⟩ := assign_total cut (l := x.2.reverse) (by rw [List.length_reverse, h2]) hlen
        exact ⟨(w, st), by simp only [runBlock, hg, hg', h1, hw, Option.map_some], hc⟩
      | none =>
        obtain ⟨w, hw, hc⟩ := assign_total cut (arange_length st.cur _) hlen
        exact ⟨(w, _), by simp only [runBlock, hg, hg', hw, Option.map_some]; rfl, hc⟩
  | inner cells =>
    refine ⟨_, by simp only [runBlock]; rfl, fun c hc => ?_⟩
    obtain ⟨t, ht⟩ := List.mem_iff_getElem?.1 hc
    refine ⟨st.cur + t, List.mem_iff_getElem?.2 ⟨t, ?_⟩⟩
    rw [List.getElem?_zip_eq_some, arange_get]
    exact ⟨ht, (List.getElem?_eq_some_iff.1 ht).1, rfl⟩

theorem blocks_total {F : List ℕ → ℕ × ℕ} {label : ℕ} {pl : Cell → Place} :
    ∀ {bs : List Block} {done : ℕ → Cell → Prop} {st : St} {log : Place → ℕ → Prop},
      PInv rev F done st log → (∀ b ∈ bs, Fits rev F label pl b) →
      (bs.flatMap innerCells).Nodup → (∀ c ∈ bs.flatMap innerCells, ¬ done label c) →
      ∃ r, runBlocks rev st bs = some r ∧ ∀ c ∈ bs.flatMap blockCells, ∃ n, (c, n) ∈ r.1 := by
  intro bs
  induction bs with
  | nil => intro done st log _ _ _ _; exact ⟨_, rfl, by simp⟩
  | cons b bs ih =>
    intro done st log h hb hnd hd
    obtain ⟨r, h1, h2⟩ := block_total h (hb b (by simp))
    rw [List.flatMap_cons, List.nodup_append] at hnd
    have hi := block_inv (w := r.1) (st' := r.2) h (hb b (by simp)) (fun c hc => hd c (by simp [hc])) h1
    obtain ⟨r', h3, h4⟩ := ih hi (fun b' hb' => hb b' (by simp [hb'])) hnd.2.1 (by
      rintro c hc (hc' | ⟨-, hc'⟩)
      · exact hd c (by rw [List.flatMap_cons]; exact List.mem_append_right _ hc) hc'
      · exact hnd.2.2 c hc' c hc rfl)
    refine ⟨(r.1 ++ r'.1, r'.2), by simp [runBlocks, h1, h3], fun c hc => ?_⟩
    rw [List.flatMap_cons] at hc
    rcases List.mem_append.1 hc with hc | hc
    · obtain ⟨n, hn⟩ := h2 c hc
      exact ⟨n, List.mem_append_left _ hn⟩
    · obtain ⟨n, hn⟩ := h4 c hc
      exact ⟨n, List.mem_append_right _ hn⟩

theorem array_total {w : List (Cell × ℕ)} {c : Cell} {n : ℕ} (h : (c, n) ∈ w) :
    ∃ m, array w c = some m := by
  unfold array
  cases hf : w.reverse.find? fun x => x.1 == c with
  | some x => exact ⟨x.2, rfl⟩
  | none =>
    have := List.find?_eq_none.1 hf (c, n) (List.mem_reverse.2 h)
    simp at this

theorem ravel_total {a : Cell → Option ℕ} : ∀ {cs : List Cell}, (∀ c ∈ cs, ∃ n, a c = some n) →
    ∃ ns, ravel a cs = some ns := by
  intro cs
  induction cs with
  | nil => intro _; exact ⟨[], rfl⟩
  | cons c cs ih =>
    intro h
    obtain ⟨n, hn⟩ := h c (by simp)
    obtain ⟨ns, hns⟩ := ih fun c' hc' => h c' (by simp [hc'])
    exact ⟨n :: ns, by simp [ravel, hn, hns]⟩

theorem elem_total {F : List ℕ → ℕ × ℕ} {x : Elem} {pl : Cell → Place} {done : ℕ → Cell → Prop}
    {st : St} {log : Place → ℕ → Prop} (h : PInv rev F done st log)
    (ok : ElemOK rev F x pl) (hd : ∀ c, ¬ done x.label c) :
    ∃ r, runElem rev st x.blocks x.order = some r := by
  obtain ⟨r, h1, h2⟩ := blocks_total h ok.fits ok.inner (fun c _ => hd c)
  obtain ⟨ns, hns⟩ := ravel_total (a := array r.1) (cs := x.order) (fun c hc => by
    obtain ⟨n, hn⟩ := h2 c (ok.cover c hc)
    exact array_total hn)
  exact ⟨(ns, r.2), by simp [runElem, h1, hns]⟩

theorem mesh_total {F : List ℕ → ℕ × ℕ} : ∀ {mesh : List (Elem × (Cell → Place))} {done : ℕ → Cell → Prop}
    {st : St} {log : Place → ℕ → Prop}, PInv rev F done st log →
    (∀ x ∈ mesh, x.1.inside = true → ElemOK rev F x.1 x.2) → (mesh.map fun x => x.1.label).Nodup →
    (∀ x ∈ mesh, ∀ c, ¬ done x.1.label c) → ∃ r, runMesh rev st (mesh.map Prod.fst) = some r := by
  intro mesh
  induction mesh with
  | nil => intro _ _ _ _ _ _ _; exact ⟨_, rfl⟩
  | cons x xs ih =>
    intro done st log h ok hnd hd
    simp only [List.map_cons, List.nodup_cons] at hnd
    by_cases hi : x.1.inside = true
    · obtain ⟨r1, h1⟩ := elem_total h (ok x (by simp) hi) (hd x (by simp))
      obtain ⟨log1, i1, -⟩ := elem_inv (ns := r1.1) (st' := r1.2) h (ok x (by simp) hi)
        (hd x (by simp)) h1
      obtain ⟨r2, h2⟩ := ih i1 (fun y hy => ok y (by simp [hy])) hnd.2 (by
        rintro y hy c (hc | hc)
        · exact hd y (by simp [hy]) c hc
        · exact hnd.1 (List.mem_map.2 ⟨y, hy, hc⟩))
      exact ⟨((x.1.label, some r1.1) :: r2.1, r2.2), by simp [runMesh, hi, h1, h2]⟩
    · obtain ⟨r2, h2⟩ := ih h (fun y hy => ok y (by simp [hy])) hnd.2 (fun y hy => hd y (by simp [hy]))
      exact ⟨((x.1.label, none) :: r2.1, r2.2), by simp [runMesh, hi, h2]⟩

/-- What an entry of the gathering matrix says about an element. -/
def Entry (log : Place → ℕ → Prop) (x : Elem × (Cell → Place)) (o : ℕ × Option (List ℕ)) : Prop :=
  o.1 = x.1.label ∧ (x.1.inside = false → o.2 = none) ∧ (x.1.inside = true → ∃ ns, o.2 = some ns ∧
    ns.length = x.1.order.length ∧
    ∀ (i : ℕ) (c : Cell) (n : ℕ), x.1.order[i]? = some c → ns[i]? = some n → log (x.2 c) n)

theorem Entry.mono {log log' : Place → ℕ → Prop} (hl : ∀ k n, log k n → log' k n)
    {x : Elem × (Cell → Place)} {o : ℕ × Option (List ℕ)} (h : Entry log x o) : Entry log' x o := by
  refine ⟨h.1, h.2.1, fun hi => ?_⟩
  obtain ⟨ns, h1, h2, h3⟩ := h.2.2 hi
  exact ⟨ns, h1, h2, fun i c n hc hn => hl _ _ (h3 i c n hc hn)⟩

theorem mesh_inv {F : List ℕ → ℕ × ℕ} : ∀ {mesh : List (Elem × (Cell → Place))} {done : ℕ → Cell → Prop}
    {st : St} {log : Place → ℕ → Prop} {r : Dict ℕ (Option (List ℕ)) × St}, PInv rev F done st log →
    (∀ x ∈ mesh, x.1.inside = true → ElemOK rev F x.1 x.2) → (mesh.map fun x => x.1.label).Nodup →
    (∀ x ∈ mesh, ∀ c, ¬ done x.1.label c) → runMesh rev st (mesh.map Prod.fst) = some r →
    ∃ log', Core rev log' r.2.cur ∧ (∀ k n, log k n → log' k n) ∧
      List.Forall₂ (Entry log') mesh r.1 ∧
      (∀ k n, log' k n → log k n ∨ ∃ e ns, (e, some ns) ∈ r.1 ∧ n ∈ ns) := by
  intro mesh
  induction mesh with
  | nil =>
    intro done st log r h _ _ _ hr
    simp only [List.map_nil, runMesh, Option.some.injEq] at hr
    subst hr
    exact ⟨log, h.core, fun _ _ hk => hk, .nil, fun k n hk => Or.inl hk⟩
  | cons x xs ih =>
    intro done st log r h ok hnd hd hr
    simp only [List.map_cons, List.nodup_cons] at hnd
    simp only [List.map_cons, runMesh] at hr
    by_cases hi : x.1.inside = true
    · rw [if_pos hi] at hr
      simp only [Option.bind_eq_some_iff, Option.map_eq_some_iff] at hr
      obtain ⟨r1, h1, r2, h2, rfl⟩ := hr
      obtain ⟨log1, i1, i2, i3, i4, i5⟩ := elem_inv (ns := r1.1) (st' := r1.2) h (ok x (by simp) hi)
        (hd x (by simp)) h1
      obtain ⟨log2, j1, j2, j3, j4⟩ := ih i1 (fun y hy => ok y (by simp [hy])) hnd.2 (by
        rintro y hy c (hc | hc)
        · exact hd y (by simp [hy]) c hc
        · exact hnd.1 (List.mem_map.2 ⟨y, hy, hc⟩)) h2
      refine ⟨log2, j1, fun k n hk => j2 k n (i2 k n hk), .cons ⟨rfl, ?_, ?_⟩ j3, ?_⟩
      · intro hf; rw [hi] at hf; cases hf
      · intro _
        exact ⟨r1.1, rfl, i3, fun i c n hc hn => j2 _ _ (i4 i c n hc hn)⟩
      · intro k n hk
        rcases j4 k n hk with hk | ⟨e, ns, hm, hn⟩
        · rcases i5 k n hk with hk | hn
          · exact Or.inl hk
          · exact Or.inr ⟨x.1.label, r1.1, by simp, hn⟩
        · exact Or.inr ⟨e, ns, by simp [hm], hn⟩
    · rw [if_neg hi] at hr
      simp only [Option.map_eq_some_iff] at hr
      obtain ⟨r2, h2, rfl⟩ := hr
      obtain ⟨log2, j1, j2, j3, j4⟩ := ih h (fun y hy => ok y (by simp [hy])) hnd.2
        (fun y hy => hd y (by simp [hy])) h2
      refine ⟨log2, j1, j2, .cons ⟨rfl, fun _ => rfl, fun hc => absurd hc hi⟩ j3, ?_⟩
      intro k n hk
      rcases j4 k n hk with hk | ⟨e, ns, hm, hn⟩
      · exact Or.inl hk
      · exact Or.inr ⟨e, ns, by simp [hm], hn⟩

theorem forall2_mem {α β : Type} {R : α → β → Prop} {l : List α} {m : List β} (h : List.Forall₂ R l m) :
    (∀ a ∈ l, ∃ b ∈ m, R a b) ∧ (∀ b ∈ m, ∃ a ∈ l, R a b) := by
  induction h with
  | nil => simp
  | cons hab _ ih =>
    refine ⟨?_, ?_⟩
    · intro a ha
      rcases List.mem_cons.1 ha with rfl | ha
      · exact ⟨_, by simp, hab⟩
      · obtain ⟨b, hb, hr⟩ := ih.1 a ha
        exact ⟨b, by simp [hb], hr⟩
    · intro b hb
      rcases List.mem_cons.1 hb with rfl | hb
      · exact ⟨_, by simp, hab⟩
      · obtain ⟨a, ha, hr⟩ := ih.2 b hb
        exact ⟨a, by simp [ha], hr⟩

/-- The mesh in the words of the specification: the places of the elements that belong to it. -/
def places (mesh : List (Elem × (Cell → Place))) : List (ℕ × List Place) :=
  (mesh.filter fun x => x.1.inside).map fun x => (x.1.label, x.1.order.map x.2)

theorem pinv_empty (F : List ℕ → ℕ × ℕ) :
    PInv rev F (fun _ _ => False) ⟨[], [], 0⟩ (fun _ _ => False) :=
  ⟨⟨fun _ _ h => h.elim, fun n h => absurd h (Nat.not_lt_zero n), fun _ _ _ _ h => h.elim⟩,
    fun _ _ h => by simp [Dict.get] at h, fun _ _ h => h.elim, fun _ _ h => by simp [Dict.get] at h,
    fun _ _ _ _ h => h.elim, fun _ _ _ h => h.elim⟩

theorem number_total {F : List ℕ → ℕ × ℕ} {mesh : List (Elem × (Cell → Place))}
    (ok : ∀ x ∈ mesh, x.1.inside = true → ElemOK rev F x.1 x.2)
    (hnd : (mesh.map fun x => x.1.label).Nodup) : ∃ r, number rev (mesh.map Prod.fst) = some r := by
  obtain ⟨r, hr⟩ := mesh_total (pinv_empty F) ok hnd (fun _ _ _ h => h)
  exact ⟨_, by unfold number; rw [hr]; rfl⟩

theorem number_right {F : List ℕ → ℕ × ℕ} {mesh : List (Elem × (Cell → Place))}
    (ok : ∀ x ∈ mesh, x.1.inside = true → ElemOK rev F x.1 x.2)
    (hnd : (mesh.map fun x => x.1.label).Nodup) {gm : Dict ℕ (Option (List ℕ))} {total : ℕ}
    (h : number rev (mesh.map Prod.fst) = some (gm, total)) : Right rev (places mesh) gm total := by
  unfold number at h
  simp only [Option.map_eq_some_iff, Prod.mk.injEq] at h
  obtain ⟨r, hr, rfl, rfl⟩ := h
  obtain ⟨log, i1, -, i3, i4⟩ := mesh_inv (pinv_empty F) ok hnd (fun _ _ _ h => h) hr
  obtain ⟨f1, f2⟩ := forall2_mem i3
  have uniq : ∀ x ∈ mesh, x.1.inside = true → ∀ ns, (x.1.label, some ns) ∈ r.1 →
      ns.length = x.1.order.length ∧
      ∀ (i : ℕ) (c : Cell) (n : ℕ), x.1.order[i]? = some c → ns[i]? = some n → log (x.2 c) n := by
    intro x hx hi ns hm
    obtain ⟨y, hy, ⟨e1, e2, e3⟩⟩ := f2 _ hm
    have : y = x := List.inj_on_of_nodup_map hnd hy hx e1.symm
    subst this
    obtain ⟨ns', q1, q2, q3⟩ := e3 hi
    cases q1
    exact ⟨q2, q3⟩
  have memp : ∀ e ps, (e, ps) ∈ places mesh → ∃ x ∈ mesh, x.1.inside = true ∧ e = x.1.label ∧
      ps = x.1.order.map x.2 := by
    intro e ps hm
    unfold places at hm
    simp only [List.mem_map, List.mem_filter, Prod.mk.injEq] at hm
    obtain ⟨x, ⟨hx, hi⟩, rfl, rfl⟩ := hm
    exact ⟨x, hx, hi, rfl, rfl⟩
  refine ⟨?_, ?_, ?_⟩
  · intro e ps hm
    obtain ⟨x, hx, hi, rfl, rfl⟩ := memp e ps hm
    obtain ⟨o, ho, e1, -, e3⟩ := f1 x hx
    obtain ⟨ns, q1, q2, -⟩ := e3 hi
    refine ⟨ns, ?_, by rw [q2, List.length_map]⟩
    rw [← e1, ← q1]
    exact ho
  · intro e ps e' ps' ns ns' hm hm' hg hg' i i' y y' n n' hy hy' hn hn'
    obtain ⟨x, hx, hi, rfl, rfl⟩ := memp e ps hm
    obtain ⟨x', hx', hi', rfl, rfl⟩ := memp e' ps' hm'
    simp only [List.getElem?_map, Option.map_eq_some_iff] at hy hy'
    obtain ⟨c, hc, rfl⟩ := hy
    obtain ⟨c', hc', rfl⟩ := hy'
    exact i1.same _ n _ n' ((uniq x hx hi ns hg).2 i c n hc hn)
      ((uniq x' hx' hi' ns' hg').2 i' c' n' hc' hn')
  · intro n
    constructor
    · intro hn
      obtain ⟨k, hk⟩ := i1.onto n hn
      rcases i4 k n hk with hk | hk
      · exact hk.elim
      · exact hk
    · rintro ⟨e, ns, hm, hn⟩
      obtain ⟨x, hx, e1, e2, e3⟩ := f2 _ hm
      have hi : x.1.inside = true := by
        by_contra hc
        have := e2 (by simpa using hc)
        cases this
      obtain ⟨ns', q1, q2, q3⟩ := e3 hi
      cases q1
      obtain ⟨i, hi'⟩ := List.mem_iff_getElem?.1 hn
      have hlt : i < x.1.order.length := by rw [← q2]; exact (List.getElem?_eq_some_iff.1 hi').1
      exact i1.lt _ n (q3 i _ n (List.getElem?_eq_getElem hlt) hi')

end Phyem.PoolGM
