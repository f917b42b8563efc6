import Verif.Chaining.Spec
import Mathlib.Data.List.Nodup
import Mathlib.Data.List.Range
import Mathlib.Data.List.Zip
import Mathlib.Data.List.Perm.Subperm
import Mathlib.Tactic.Linarith

/-!
Lemmas on chaining.
-/

namespace Phyem.Chaining

theorem mem_dofsOf {rows : List (List ℕ)} {x : ℕ × ℕ} :
    x ∈ dofsOf rows ↔ ∃ r, rows[x.1]? = some r ∧ x.2 ∈ r := by
  unfold dofsOf
  simp only [List.mem_flatMap, List.mem_zipIdx_iff_getElem?, List.mem_map]
  constructor
  · rintro ⟨q, hq, n, hn, rfl⟩; exact ⟨q.1, hq, hn⟩
  · rintro ⟨r, hr, hx⟩; exact ⟨(r, x.1), hr, x.2, hx, rfl⟩

theorem isChaining_of_map {es : ℕ → Prop} {rows : ℕ → List (List ℕ)} {out : ℕ → List ℕ} {total : ℕ}
    (ren : ℕ × ℕ → ℕ) (hout : ∀ e, es e → out e = (dofsOf (rows e)).map ren)
    (hinj : ∀ e e' x y, es e → es e' → x ∈ dofsOf (rows e) → y ∈ dofsOf (rows e') → ren x = ren y → x = y)
    (hon : ∀ v, (∃ e x, es e ∧ x ∈ dofsOf (rows e) ∧ ren x = v) ↔ v < total) :
    IsChaining es rows out total := by
  constructor
  · intro e he; rw [hout e he, List.length_map]
  · intro e e' k k' x x' he he' hx hx'
    rw [hout e he, hout e' he', List.getElem?_map, List.getElem?_map, hx, hx']
    simp only [Option.map_some, Option.some.injEq]
    constructor
    · exact hinj e e' x x' he he' (List.mem_of_getElem? hx) (List.mem_of_getElem? hx')
    · rintro rfl; rfl
  · intro v
    rw [← hon v]
    constructor
    · rintro ⟨e, he, hv⟩
      rw [hout e he] at hv
      obtain ⟨x, hx, hv⟩ := List.mem_map.mp hv
      exact ⟨e, x, he, hx, hv⟩
    · rintro ⟨e, x, he, hx, hv⟩
      exact ⟨e, he, by rw [hout e he]; exact List.mem_map.mpr ⟨x, hx, hv⟩⟩

/-! ### msepy, method 1 -/

theorem le_foldr_max (l : List ℕ) : ∀ x ∈ l, x ≤ l.foldr max 0 := by
  induction l with
  | nil => simp
  | cons y l ih =>
    intro x hx
    simp only [List.foldr_cons]
    rcases List.mem_cons.mp hx with rfl | hx
    · exact le_max_left _ _
    · exact le_trans (ih x hx) (le_max_right _ _)

theorem foldr_max_mem (l : List ℕ) (h : l ≠ []) : l.foldr max 0 ∈ l := by
  induction l with
  | nil => exact absurd rfl h
  | cons y l ih =>
    simp only [List.foldr_cons]
    rcases Nat.le_total (l.foldr max 0) y with h1 | h1
    · rw [max_eq_left h1]; exact List.mem_cons_self
    · rw [max_eq_right h1]
      by_cases hl : l = []
      · subst hl; simp at h1; subst h1; simp
      · exact List.mem_cons_of_mem _ (ih hl)

theorem numDofs_eq {g : GM} {n : ℕ} (hn : 0 < n) (h : Contiguous g.flatten n) : numDofs g = some n := by
  unfold numDofs
  have hne : g.flatten ≠ [] := by
    intro he
    have := (h 0).mpr hn
    rw [he] at this
    simp at this
  rw [if_neg hne]
  have h1 := (h _).mp (foldr_max_mem _ hne)
  have h2 := le_foldr_max _ _ ((h (n - 1)).mpr (by omega))
  congr 1
  omega

theorem numDofs_lt {g : GM} {n : ℕ} (h : numDofs g = some n) : ∀ v ∈ g.flatten, v < n := by
  unfold numDofs at h
  split_ifs at h with hne
  simp only [Option.some.injEq] at h
  intro v hv
  have := le_foldr_max _ _ hv
  omega

theorem allDofs_spec : ∀ {gms : List GM} {ns : List ℕ}, allDofs gms = some ns →
    ns.length = gms.length ∧ ∀ (i : ℕ) (g : GM), gms[i]? = some g → ∃ n, ns[i]? = some n ∧ numDofs g = some n := by
  intro gms
  induction gms with
  | nil => intro ns h; simp [allDofs] at h; subst h; simp
  | cons g gs ih =>
    intro ns h
    simp only [allDofs] at h
    cases h1 : numDofs g with
    | none => rw [h1] at h; simp at h
    | some n =>
      cases h2 : allDofs gs with
      | none => rw [h1, h2] at h; simp at h
      | some ms =>
        rw [h1, h2] at h
        simp only [Option.some.injEq] at h
        subst h
        obtain ⟨a, b⟩ := ih h2
        refine ⟨by simp [a], ?_⟩
        intro i g' hi
        cases i with
        | zero => simp only [List.getElem?_cons_zero, Option.some.injEq] at hi; subst hi; exact ⟨n, rfl, h1⟩
        | succ i => exact b i g' (by simpa using hi)

theorem allDofs_isSome : ∀ {gms : List GM}, (∀ g ∈ gms, ∃ n, numDofs g = some n) → ∃ ns, allDofs gms = some ns := by
  intro gms
  induction gms with
  | nil => intro _; exact ⟨[], rfl⟩
  | cons g gs ih =>
    intro h
    obtain ⟨n, hn⟩ := h g (by simp)
    obtain ⟨ns, hns⟩ := ih fun g' hg' => h g' (by simp [hg'])
    exact ⟨n :: ns, by simp [allDofs, hn, hns]⟩

/-- `sum(num_dofs[:i])`. -/
def offset (ns : List ℕ) (i : ℕ) : ℕ := (ns.take i).sum

theorem offset_succ (ns : List ℕ) (i n : ℕ) (h : ns[i]? = some n) : offset ns (i + 1) = offset ns i + n := by
  unfold offset
  rw [List.take_add_one, h, List.sum_append]
  simp

theorem offset_mono (ns : List ℕ) {i j : ℕ} (h : i ≤ j) : offset ns i ≤ offset ns j := by
  induction j, h using Nat.le_induction with
  | base => exact le_refl _
  | succ j _ ih =>
    by_cases hj : j < ns.length
    · rw [offset_succ ns j _ (List.getElem?_eq_getElem hj)]; omega
    · unfold offset at *
      rw [List.take_of_length_le (show ns.length ≤ j by omega)] at ih
      rw [List.take_of_length_le (show ns.length ≤ j + 1 by omega)]
      exact ih

theorem offset_inj {ns : List ℕ} {i j a b n m : ℕ} (hi : ns[i]? = some n) (hj : ns[j]? = some m) (ha : a < n)
    (hb : b < m) (h : a + offset ns i = b + offset ns j) : i = j ∧ a = b := by
  rcases Nat.lt_trichotomy i j with hlt | heq | hlt
  · have h1 := offset_mono ns (show i + 1 ≤ j by omega)
    rw [offset_succ ns i n hi] at h1
    omega
  · subst heq; exact ⟨rfl, by omega⟩
  · have h1 := offset_mono ns (show j + 1 ≤ i by omega)
    rw [offset_succ ns j m hj] at h1
    omega

theorem offset_find {ns : List ℕ} {v : ℕ} (h : v < ns.sum) :
    ∃ i n a, ns[i]? = some n ∧ a < n ∧ v = a + offset ns i := by
  induction ns generalizing v with
  | nil => simp at h
  | cons n ns ih =>
    by_cases hv : v < n
    · exact ⟨0, n, v, rfl, hv, by simp [offset]⟩
    · rw [List.sum_cons] at h
      obtain ⟨i, m, a, h1, h2, h3⟩ := ih (v := v - n) (by omega)
      refine ⟨i + 1, m, a, by simpa using h1, h2, ?_⟩
      have : offset (n :: ns) (i + 1) = n + offset ns i := by simp [offset]
      omega

theorem hrow_eq (e : ℕ) : ∀ (gms : List GM) (ns : List ℕ) (off : ℕ), ns.length = gms.length →
    hrow e gms ns off =
      (dofsOf (gms.map fun g => rowOf g e)).map fun x => x.2 + (off + offset ns x.1) := by
  intro gms
  induction gms with
  | nil => intro ns off h; cases ns <;> simp_all [hrow, dofsOf]
  | cons g gs ih =>
    intro ns off h
    cases ns with
    | nil => simp at h
    | cons n ns =>
      simp only [hrow]
      rw [ih ns (off + n) (by simpa using h)]
      unfold dofsOf
      rw [List.map_cons, List.zipIdx_cons, List.flatMap_cons, List.map_append]
      congr 1
      · rw [List.map_map]
        apply List.map_congr_left
        intro a _
        simp [offset]
      · rw [Nat.zero_add, List.map_flatMap, List.map_flatMap,
          show (1 : ℕ) = 0 + 1 from rfl, List.zipIdx_succ, List.flatMap_map]
        congr 1
        funext q
        rw [List.map_map, List.map_map]
        apply List.map_congr_left
        intro a _
        simp only [Function.comp, offset, List.take_succ_cons, List.sum_cons]
        omega

theorem mem_rows {g : GM} {v : ℕ} : v ∈ g.flatten ↔ ∃ e < g.length, v ∈ rowOf g e := by
  rw [List.mem_flatten]
  constructor
  · rintro ⟨r, hr, hv⟩
    obtain ⟨e, he, rfl⟩ := List.getElem_of_mem hr
    exact ⟨e, he, by unfold rowOf; rw [List.getElem?_eq_getElem he]; exact hv⟩
  · rintro ⟨e, he, hv⟩
    unfold rowOf at hv
    rw [List.getElem?_eq_getElem he] at hv
    exact ⟨g[e], List.getElem_mem he, hv⟩

/-! ### msepy, method 0 -/

theorem writeAll_at (cache : ℕ → ℕ → ℕ) (j : ℕ) : ∀ (fv : List ℕ) (v : ℕ), fv.Nodup →
    (∀ n (k : ℕ), fv[k]? = some n → writeAll cache j fv v j n = v + k) ∧
    ∀ j' n, ¬ (j' = j ∧ n ∈ fv) → writeAll cache j fv v j' n = cache j' n := by
  intro fv
  induction fv generalizing cache with
  | nil => intro v _; simp [writeAll]
  | cons m fv ih =>
    intro v hnd
    rw [List.nodup_cons] at hnd
    obtain ⟨h1, h2⟩ := ih (fun j' n' => if j' = j ∧ n' = m then v else cache j' n') (v + 1) hnd.2
    constructor
    · intro n k hk
      cases k with
      | zero =>
        simp only [List.getElem?_cons_zero, Option.some.injEq] at hk
        subst hk
        simp only [writeAll]
        rw [h2 j m (fun h => hnd.1 h.2)]
        simp
      | succ k =>
        simp only [List.getElem?_cons_succ] at hk
        simp only [writeAll]
        rw [h1 n k hk]
        omega
    · intro j' n hn
      simp only [writeAll]
      rw [h2 j' n (fun h => hn ⟨h.1, List.mem_cons_of_mem _ h.2⟩), if_neg]
      rintro ⟨rfl, rfl⟩
      exact hn ⟨rfl, List.mem_cons_self⟩

/-- Invariant of method 0: the dofs below the filters have been renumbered, injectively and onto. -/
structure Inv0 (s : S0) (f : ℕ → ℕ) : Prop where
  filt : s.filters = f
  lt : ∀ j n, n < f j → s.cache j n < s.cur
  inj : ∀ j n j' n', n < f j → n' < f j' → s.cache j n = s.cache j' n' → j = j' ∧ n = n'
  onto : ∀ v < s.cur, ∃ j n, n < f j ∧ s.cache j n = v

theorem step0_inv {s : S0} {f : ℕ → ℕ} (h : Inv0 s f) (j : ℕ) (row : List ℕ) (m : ℕ)
    (hp : (row.filter fun n => f j ≤ n).Perm (List.range' (f j) m)) :
    Inv0 (step0 s j row) (fun j' => if j' = j then f j + m else f j') := by
  have hlen : (row.filter fun n => f j ≤ n).length = m := by rw [hp.length_eq]; simp
  have hnd : (row.filter fun n => f j ≤ n).Nodup := hp.nodup_iff.mpr List.nodup_range'
  have hmem : ∀ n, n ∈ (row.filter fun n => f j ≤ n) ↔ f j ≤ n ∧ n < f j + m := by
    intro n
    rw [hp.mem_iff]
    simp
  have hs : step0 s j row = ⟨writeAll s.cache j (row.filter fun n => f j ≤ n) s.cur,
      fun j' => if j' = j then f j + m else f j', s.cur + m⟩ := by
    unfold step0
    simp only [h.filt, hlen]
  rw [hs]
  obtain ⟨w1, w2⟩ := writeAll_at s.cache j _ s.cur hnd
  have old : ∀ j' n, n < f j' → writeAll s.cache j (row.filter fun n => f j ≤ n) s.cur j' n = s.cache j' n := by
    intro j' n hn
    apply w2
    rintro ⟨rfl, h2⟩
    have := ((hmem n).mp h2).1
    omega
  have new : ∀ n, f j ≤ n → n < f j + m → ∃ k, (row.filter fun n => f j ≤ n)[k]? = some n ∧ k < m ∧
      writeAll s.cache j (row.filter fun n => f j ≤ n) s.cur j n = s.cur + k := by
    intro n h1 h2
    obtain ⟨k, hk⟩ := List.mem_iff_getElem?.mp ((hmem n).mpr ⟨h1, h2⟩)
    have := (List.getElem?_eq_some_iff.mp hk).1
    exact ⟨k, hk, by omega, w1 n k hk⟩
  have cases_ : ∀ j' n, n < (if j' = j then f j + m else f j') →
      n < f j' ∨ (j' = j ∧ f j ≤ n ∧ n < f j + m) := by
    intro j' n hn
    split_ifs at hn with hj
    · subst hj; by_cases h1 : n < f j'
      · exact Or.inl h1
      · exact Or.inr ⟨rfl, by omega, hn⟩
    · exact Or.inl hn
  constructor
  · rfl
  · intro j' n hn
    simp only
    rcases cases_ j' n hn with h1 | ⟨rfl, h1, h2⟩
    · rw [old j' n h1]; have := h.lt j' n h1; omega
    · obtain ⟨k, _, hk, e⟩ := new n h1 h2; rw [e]; omega
  · intro j1 n1 j2 n2 h1 h2 he
    simp only at he
    rcases cases_ j1 n1 h1 with a | ⟨rfl, a, b⟩ <;> rcases cases_ j2 n2 h2 with a' | ⟨rfl, a', b'⟩
    · rw [old j1 n1 a, old j2 n2 a'] at he; exact h.inj _ _ _ _ a a' he
    · obtain ⟨k, _, hk, e⟩ := new n2 a' b'
      rw [old j1 n1 a, e] at he
      have := h.lt j1 n1 a; omega
    · obtain ⟨k, _, hk, e⟩ := new n1 a b
      rw [old j2 n2 a', e] at he
      have := h.lt j2 n2 a'; omega
    · obtain ⟨k, hk1, hk, e⟩ := new n1 a b
      obtain ⟨k', hk1', hk', e'⟩ := new n2 a' b'
      rw [e, e'] at he
      obtain rfl : k = k' := by omega
      rw [hk1] at hk1'
      simp only [Option.some.injEq] at hk1'
      exact ⟨rfl, hk1'⟩
  · intro v hv
    simp only at hv
    by_cases hc : v < s.cur
    · obtain ⟨j', n, h1, h2⟩ := h.onto v hc
      refine ⟨j', n, ?_, by simp only; rw [old j' n h1, h2]⟩
      split_ifs with hj
      · subst hj; omega
      · exact h1
    · have hk : v - s.cur < (row.filter fun n => f j ≤ n).length := by omega
      have hg := List.getElem?_eq_getElem hk
      have hb := (hmem _).mp (List.mem_of_getElem? hg)
      refine ⟨j, (row.filter fun n => f j ≤ n)[v - s.cur], ?_, ?_⟩
      · rw [if_pos rfl]; exact hb.2
      · simp only
        rw [w1 _ _ hg]
        omega

theorem loop0_inv (gms : List GM) (N : ℕ) (hN : ∀ g ∈ gms, g.length = N) (b : ℕ → ℕ → ℕ)
    (hb : ∀ (j : ℕ) (g : GM), gms[j]? = some g → InOrder g (b j)) :
    ∃ f, Inv0 (loop0 gms N) f ∧ ∀ j, f j = if j < gms.length then b j N else 0 := by
  unfold loop0
  have outer : ∀ n ≤ N, ∃ f, Inv0 ((List.range n).foldl
      (fun s e => gms.zipIdx.foldl (fun s q => step0 s q.2 (rowOf q.1 e)) s) ⟨fun _ _ => 1, fun _ => 0, 0⟩) f ∧
      ∀ j, f j = if j < gms.length then b j n else 0 := by
    intro n
    induction n with
    | zero =>
      intro _
      refine ⟨fun _ => 0, ⟨rfl, by simp, by simp, by simp⟩, ?_⟩
      intro j
      split_ifs with hj
      · exact ((hb j _ (List.getElem?_eq_getElem hj)).1).symm
      · rfl
    | succ n ih =>
      intro hn
      obtain ⟨f, hf, hf'⟩ := ih (by omega)
      rw [List.range_succ, List.foldl_append, List.foldl_cons, List.foldl_nil]
      have inner : ∀ (todo : List GM) (k : ℕ) (s : S0) (f : ℕ → ℕ), gms.drop k = todo → k ≤ gms.length →
          Inv0 s f → (∀ j, f j = if j < gms.length then (if j < k then b j (n + 1) else b j n) else 0) →
          ∃ f', Inv0 ((todo.zipIdx k).foldl (fun s q => step0 s q.2 (rowOf q.1 n)) s) f' ∧
            ∀ j, f' j = if j < gms.length then b j (n + 1) else 0 := by
        intro todo
        induction todo with
        | nil =>
          intro k s f hd hk hs hf
          refine ⟨f, hs, ?_⟩
          intro j
          rw [hf j]
          have : gms.length ≤ k := by
            have := congrArg List.length hd
            simp at this
            omega
          by_cases hj : j < gms.length
          · rw [if_pos hj, if_pos hj, if_pos (by omega)]
          · rw [if_neg hj, if_neg hj]
        | cons g todo ih2 =>
          intro k s f hd hk hs hf
          have hk' : k < gms.length := by
            by_contra hc
            rw [List.drop_eq_nil_of_le (by omega)] at hd
            simp at hd
          have hg : gms[k]? = some g := by
            have := congrArg (fun l => l[0]?) hd
            simpa using this
          have hio := (hb k g hg).2 n (by rw [hN g (List.mem_of_getElem? hg)]; omega)
          have hfk : f k = b k n := by rw [hf k, if_pos hk', if_neg (by omega)]
          have hst := step0_inv hs k (rowOf g n) (b k (n + 1) - b k n) (by rw [hfk]; exact hio.2)
          rw [List.zipIdx_cons, List.foldl_cons]
          refine ih2 (k + 1) _ _ ?_ (by omega) hst ?_
          · rw [← List.tail_drop, hd]; rfl
          · intro j
            by_cases hj : j = k
            · subst hj; rw [if_pos rfl, if_pos hk', if_pos (by omega), hfk]; omega
            · rw [if_neg hj, hf j]
              by_cases h1 : j < gms.length
              · rw [if_pos h1, if_pos h1]
                by_cases h2 : j < k
                · rw [if_pos h2, if_pos (by omega)]
                · rw [if_neg h2, if_neg (by omega)]
              · rw [if_neg h1, if_neg h1]
      refine inner gms 0 _ f (by simp) (by omega) hf ?_
      intro j
      rw [hf' j]
      simp
  exact outer N (le_refl N)

theorem InOrder.mem {g : GM} {b : ℕ → ℕ} (h : InOrder g b) (v : ℕ) : v ∈ g.flatten ↔ v < b g.length := by
  have mono : ∀ e e', e ≤ e' → e' ≤ g.length → b e ≤ b e' := by
    intro e e' hee
    induction e', hee using Nat.le_induction with
    | base => intro _; exact le_refl _
    | succ k _ ih => intro hk; have := (h.2 k (by omega)).1; have := ih (by omega); omega
  rw [mem_rows]
  constructor
  · rintro ⟨e, he, hv⟩
    have h1 := mono (e + 1) g.length (by omega) (le_refl _)
    by_cases hc : b e ≤ v
    · have : v ∈ (rowOf g e).filter fun n => b e ≤ n := List.mem_filter.mpr ⟨hv, by simpa using hc⟩
      rw [(h.2 e he).2.mem_iff] at this
      have hm := (h.2 e he).1
      simp at this
      omega
    · have := (h.2 e he).1; omega
  · intro hv
    have : ∀ n ≤ g.length, v < b n → ∃ e < n, b e ≤ v ∧ v < b (e + 1) := by
      intro n
      induction n with
      | zero => intro _ h0; rw [h.1] at h0; omega
      | succ n ih =>
        intro hn hvn
        by_cases hc : v < b n
        · obtain ⟨e, he, h1⟩ := ih (by omega) hc; exact ⟨e, by omega, h1⟩
        · exact ⟨n, by omega, by omega, hvn⟩
    obtain ⟨e, he, h1, h2⟩ := this _ (le_refl _) hv
    refine ⟨e, he, ?_⟩
    have : v ∈ List.range' (b e) (b (e + 1) - b e) := by simp; omega
    rw [← (h.2 e he).2.mem_iff] at this
    exact (List.mem_filter.mp this).1

end Phyem.Chaining
