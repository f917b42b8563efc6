import Verif.Adaptive.Systems
import Verif.Adaptive.Cochains

/-! Cases that meet the hypotheses, and cases in which the adaptive setting fails. -/

namespace Phyem.Adaptive

/-! ### A setup -/

/-- A mesh 0 and its boundary 1, two spaces on 0, a form 0 with a form 1 at a time instant of it, and a form 2. -/
def ex : Setup :=
  ⟨[⟨0, []⟩, ⟨1, [0]⟩], [⟨0, 0, false⟩, ⟨1, 0, false⟩], [⟨0, 0, 0, none⟩, ⟨1, 0, 0, some 0⟩, ⟨2, 0, 1, none⟩]⟩

lemma ex_right : Right ex := by
  refine ⟨by simp [ex], by decide, ?_, by decide, by decide, by decide, by decide, by decide, by decide, ?_⟩
  · intro pre m post h k hk
    match pre, h with
    | [], h =>
      simp only [ex, List.nil_append, List.cons.injEq] at h
      rw [← h.1] at hk
      simp at hk
    | [p], h =>
      simp only [ex, List.cons_append, List.nil_append, List.cons.injEq] at h
      rw [← h.2.1] at hk
      rw [← h.1]
      simpa using hk
    | p :: q :: pre, h =>
      have := congrArg List.length h
      simp [ex] at this
  · intro f hf b hb
    refine ⟨⟨0, 0, 0, none⟩, by simp [ex], ?_, rfl⟩
    simp only [ex, List.mem_cons, List.not_mem_nil, or_false] at hf
    rcases hf with rfl | rfl | rfl <;> simp at hb
    exact hb

/-- Fields set by the form at the time instant, two renewals, and what is read. -/
def exOps : List Op := [.renew 7, .setCf 1 5, .setCf 2 6, .base, .renew 8, .read 2 9 3, .read 0 9 4, .base]

lemma exOps_fits : ∀ op ∈ exOps, op.Fits ex := by
  intro op hop
  simp only [exOps, List.mem_cons, List.not_mem_nil, or_false] at hop
  rcases hop with rfl | rfl | rfl | rfl | rfl | rfl | rfl | rfl <;> simp [Op.Fits, ex]

example : match Seen.run ex exOps {}, run ex exOps {} with
    | none, none => True
    | some a, some st => Fresh ex st a ∧
        (currentBase ex st).map (fun r => r.2) = if a.count = 0 then none else some (a.count, newest ex a.count)
    | _, _ => False := always_fresh_partial ex_right exOps exOps_fits

-- three generations were made; the fields and the cochains are there
example : (Seen.run ex exOps {}).map (fun a => (a.count, a.cf 0, a.cf 2, a.data 0, a.data 2)) =
    some (3, some 5, some 6, some 4, some 3) := rfl

example : (run ex exOps {}).map (fun st => (getCf st 0, getCf st 1, getCf st 2)) = some (some 5, some 5, some 6) := rfl

/-! ### Reading a file -/

lemma reads (S : Setup) (s : ℕ) (l : List (ℕ × ℕ)) : ∀ (a : Seen), a.count ≠ 0 → a.stamp = some s →
    ∃ a', Seen.run S (l.map fun p => Op.read p.1 s p.2) a = some a' ∧ a'.count = a.count ∧ a'.stamp = some s ∧ a'.cf = a.cf ∧
      (∀ k, k ∉ l.map Prod.fst → a'.data k = a.data k) ∧
      ((l.map Prod.fst).Nodup → ∀ p ∈ l, a'.data p.1 = some p.2) := by
  induction l with
  | nil => intro a _ hs; exact ⟨a, rfl, rfl, hs, rfl, fun _ _ => rfl, by simp⟩
  | cons p l ih =>
    intro a hc hs
    obtain ⟨a', h1, h2, h3, h4, h5, h6⟩ := ih { a with data := fun j => if j = p.1 then some p.2 else a.data j } hc hs
    refine ⟨a', ?_, h2, h3, h4, ?_, ?_⟩
    · rw [List.map_cons]
      unfold Seen.run
      rw [List.foldlM_cons]
      have : a.step S (.read p.1 s p.2) = some { a with data := fun j => if j = p.1 then some p.2 else a.data j } := by
        unfold Seen.step
        dsimp only
        rw [if_neg hc, if_pos hs]
      rw [this]
      exact h1
    · intro k hk
      rw [List.map_cons, List.mem_cons, not_or] at hk
      rw [h5 k hk.2]
      exact if_neg hk.1
    · intro hn q hq
      rw [List.map_cons, List.nodup_cons] at hn
      rw [List.mem_cons] at hq
      rcases hq with rfl | hq
      · rw [h5 _ hn.1]
        exact if_pos rfl
      · exact h6 hn.2 q hq

/-- C131. Reading forms that were saved together: there is at most one renewal, and all the forms have what was read; fields
stay. -/
theorem read_together {S : Setup} (hS : Right S) (ops : List Op) (ho : ∀ op ∈ ops, op.Fits S) (st : State)
    (hr : run S ops {} = some st) (a : Seen) (ha : Seen.run S ops {} = some a) (hc : a.count ≠ 0) (s : ℕ) (l : List (ℕ × ℕ))
    (hl : ∀ p ∈ l, ∃ f ∈ S.forms, f.key = p.1 ∧ f.base = none) (hn : (l.map Prod.fst).Nodup) :
    ∃ st', run S (l.map fun p => Op.read p.1 s p.2) st = some st' ∧ st'.next ≤ st.next + 1 ∧
      (∀ p ∈ l, (st'.form p.1).current.bind (fun o => o.cochain) = some p.2) ∧
      (∀ f ∈ S.forms, getCf st' f.key = getCf st f.key) := by
  have hrun : ∃ a', Seen.run S (l.map fun p => Op.read p.1 s p.2) a = some a' ∧ a'.count ≤ a.count + 1 ∧ a'.cf = a.cf ∧
      ∀ p ∈ l, a'.data p.1 = some p.2 := by
    by_cases hs : a.stamp = some s
    · obtain ⟨a', h1, h2, _, h4, _, h6⟩ := reads S s l a hc hs
      exact ⟨a', h1, by omega, h4, h6 hn⟩
    · cases l with
      | nil => exact ⟨a, rfl, by omega, rfl, by simp⟩
      | cons p l =>
        rw [List.map_cons, List.nodup_cons] at hn
        obtain ⟨a', h1, h2, _, h4, h5, h6⟩ := reads S s l
          { a.renew s with data := fun j => if j = p.1 then some p.2 else (a.renew s).data j } (Nat.succ_ne_zero _) rfl
        refine ⟨a', ?_, ?_, h4, ?_⟩
        · rw [List.map_cons]
          unfold Seen.run
          rw [List.foldlM_cons]
          have : a.step S (.read p.1 s p.2) =
              some { a.renew s with data := fun j => if j = p.1 then some p.2 else (a.renew s).data j } := by
            unfold Seen.step
            dsimp only
            rw [if_neg hc, if_neg hs]
          rw [this]
          exact h1
        · rw [h2]
          exact le_refl _
        · intro q hq
          rw [List.mem_cons] at hq
          rcases hq with rfl | hq
          · rw [h5 _ hn.1]
            exact if_pos rfl
          · exact h6 hn.2 q hq
  obtain ⟨a', h1, h2, h3, h4⟩ := hrun
  rcases Inv.run hS ops ho (Inv.init S) with ⟨h5, _⟩ | ⟨a1, st1, h5, h6, h7⟩
  · rw [ha] at h5
    simp at h5
  · rw [ha] at h5
    rw [hr] at h6
    have e1 := Option.some.inj h5
    have e2 := Option.some.inj h6
    subst e1
    subst e2
    rcases Inv.run hS (l.map fun p => Op.read p.1 s p.2) (by
      intro op hop
      obtain ⟨p, hp, rfl⟩ := List.mem_map.1 hop
      exact hl p hp) h7 with ⟨h8, _⟩ | ⟨a2, st2, h8, h9, h10⟩
    · rw [h1] at h8
      simp at h8
    · rw [h1] at h8
      have e3 := Option.some.inj h8
      subst e3
      refine ⟨st2, h9, by rw [h10.next, h7.next]; exact h2, ?_, ?_⟩
      · intro p hp
        obtain ⟨f, hf, hk, hb⟩ := hl p hp
        rw [← hk, h10.data f hf hb, hk, h4 p hp]
      · intro f hf
        rw [h10.getCf hS hf, h7.getCf hS hf, h3]

example : ∃ st st', run ex [.renew 7] {} = some st ∧ run ex [.read 0 9 4, .read 2 9 3] st = some st' ∧
    (st'.form 0).current.bind (fun o => o.cochain) = some 4 := by
  obtain ⟨st', h1, _, h3, _⟩ := read_together ex_right [.renew 7] (by simp [Op.Fits]) _ rfl _ rfl (Nat.succ_ne_zero _) 9
    [(0, 4), (2, 3)] (by decide) (by decide)
  exact ⟨_, st', rfl, h1, h3 (0, 4) (by simp)⟩

/-- C131 (refuted). Forms that were saved with different stamps are not all there after they are read: the second one makes a
new generation of everything, in which the first one has no cochain. -/
theorem read_apart_refuted : ∃ st, run ex [.renew 7, .read 0 8 4, .read 2 9 3] {} = some st ∧
    (st.form 0).current.bind (fun o => o.cochain) = none ∧ (st.form 2).current.bind (fun o => o.cochain) = some 3 :=
  ⟨_, rfl, rfl, rfl⟩

/-- A space of unknown orientation, which the product of forms of opposite orientations has. -/
def exUnknown : Setup := { ex with spaces := ex.spaces ++ [⟨2, 0, true⟩] }

/-- C131 (refuted). With a space of unknown orientation, as the product of forms of opposite orientations makes one, everything
is renewed but `current_base` raises, and so does every `apply`. -/
theorem unknown_refuted : (run exUnknown [.renew 7] {}).isSome ∧ run exUnknown [.renew 7, .base] {} = none ∧
    applyAfter exUnknown [.op (.renew 7)] = none := ⟨rfl, rfl, rfl⟩

/-- C131 (refuted). A mesh that includes one which is configured after it: `initialize` raises. -/
theorem order_refuted (s : ℕ) : renew { ex with meshes := [⟨1, [0]⟩, ⟨0, []⟩] } s {} = none := rfl

/-! ### Systems -/

/-- A condition on the boundary for the form 2. -/
def exCond : Cond := ⟨1, 2, 11⟩

/-- A renewal, a condition, the system, another renewal. -/
def exSys : List SOp := [.op (.renew 7), .config exCond, .apply, .op (.renew 8)]

lemma exSys_fits : ∀ o ∈ exSys, SOp.Fits ex o := by
  intro o ho
  simp only [exSys, List.mem_cons, List.not_mem_nil, or_false] at ho
  rcases ho with rfl | rfl | rfl | rfl <;> simp [SOp.Fits, Op.Fits, ex, exCond]

example : applyAfter ex exSys = some (systemAt ex 2 [exCond]) := by
  refine ((apply_partial ex_right exSys exSys_fits).1 2 rfl (by decide)).1 ?_
  intro p q h
  match p, h with
  | [], h => simp [exSys] at h
  | [a], h => simp [exSys] at h
  | [a, b], h =>
    simp only [exSys, List.cons_append, List.nil_append, List.cons.injEq] at h
    rw [← h.1, ← h.2.1]
    simp [renewals, opsOf, Seen.run, Seen.step, Seen.renew]
  | [a, b, c], h => simp [exSys] at h
  | a :: b :: c :: d :: p, h =>
    have := congrArg List.length h
    simp [exSys] at this

/-- C132 (refuted). A condition that is configured after `apply` is not in the system that the next `apply` returns, until
everything is renewed. -/
theorem late_condition_refuted : applyAfter ex [.op (.renew 7), .apply, .config exCond] = some (systemAt ex 1 []) ∧
    applyAfter ex [.op (.renew 7), .config exCond] = some (systemAt ex 1 [exCond]) := ⟨rfl, rfl⟩

/-! ### Cochains -/

/-- The quarter `i` of the cell `c`. -/
def quarter (c i : ℕ) : Idx := ⟨c, none, [(9, i)]⟩

/-- A third of the triangle `d` of the cell `c`. -/
def third (c : ℕ) (d : Char) (i : ℕ) : Idx := ⟨c, some (d, []), [(5, i)]⟩

/-- Two cells. -/
def coarse : List Idx := [quarter 0 0, quarter 0 1, quarter 1 0, quarter 1 1]

/-- The first is refined. -/
def fine : List Idx := [third 0 'N' 0, third 0 'S' 0, quarter 1 0, quarter 1 1]

/-- Both are refined. -/
def finer : List Idx := [third 0 'N' 0, third 0 'S' 0, third 1 'N' 0, third 1 'S' 0]

/-- The values of an interpolation that is 100 everywhere. -/
def itp100 : (Idx → ℕ) → List Idx → Idx → ℕ := fun _ _ _ => 100

/-- Three renewals: the mesh changes, stays, and changes. The address of the last list of changed elements is `a`. -/
def exCalls (a : ℕ) : List (Call ℕ) :=
  [⟨⟨1, coarse⟩, ⟨2, fine⟩, 10, 20, fun _ => 1⟩, ⟨⟨2, fine⟩, ⟨3, fine⟩, 11, 21, fun _ => 2⟩,
    ⟨⟨3, fine⟩, ⟨4, finer⟩, a, 22, fun _ => 3⟩]

lemma exCalls_fits (a : ℕ) : ∀ k ∈ exCalls a, k.Fits := by
  intro k hk
  simp only [exCalls, List.mem_cons, List.not_mem_nil, or_false] at hk
  rcases hk with rfl | rfl | rfl <;>
    exact ⟨by simp [coarse, fine, finer, Split, quarter, third], by simp [coarse, fine, finer, Split, quarter, third], fun _ => rfl⟩

lemma exCalls_noReuse : NoReuse (exCalls 12) := by
  refine ⟨?_, ?_, ?_⟩
  · intro k hk k' hk' m hm m' hm' he
    simp only [exCalls, List.mem_cons, List.not_mem_nil, or_false] at hk hk'
    rcases hk with rfl | rfl | rfl <;> rcases hk' with rfl | rfl | rfl <;>
      simp only [List.mem_cons, List.not_mem_nil, or_false] at hm hm' <;>
      rcases hm with rfl | rfl <;> rcases hm' with rfl | rfl <;> first | rfl | exact absurd he (by decide)
  · intro k hk k' hk' he
    simp only [exCalls, List.mem_cons, List.not_mem_nil, or_false] at hk hk'
    rcases hk with rfl | rfl | rfl <;> rcases hk' with rfl | rfl | rfl <;> first | rfl | exact absurd he (by decide)
  · intro k hk k' hk' he
    simp only [exCalls, List.mem_cons, List.not_mem_nil, or_false] at hk hk'
    rcases hk with rfl | rfl | rfl <;> rcases hk' with rfl | rfl | rfl <;> first | rfl | exact absurd he (by decide)

-- in the last renewal the cell 1 is new and the cell 0 is kept
example : (renewAll itp100 {} (exCalls 12)).map (fun l => l.map fun r => (r.1, r.2.map Prod.snd)) =
    some [(false, [100, 100, 1, 1]), (true, [2, 2, 2, 2]), (false, [3, 3, 100, 100])] := by
  rw [renew_cochains_partial itp100 _ exCalls_noReuse (exCalls_fits 12)]
  decide +kernel

/-- C133 (refuted). The lists of changed elements are known by their addresses. The first list of a mesh that changes, stays
and changes again is not there any more when the third one is made; if that gets the address of the first, the base cells of
the first are taken, and `renew` raises: there are no cochains in the new elements. -/
theorem reuse_refuted : renewAll itp100 {} (exCalls 10) = none := by decide +kernel

/-- C133 (refuted). A mesh that changes, two renewals without cochains, and a mesh that stays. If the meshes get the addresses
of the first ones, which are not there any more, what was found out about the first ones is taken: cochains of a mesh that
stays are interpolated, and `renew` reports that it changes. -/
theorem reuse_meshes_refuted :
    (renewAll itp100 {} [⟨⟨1, coarse⟩, ⟨2, fine⟩, 10, 20, fun _ => 1⟩, ⟨⟨1, fine⟩, ⟨2, fine⟩, 11, 21, fun _ => 2⟩]).map
      (fun l => l.map fun r => (r.1, r.2.map Prod.snd)) = some [(false, [100, 100, 1, 1]), (false, [100, 100, 2, 2])] := by
  decide +kernel

/-- C133 (refuted). Without triangle splitting an index is no text, its base cell cannot be read, and a renewal of a mesh that
changes raises. -/
theorem unsplit_refuted (a b : ℕ) : (∀ c t, baseOf ⟨c, t, []⟩ = none) ∧
    renewAll itp100 {} [⟨⟨1, [⟨0, none, []⟩]⟩, ⟨2, [⟨0, some ('N', []), []⟩]⟩, a, b, fun _ => 1⟩] = none :=
  ⟨fun _ _ => rfl, rfl⟩

example : renewInfo .three [⟨true, some 2, true, true⟩, ⟨true, some 1, true, false⟩] = some false := by
  rw [renew_info_partial _ (by simp)]
  decide

example : ∃ f ∈ [(⟨true, some 2, true, true⟩ : Asked)], f.selected = true ∧ f.isBase = true ∧ ∃ n, n ≠ 0 ∧ f.cochains = some n :=
  ⟨⟨true, some 2, true, true⟩, by simp, rfl, rfl, 2, by decide, rfl⟩

/-- C133 (refuted). When no form has cochains, or no form is asked for, `renew` reports that all is the same although the
mesh has changed. -/
theorem report_refuted : renewInfo .three [⟨true, some 0, true, false⟩] = some true ∧
    renewInfo .three [⟨false, some 2, true, false⟩] = some true := ⟨rfl, rfl⟩

/-- C133 (refuted). `renew` before `initialize` raises: there is no generation before. -/
theorem first_refuted (m : Method) (i s : Bool) : renewInfo m [⟨true, none, i, s⟩] = none := rfl

end Phyem.Adaptive
