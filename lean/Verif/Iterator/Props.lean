import Verif.Iterator.Lemmas
import Std.Data.String.ToNat
import Mathlib.Data.Rat.Floor
import Mathlib.Tactic.NormNum

/-!
Properties C55, C56, C57, C61, C62 of `tools/iterator/main.py`.
-/

namespace Phyem.Iterator

/-! ### C55: the record of computed inputs -/

/-- Specification: the keys recorded by a history. -/
def recorded : List RecOp → List Key
  | [] => []
  | .record k :: ops => k :: recorded ops
  | .compress :: ops => recorded ops

theorem recRun_spec (ops : List RecOp) : ∀ c, WF c →
    WF (ops.foldl recStep c) ∧
    ∀ k, check (ops.foldl recStep c) k = true ↔ check c k = true ∨ k ∈ recorded ops := by
  induction ops with
  | nil => intro c h; simp [recorded, h]
  | cons op ops ih =>
    intro c h
    cases op with
    | record k =>
      obtain ⟨h1, h2⟩ := ih (update c k) (update_wf h k)
      refine ⟨h1, fun k' => ?_⟩
      simp only [List.foldl_cons, recStep, recorded]
      rw [h2 k', check_update, List.mem_cons, or_assoc]
    | compress =>
      obtain ⟨hw, hc⟩ := compress_spec h
      obtain ⟨h1, h2⟩ := ih (compress c) hw
      refine ⟨h1, fun k' => ?_⟩
      simp only [List.foldl_cons, recStep, recorded]
      rw [h2 k', hc k']

/-- **C55.** After any history of recordings and compressions, a key is reported as computed
exactly when it was recorded. -/
theorem computed_inputs_exact (ops : List RecOp) (k : Key) :
    check (recRun ops) k = true ↔ k ∈ recorded ops := by
  have h0 : WF Computed.empty := ⟨by simp [Computed.empty], by simp [Computed.empty]⟩
  have := (recRun_spec ops Computed.empty h0).2 k
  rw [recRun, this]
  have : check Computed.empty k = false := by cases k <;> simp [check, Computed.empty]
  simp [this]

/-- A concrete history in which the list surgery does happen. -/
example : recRun [.record (.int 3), .record (.int 1), .record (.int 2), .compress,
      .record (.str "50000"), .compress, .record (.int 7), .compress]
    = ⟨[(1, 4)], [7], ["50000"]⟩ := by decide +kernel

/-- Different integer inputs have different keys, and an integral float shares its key with the
equal integer. -/
theorem intKey_injective (i j : Int) : intKey i = intKey j ↔ i = j := by simp [intKey]

/-! ### C62: different inputs have different keys -/

/-- Specification: no two different inputs share a key. -/
def KeysDistinguish : Prop := ∀ p q : Rat, floatKey p = floatKey q → p = q

/-- **C62 refuted.** `0.1` and `0.100001` share a key, so the second is served the first one's
results. -/
theorem float_keys_distinguish_refuted : ¬ KeysDistinguish := by
  intro h
  have := h (1 / 10) (100001 / 1000000) (by decide +kernel)
  norm_num at this

theorem round5_of_grid (z : Int) (p : Rat) (hp : p * 100000 = z) : round5 p = z := by
  unfold round5
  simp only [hp, Rat.floor_intCast]
  simp

theorem fmt5_val (p q : Rat) (y z : Int) (hp : p * 100000 = y) (hq : q * 100000 = z)
    (h : fmt5 p = fmt5 q) : p = q := by
  have hy := round5_of_grid y p hp
  have hz := round5_of_grid z q hq
  unfold fmt5 at h
  rw [hy, hz] at h
  have hyz : y = z := by
    have sp : p < 0 ↔ y < 0 := by
      have : (y : Rat) < 0 ↔ y < 0 := by exact_mod_cast Iff.rfl
      rw [← this, ← hp]; constructor <;> intro h <;> linarith
    have sq : q < 0 ↔ z < 0 := by
      have : (z : Rat) < 0 ↔ z < 0 := by exact_mod_cast Iff.rfl
      rw [← this, ← hq]; constructor <;> intro h <;> linarith
    have tos : ∀ a b : Nat, toString a = toString b → a = b := fun a b h => by
      have : a.repr = b.repr := h
      exact Nat.repr_inj.1 this
    have nominus : ∀ a b : Nat, "-" ++ toString a ≠ toString b := by
      intro a b h
      have h2 : ("-" ++ toString a).toList = (toString b).toList := by rw [h]
      have h3 : '-' ∈ (toString b).toList := by rw [← h2]; simp
      have h4 := Nat.isDigit_of_mem_toDigits (b := 10) (by decide) (by decide) (n := b)
        (c := '-') (by simpa [Nat.repr, toString] using h3)
      exact absurd h4 (by decide)
    by_cases h1 : p < 0 <;> by_cases h2 : q < 0
    · rw [if_pos h1, if_pos h2] at h
      have h' := tos _ _ (String.append_right_inj _ |>.1 h)
      have := sp.1 h1; have := sq.1 h2; omega
    · rw [if_pos h1, if_neg h2, String.empty_append] at h
      exact absurd h (nominus _ _)
    · rw [if_neg h1, if_pos h2, String.empty_append] at h
      exact absurd h.symm (nominus _ _)
    · rw [if_neg h1, if_neg h2] at h
      have h' := tos _ _ (String.append_right_inj _ |>.1 h)
      have := mt sp.2 h1; have := mt sq.2 h2; omega
  rw [hyz, ← hq] at hp
  linarith

/-- **C62, partial.** Inputs with at most five decimals are told apart.  Missing: all others, see
`float_keys_distinguish_refuted`. -/
theorem float_keys_distinguish_partial (p q : Rat) (hp : ∃ y : Int, p * 100000 = y)
    (hq : ∃ z : Int, q * 100000 = z) (h : floatKey p = floatKey q) : p = q := by
  obtain ⟨y, hy⟩ := hp
  obtain ⟨z, hz⟩ := hq
  unfold floatKey at h
  split at h <;> split at h
  · rename_i h1 h2
    simp only [Key.int.injEq] at h
    exact Rat.ext h (by rw [h1, h2])
  · cases h
  · cases h
  · simp only [Key.str.injEq] at h
    exact fmt5_val p q y z hy hz h

example : ∃ y : Int, (12345 / 1000 : Rat) * 100000 = y := ⟨1234500, by norm_num⟩

/-! ### C56: resuming -/

section Run
variable {α σ D β : Type}

/-- Specification of C56 for a program: whatever sessions were killed before (each with its own
cache schedule and kill point), a final session that is not killed delivers the rows of the run
without caching, and raises exactly when that one does. -/
def ResumesLikeUninterrupted (P : Prog α σ D β) (s0 : σ) (inputs : List α) : Prop :=
  ∀ (kills : List ((Nat → Bool) × Nat)) (w : Nat → Bool),
    let disk := killedSessions P s0 inputs kills Cache.fresh
    let st := session P s0 inputs w inputs.length disk
    st.rows = (plainRun P inputs s0).1 ∧ st.failed = (plainRun P inputs s0).2

/-- **C56, partial.** For inputs with pairwise different keys, and objects whose saved data restores
a state that behaves like the saved one, every history of kills and restarts gives the
results of the uninterrupted run.  Missing: inputs that share a key
(`resume_refuted_repeated_input`, `float_keys_distinguish_refuted`). -/
theorem resume_partial (P : Prog α σ D β) (sim : σ → σ → Prop) (F : Faithful P sim) (s0 : σ)
    (inputs : List α) (hn : (inputs.map P.key).Nodup) :
    ResumesLikeUninterrupted P s0 inputs := by
  intro kills w disk st
  obtain ⟨p, hp, hd⟩ := killed_good F hn kills [] (List.nil_prefix) Cache.fresh
    (fresh_good P sim s0)
  have o := session_outcome F hn w inputs.length hp hd
  rw [List.take_length] at o
  exact ⟨by simpa [final] using o.rows, by simpa [final] using o.failed⟩

/-- **C56, killed sessions.** A killed session has delivered a prefix of the rows of the
uninterrupted run. -/
theorem killed_rows_prefix (P : Prog α σ D β) (sim : σ → σ → Prop) (F : Faithful P sim) (s0 : σ)
    (inputs : List α) (hn : (inputs.map P.key).Nodup) (kills : List ((Nat → Bool) × Nat))
    (w : Nat → Bool) (kill : Nat) :
    (session P s0 inputs w kill (killedSessions P s0 inputs kills Cache.fresh)).rows
      <+: (plainRun P inputs s0).1 := by
  obtain ⟨p, hp, hd⟩ := killed_good F hn kills [] (List.nil_prefix) Cache.fresh
    (fresh_good P sim s0)
  have o := (session_outcome F hn w kill hp hd).rows
  rw [o]
  simp only [List.nil_append, final]
  have key : ∀ (l : List α) (n : Nat) (s : σ), (plainRun P (l.take n) s).1 <+: (plainRun P l s).1 := by
    intro l
    induction l with
    | nil => intro n s; simp
    | cons a l ih =>
      intro n s
      cases n with
      | zero => simp [plainRun]
      | succ n =>
        simp only [List.take_succ_cons, plainRun_cons]
        split
        · simp only [List.cons_prefix_cons, true_and]; exact ih n _
        · exact List.prefix_rfl
  exact key inputs kill s0

/-- A counter program: the state is a number, each call adds the input and outputs the sum; stops
above 100. -/
def counter : Prog Int Int Int Int where
  solve a s := (s + a, if s + a > 100 then 1 else 0, s + a)
  key a := intKey a
  enc s := s
  dec d _ := d

theorem counter_faithful : Faithful counter (fun a b => a = b) where
  equiv := ⟨fun _ => rfl, Eq.symm, Eq.trans⟩
  out := by rintro a s s' rfl; rfl
  next := by rintro a s s' rfl; rfl
  restore := by intros; rfl

/-- The hypotheses of `resume_partial` are met by a program that computes, is killed twice and
resumes from the file. -/
example : ([5, 7, 60, 50, 3].map counter.key).Nodup ∧ Faithful counter (fun a b => a = b) ∧
    (session counter 0 [5, 7, 60, 50, 3] (fun _ => false) 5
      (killedSessions counter 0 [5, 7, 60, 50, 3]
        [((fun i => i == 1), 3), ((fun _ => true), 3)] Cache.fresh)).rows = [5, 12, 72, 122] :=
  ⟨by decide, counter_faithful, by decide +kernel⟩

/-- **C56 refuted** for inputs with a repeated value: after a kill, the repeated input is
served from the file instead of being computed. -/
theorem resume_refuted_repeated_input :
    ¬ ∀ (P : Prog Int Int Int Int) (s0 : Int) (inputs : List Int),
        Faithful P (fun a b => a = b) → ResumesLikeUninterrupted P s0 inputs := by
  intro h
  have := (h counter 0 [5, 5] counter_faithful [((fun _ => true), 1)] (fun _ => false)).1
  revert this
  decide +kernel

/-! ### C61: state of the objects after a resumed run -/

/-- Specification of C61. -/
def ObjectsFinal (P : Prog α σ D β) (sim : σ → σ → Prop) (s0 : σ) (inputs : List α) : Prop :=
  ∀ (kills : List ((Nat → Bool) × Nat)) (w : Nat → Bool),
    let disk := killedSessions P s0 inputs kills Cache.fresh
    let st := session P s0 inputs w inputs.length disk
    sim st.objs (plainFinal P inputs s0)

/-- **C61, partial.** If at least one iteration of the last session was computed (not read from
the file), the objects end in the state of the uninterrupted run.  Missing: runs that read every
iteration from the file, `objects_final_refuted`. -/
theorem objects_final_partial (P : Prog α σ D β) (sim : σ → σ → Prop) (F : Faithful P sim)
    (s0 : σ) (inputs : List α) (hn : (inputs.map P.key).Nodup)
    (kills : List ((Nat → Bool) × Nat)) (w : Nat → Bool)
    (hc : (session P s0 inputs w inputs.length
      (killedSessions P s0 inputs kills Cache.fresh)).keepChecking = false) :
    sim (session P s0 inputs w inputs.length
      (killedSessions P s0 inputs kills Cache.fresh)).objs (plainFinal P inputs s0) := by
  obtain ⟨p, hp, hd⟩ := killed_good F hn kills [] (List.nil_prefix) Cache.fresh
    (fresh_good P sim s0)
  have o := session_outcome F hn w inputs.length hp hd
  rw [List.take_length] at o
  exact o.objs hc

example : (session counter 0 [5, 7, 60] (fun _ => false) 3
      (killedSessions counter 0 [5, 7, 60] [((fun i => i == 1), 3)] Cache.fresh)).keepChecking
      = false := by decide +kernel

/-- **C61 refuted.** When all iterations were cached, a repeated run leaves the objects in their
initial state. -/
theorem objects_final_refuted :
    ¬ ∀ (P : Prog Int Int Int Int) (s0 : Int) (inputs : List Int),
        Faithful P (fun a b => a = b) → (inputs.map P.key).Nodup →
        ObjectsFinal P (fun a b => a = b) s0 inputs := by
  intro h
  have := h counter 0 [5, 7] counter_faithful (by decide) [((fun _ => true), 2)] (fun _ => false)
  revert this
  decide +kernel

/-! ### C57: kills while the file is written -/

/-- Specification of C57: whatever the moments of the kills, a last undisturbed run finds a file
it can load and gives the results of the uninterrupted run. -/
def SurvivesKills (P : Prog α σ D β) (s0 : σ) (inputs : List α) : Prop :=
  ∀ (ks : List Kill) (w : Nat → Bool),
    lastRun P s0 inputs w (crashes P s0 inputs ks) = some (plainRun P inputs s0).1

/-- **C57 refuted.** A kill inside the write block leaves a file that does not load. -/
theorem survives_kills_refuted :
    ¬ ∀ (P : Prog Int Int Int Int) (s0 : Int) (inputs : List Int),
        Faithful P (fun a b => a = b) → (inputs.map P.key).Nodup → SurvivesKills P s0 inputs := by
  intro h
  have := h counter 0 [5, 7, 9] counter_faithful (by decide)
    [⟨fun _ => true, 1, true⟩] (fun _ => false)
  revert this
  decide +kernel

/-- **C57, partial.** With kills outside the write block the file always loads and the run resumes
correctly.  Missing: kills inside the block, `survives_kills_refuted`. -/
theorem survives_kills_partial (P : Prog α σ D β) (sim : σ → σ → Prop) (F : Faithful P sim)
    (s0 : σ) (inputs : List α) (hn : (inputs.map P.key).Nodup) (ks : List Kill)
    (hk : ∀ k ∈ ks, k.inWrite = false) (w : Nat → Bool) :
    lastRun P s0 inputs w (crashes P s0 inputs ks) = some (plainRun P inputs s0).1 := by
  have key : ∀ (ks : List Kill), (∀ k ∈ ks, k.inWrite = false) → ∀ (p : List α) (c : Cache D β),
      p <+: inputs → GoodDisk P sim s0 p c →
      ∃ p' c', p' <+: inputs ∧ GoodDisk P sim s0 p' c' ∧
        ks.foldl (fun d k => crash P s0 inputs k d) (.ok c) = .ok c' := by
    intro ks
    induction ks with
    | nil => intro _ p c hp hd; exact ⟨p, c, hp, hd, rfl⟩
    | cons k ks ih =>
      intro hk p c hp hd
      have h1 : k.inWrite = false := hk k (by simp)
      have h2 : crash P s0 inputs k (.ok c) =
          .ok (session P s0 inputs k.writes k.iters c).disk := by
        simp only [crash, h1]
        split <;> simp
      obtain ⟨p', hp', hd'⟩ := (session_outcome F hn k.writes k.iters hp hd).disk
      simp only [List.foldl_cons, h2]
      exact ih (fun k' hk' => hk k' (by simp [hk'])) p' _ hp' hd'
  obtain ⟨p, c, hp, hd, e⟩ := key ks hk [] Cache.fresh List.nil_prefix (fresh_good P sim s0)
  rw [crashes, e]
  have o := session_outcome F hn w inputs.length hp hd
  rw [List.take_length] at o
  simp only [lastRun]
  rw [o.rows]; simp [final]

example : ∀ k ∈ [(⟨fun _ => true, 2, false⟩ : Kill), ⟨fun i => i == 0, 1, false⟩],
    k.inWrite = false := by simp

end Run
end Phyem.Iterator
