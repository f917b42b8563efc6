import Verif.Monitor.Model
import Mathlib.Tactic.Linarith
import Mathlib.Tactic.NormNum
import Mathlib.Tactic.FieldSimp
import Mathlib.Tactic.Ring
import Mathlib.Tactic.Positivity
import Mathlib.Data.List.Induction

/-! # What is in the file of results when the process ends -/

namespace Phyem.Monitor

variable {R : Type}

lemma step_shape {s s' : St R} {e : Ev R} (h : step s e = some s') :
    s'.ast = s.ast ∧ s'.rpt = s.rpt ∧ s'.start = s.start ∧ s'.rdf = s.rdf ++ [e.row] ∧ s'.times = s.times ++ [some (e.t1 - e.t0)] ∧
    s'.totals = s.totals ++ [e.t1 - s.start] ∧
    (s.ast ≤ e.t1 - s.lastAst → s'.lastAst = e.t1 ∧ s'.csv = if e.ok1 || e.ok2 then some (s.rdf ++ [e.row]) else s.csv) ∧
    (¬s.ast ≤ e.t1 - s.lastAst → s'.lastAst = s.lastAst ∧ s'.csv = s.csv) := by
  unfold step at h
  simp only at h
  by_cases h1 : s.ast ≤ e.t1 - s.lastAst
  · rw [if_pos h1] at h
    unfold save report at h
    rcases e with ⟨t0, t1, row, ok1, ok2⟩
    cases ok1 <;> cases ok2 <;> simp only [if_true, Bool.false_eq_true, if_false] at h
    all_goals
      by_cases h2 : s.rpt ≤ t1 - s.lastRpt
      · rw [if_pos h2] at h
        by_cases h3 : (s.times ++ [some (t1 - t0)]).length - 1 = 0
        · rw [if_pos h3] at h; cases h
        · rw [if_neg h3] at h; cases h; simp [h1]
      · rw [if_neg h2] at h; cases h; simp [h1]
  · rw [if_neg h1] at h
    unfold report at h
    by_cases h2 : s.rpt ≤ e.t1 - s.lastRpt
    · rw [if_pos h2] at h
      simp only at h
      by_cases h3 : (s.times ++ [some (e.t1 - e.t0)]).length - 1 = 0
      · rw [if_pos h3] at h; cases h
      · rw [if_neg h3] at h; cases h; simp [h1]
    · rw [if_neg h2] at h; cases h; simp [h1]

lemma step_total {s : St R} (hs : s.times ≠ []) (e : Ev R) : ∃ s', step s e = some s' := by
  have hl : 0 < s.times.length := List.length_pos_iff.2 hs
  unfold step
  simp only
  have key : ∀ s0 : St R, s0.times = s.times ++ [some (e.t1 - e.t0)] → ∃ s', report s0 = some s' := by
    intro s0 h0
    unfold report
    rw [if_neg]
    · exact ⟨_, rfl⟩
    · rw [h0]; simp; omega
  by_cases h1 : s.ast ≤ e.t1 - s.lastAst
  · rw [if_pos h1]
    split_ifs with h2
    · obtain ⟨s', h'⟩ := key { save { s with rdf := s.rdf ++ [e.row], times := s.times ++ [some (e.t1 - e.t0)], totals := s.totals ++ [e.t1 - s.start] } e.ok1 e.ok2 with lastAst := e.t1 }
        (by unfold save; split_ifs <;> rfl)
      rw [h']
      exact ⟨_, rfl⟩
    · exact ⟨_, rfl⟩
  · rw [if_neg h1]
    split_ifs with h2
    · obtain ⟨s', h'⟩ := key { s with rdf := s.rdf ++ [e.row], times := s.times ++ [some (e.t1 - e.t0)], totals := s.totals ++ [e.t1 - s.start] } rfl
      rw [h']
      exact ⟨_, rfl⟩
    · exact ⟨_, rfl⟩

/-- Iterations never fail in the monitor, whatever clocks and files do; the tables have one entry for each iteration and one for the initial values. -/
theorem steps_rows {factor n0 n1 n2 : ℚ} {r0 : R} {old : Option (List R)} {s : St R} (hi : init factor n0 n1 n2 r0 old = some s) (es : List (Ev R)) :
    ∃ s', steps s es = some s' ∧ s'.rdf = r0 :: es.map Ev.row ∧ s'.times = none :: es.map (fun e => some (e.t1 - e.t0)) ∧
      s'.totals = 0 :: es.map (fun e => e.t1 - n2) := by
  have main : ∀ (es : List (Ev R)) (s : St R), s.times ≠ [] → ∃ s', steps s es = some s' ∧ s'.rdf = s.rdf ++ es.map Ev.row ∧
      s'.times = s.times ++ es.map (fun e => some (e.t1 - e.t0)) ∧ s'.totals = s.totals ++ es.map (fun e => e.t1 - s.start) := by
    intro es
    induction es with
    | nil => intro s _; exact ⟨s, rfl, by simp, by simp, by simp⟩
    | cons e es ih =>
      intro s hs
      obtain ⟨s1, h1⟩ := step_total hs e
      obtain ⟨_, _, g3, g4, g5, g6, _⟩ := step_shape h1
      obtain ⟨s', h2, k1, k2, k3⟩ := ih s1 (by rw [g5]; simp)
      refine ⟨s', ?_, ?_, ?_, ?_⟩
      · unfold steps; rw [h1]; exact h2
      · rw [k1, g4]; simp
      · rw [k2, g5]; simp
      · rw [k3, g6, g3]; simp
  have hs : s.times = [none] ∧ s.rdf = [r0] ∧ s.totals = [0] ∧ s.start = n2 := by
    unfold init at hi
    split_ifs at hi
    cases hi
    exact ⟨rfl, rfl, rfl, rfl⟩
  obtain ⟨g1, g2, g3, g4⟩ := hs
  obtain ⟨s', h, k1, k2, k3⟩ := main es s (by rw [g1]; simp)
  exact ⟨s', h, by rw [k1, g2]; rfl, by rw [k2, g1]; rfl, by rw [k3, g3, g4]; rfl⟩

lemma steps_append (es : List (Ev R)) (e : Ev R) : ∀ s : St R, steps s (es ++ [e]) = (steps s es).bind fun s => step s e := by
  induction es with
  | nil => intro s; simp only [List.nil_append, steps, Option.bind_some]; cases step s e <;> rfl
  | cons x es ih =>
    intro s
    simp only [List.cons_append, steps]
    cases step s x with
    | none => rfl
    | some s1 => exact ih s1

lemma steps_ast {s : St R} : ∀ {es : List (Ev R)} {s' : St R}, steps s es = some s' → s'.ast = s.ast := by
  intro es
  induction es generalizing s with
  | nil => intro s' h; cases h; rfl
  | cons e es ih =>
    intro s' h
    unfold steps at h
    rcases h1 : step s e with _ | s1
    · rw [h1] at h; cases h
    · rw [h1] at h
      rw [ih h, (step_shape h1).1]

/-- Whichever writes fail, the file holds the rows of the first iterations, or what was there before. -/
theorem csv_prefix {factor n0 n1 n2 : ℚ} {r0 : R} {old : Option (List R)} {s s' : St R} (hi : init factor n0 n1 n2 r0 old = some s) {es : List (Ev R)}
    (h : steps s es = some s') : s'.csv = old ∨ ∃ k ≤ es.length, s'.csv = some (r0 :: (es.take k).map Ev.row) := by
  induction es using List.reverseRecOn generalizing s' with
  | nil =>
    cases h
    unfold init at hi
    split_ifs at hi
    cases hi
    exact Or.inl rfl
  | append_singleton es e ih =>
    rw [steps_append] at h
    obtain ⟨s1, h1, k1, _⟩ := steps_rows hi es
    rw [h1, Option.bind_some] at h
    obtain ⟨_, _, _, _, _, _, g7, g8⟩ := step_shape h
    have keep : s'.csv = s1.csv → s'.csv = old ∨ ∃ k ≤ (es ++ [e]).length, s'.csv = some (r0 :: ((es ++ [e]).take k).map Ev.row) := by
      intro hc
      rcases ih h1 with h2 | ⟨k, hk, h2⟩
      · left; rw [hc, h2]
      · right
        refine ⟨k, by simp; omega, ?_⟩
        rw [hc, h2, List.take_append_of_le_length hk]
    by_cases hw : s1.ast ≤ e.t1 - s1.lastAst
    · obtain ⟨_, g⟩ := g7 hw
      cases hok : (e.ok1 || e.ok2) with
      | false => rw [hok, if_neg (by simp)] at g; exact keep g
      | true =>
        rw [hok, if_pos rfl] at g
        right
        refine ⟨(es ++ [e]).length, le_refl _, ?_⟩
        rw [g, List.take_length, k1]
        simp
    · exact keep (g8 hw).2

/-- If every save succeeds at one of its two attempts, then after any iteration the file holds all rows but those of iterations that ended less than
`600 (1 - factor)` seconds after the last iteration in the file. So this is all that a crash between saves can lose. -/
theorem autosave {factor n0 n1 n2 : ℚ} {r0 : R} {old : Option (List R)} {s s' : St R} (hi : init factor n0 n1 n2 r0 old = some s) {es : List (Ev R)}
    (hne : es ≠ []) (hclock : ∀ e ∈ es, n0 ≤ e.t1) (hok : ∀ e ∈ es, (e.ok1 || e.ok2) = true) (h : steps s es = some s') :
    ∃ (j : ℕ) (ej : Ev R), es[j]? = some ej ∧ s'.csv = some (r0 :: (es.take (j + 1)).map Ev.row) ∧
      ∀ (i : ℕ) (e : Ev R), j < i → es[i]? = some e → e.t1 - ej.t1 < 600 * (1 - factor) := by
  have hinit : s.ast = 600 * (1 - factor) ∧ s.lastAst = n0 - 600 * (1 - factor) := by
    unfold init at hi
    split_ifs at hi
    cases hi
    exact ⟨rfl, rfl⟩
  have main : ∀ (es : List (Ev R)) (s' : St R), es ≠ [] → (∀ e ∈ es, n0 ≤ e.t1) → (∀ e ∈ es, (e.ok1 || e.ok2) = true) → steps s es = some s' →
      ∃ (j : ℕ) (ej : Ev R), es[j]? = some ej ∧ s'.csv = some (r0 :: (es.take (j + 1)).map Ev.row) ∧ s'.lastAst = ej.t1 ∧
        ∀ (i : ℕ) (e : Ev R), j < i → es[i]? = some e → e.t1 - ej.t1 < 600 * (1 - factor) := by
    intro es
    induction es using List.reverseRecOn with
    | nil => intro s' h; exact absurd rfl h
    | append_singleton es e ih =>
      intro s' _ hclock hok h
      rw [steps_append] at h
      obtain ⟨s1, h1, k1, _⟩ := steps_rows hi es
      rw [h1, Option.bind_some] at h
      have ha := steps_ast h1
      rw [hinit.1] at ha
      obtain ⟨_, _, _, _, _, _, g7, g8⟩ := step_shape h
      have saved : s1.ast ≤ e.t1 - s1.lastAst → ∃ (j : ℕ) (ej : Ev R), (es ++ [e])[j]? = some ej ∧
          s'.csv = some (r0 :: ((es ++ [e]).take (j + 1)).map Ev.row) ∧ s'.lastAst = ej.t1 ∧
          ∀ (i : ℕ) (e' : Ev R), j < i → (es ++ [e])[i]? = some e' → e'.t1 - ej.t1 < 600 * (1 - factor) := by
        intro hw
        obtain ⟨g1, g2⟩ := g7 hw
        rw [hok e (by simp), if_pos rfl] at g2
        refine ⟨es.length, e, by simp, ?_, g1, ?_⟩
        · rw [g2, k1, List.take_of_length_le (by simp)]
          simp
        · intro i e' hi' he'
          have := (List.getElem?_eq_some_iff.1 he').1
          simp at this
          omega
      by_cases hes : es = []
      · subst hes
        cases h1
        apply saved
        rw [hinit.1, hinit.2]
        have := hclock e (by simp)
        linarith
      · by_cases hw : s1.ast ≤ e.t1 - s1.lastAst
        · exact saved hw
        · obtain ⟨j, ej, hj, hc, hl, hlt⟩ := ih s1 hes (fun x hx => hclock x (by simp [hx])) (fun x hx => hok x (by simp [hx])) h1
          obtain ⟨g1, g2⟩ := g8 hw
          have hjl := (List.getElem?_eq_some_iff.1 hj).1
          refine ⟨j, ej, ?_, ?_, ?_, ?_⟩
          · rw [List.getElem?_append_left hjl, hj]
          · rw [g2, hc, List.take_append_of_le_length (by omega)]
          · rw [g1, hl]
          · intro i e' hi' he'
            by_cases hil : i < es.length
            · rw [List.getElem?_append_left hil] at he'
              exact hlt i e' hi' he'
            · have hlen := (List.getElem?_eq_some_iff.1 he').1
              have : i = es.length := by simp at hlen; omega
              subst this
              simp at he'
              subst he'
              rw [ha, hl] at hw
              linarith
  obtain ⟨j, ej, h1, h2, _, h3⟩ := main es s' hne hclock hok h
  exact ⟨j, ej, h1, h2, h3⟩

/-- With factor one, every iteration is in the file when it has ended, if the clock does not go back. -/
theorem autosave_each {n0 n1 n2 : ℚ} {r0 : R} {old : Option (List R)} {s s' : St R} (hi : init 1 n0 n1 n2 r0 old = some s) {es : List (Ev R)}
    (hne : es ≠ []) (hclock : (n0 :: es.map Ev.t1).Pairwise (· ≤ ·)) (hok : ∀ e ∈ es, (e.ok1 || e.ok2) = true) (h : steps s es = some s') :
    s'.csv = some (r0 :: es.map Ev.row) := by
  rw [List.pairwise_cons] at hclock
  obtain ⟨j, ej, hj, hc, hlt⟩ := autosave hi hne (fun e he => hclock.1 _ (List.mem_map_of_mem he)) hok h
  have hjl := (List.getElem?_eq_some_iff.1 hj).1
  have : j + 1 = es.length := by
    by_contra hcon
    have hn : j + 1 < es.length := by omega
    have h1 := hlt (j + 1) es[j + 1] (by omega) (List.getElem?_eq_getElem hn)
    have h2 := List.pairwise_iff_getElem.1 hclock.2 j (j + 1) (by simpa using hjl) (by simpa using hn) (by omega)
    simp only [List.getElem_map] at h2
    rw [(List.getElem?_eq_some_iff.1 hj).2] at h2
    norm_num at h1
    linarith
  rw [hc, this, List.take_length]

/-- Three iterations, the second of which cannot be written. -/
def exEvs (ok : Bool) : List (Ev ℕ) := [⟨0, 10, 1, true, true⟩, ⟨10, 700, 2, ok, ok⟩, ⟨700, 1200, 3, true, true⟩]

example : (∀ e ∈ exEvs true, (0 : ℚ) ≤ e.t1) ∧ (∀ e ∈ exEvs true, (e.ok1 || e.ok2) = true) ∧
    ((init 0 0 0 0 0 none).bind fun s => (steps s (exEvs true)).map St.csv) = some (some [0, 1, 2]) :=
  ⟨by decide +kernel, by decide, by decide +kernel⟩

/-- If both attempts fail, the next save is not before another period: here an iteration that ended more than 600 seconds after the last one in the
file is lost. -/
theorem autosave_failed_refuted : ((init 0 0 0 0 0 none).bind fun s => (steps s (exEvs false)).map St.csv) = some (some [0, 1]) ∧
    (∃ e0 e2, (exEvs false)[0]? = some e0 ∧ (exEvs false)[2]? = some e2 ∧ 600 * (1 - 0) ≤ e2.t1 - e0.t1) := by
  refine ⟨by decide +kernel, _, _, rfl, rfl, ?_⟩
  norm_num

/-- A crash while the file is written loses what was in it: here all rows were in the file, and after a crash in the next save there are none, or
fewer. -/
theorem crash_in_save_refuted : ((init 1 0 0 0 0 none).bind fun s => (steps s ((exEvs true).take 2)).map St.csv) = some (some [0, 1, 2]) ∧
    ((init 1 0 0 0 0 none).bind fun s => (steps s (exEvs true)).map fun s => (interrupted s 0, interrupted s 2)) = some ([], [0, 1]) := by
  constructor <;> decide +kernel

lemma saveOver_shape (s : St R) : ∀ as : List (Bool × ℚ), (saveOver s as).times = s.times ∧ (saveOver s as).rdf = s.rdf ∧
    ((saveOver s as).csv = s.csv ∨ (saveOver s as).csv = some s.rdf)
  | [] => ⟨rfl, rfl, Or.inl rfl⟩
  | (ok, t) :: as => by
    unfold saveOver
    split_ifs
    · exact ⟨rfl, rfl, Or.inr rfl⟩
    · exact ⟨rfl, rfl, Or.inl rfl⟩
    · exact saveOver_shape s as

lemma saveOver_ok (s : St R) : ∀ (as : List (Bool × ℚ)) (k : ℕ), (∃ t, as[k]? = some (true, t)) → (∀ (i : ℕ) a, i < k → as[i]? = some a → a.2 ≤ 60) →
    (saveOver s as).csv = some s.rdf
  | [], k, h, _ => by obtain ⟨t, h⟩ := h; simp at h
  | (ok, t) :: as, 0, h, _ => by
    obtain ⟨t', h⟩ := h
    simp at h
    unfold saveOver
    rw [h.1]
    simp
  | (ok, t) :: as, k + 1, h, h2 => by
    unfold saveOver
    have h0 := h2 0 (ok, t) (by omega) (by simp)
    split_ifs with h3 h4
    · rfl
    · exact absurd h4 (not_lt.2 h0)
    · exact saveOver_ok s as k (by simpa using h) (fun i a hi ha => h2 (i + 1) a (by omega) (by simpa using ha))

/-- After a run, the file holds all rows, if one of the last attempts succeeds within a minute. -/
theorem run_saved {factor n0 n1 n2 : ℚ} {r0 : R} {old : Option (List R)} {s : St R} (hi : init factor n0 n1 n2 r0 old = some s) {es : List (Ev R)}
    (hne : es ≠ []) {as : List (Bool × ℚ)} {k : ℕ} (hk : ∃ t, as[k]? = some (true, t)) (hb : ∀ (i : ℕ) a, i < k → as[i]? = some a → a.2 ≤ 60) :
    ∃ s', run s es as = some s' ∧ s'.csv = some (r0 :: es.map Ev.row) := by
  obtain ⟨s1, h1, k1, k2, _⟩ := steps_rows hi es
  have hs := saveOver_shape s1 as
  unfold run
  rw [h1, Option.bind_some]
  unfold report
  rw [if_neg]
  · refine ⟨_, rfl, ?_⟩
    show (saveOver s1 as).csv = _
    rw [saveOver_ok s1 as k hk hb, k1]
  · rw [hs.1, k2]
    have := List.length_pos_iff.2 hne
    simp
    exact hne

example : ∃ t : ℚ, ([(false, 5), (false, 10), (true, 10)] : List (Bool × ℚ))[2]? = some (true, t) := ⟨10, rfl⟩

/-- A run over an empty range fails in its report, which divides by the number of iterations. -/
theorem run_empty_refuted {factor n0 n1 n2 : ℚ} {r0 : R} {old : Option (List R)} {s : St R} (hi : init factor n0 n1 n2 r0 old = some s)
    (as : List (Bool × ℚ)) : run s [] as = none := by
  obtain ⟨s1, h1, _, k2, _⟩ := steps_rows hi []
  unfold run
  rw [h1, Option.bind_some]
  unfold report
  rw [if_pos]
  rw [(saveOver_shape s1 as).1, k2]
  rfl

/-- The estimated remaining time: in proportion to the iterations that remain, and nothing at the end. -/
theorem remaining_spec {factor n0 n1 n2 : ℚ} {r0 : R} {old : Option (List R)} {s s' : St R} (hi : init factor n0 n1 n2 r0 old = some s) {es : List (Ev R)}
    (hne : es ≠ []) (h : steps s es = some s') {num : ℕ} (now : ℚ) :
    remaining s' num now * es.length = (now - n2) * ((num : ℚ) - es.length) ∧ (num = es.length → remaining s' num now = 0) := by
  obtain ⟨s1, h1, _, k2, _⟩ := steps_rows hi es
  rw [h] at h1
  cases h1
  have hst : s'.start = n2 := by
    have : ∀ (es : List (Ev R)) (s s' : St R), steps s es = some s' → s'.start = s.start := by
      intro es
      induction es with
      | nil => intro s s' h; cases h; rfl
      | cons e es ih =>
        intro s s' h
        unfold steps at h
        rcases h1 : step s e with _ | s1
        · rw [h1] at h; cases h
        · rw [h1] at h
          rw [ih s1 s' h, (step_shape h1).2.2.1]
    rw [this es s s' h]
    unfold init at hi
    split_ifs at hi
    cases hi
    rfl
  have hl : (0 : ℚ) < es.length := by exact_mod_cast List.length_pos_iff.2 hne
  have e : remaining s' num now = (now - n2) / es.length * num - (now - n2) := by
    unfold remaining
    rw [hst, k2]
    simp
  rw [e]
  constructor
  · field_simp
  · rintro rfl
    field_simp
    ring

/-- The percentage is between 0 and 100, and 100 exactly at the end. -/
theorem percentage_spec {done num : ℕ} (hn : 0 < num) (h : done ≤ num) : 0 ≤ percentage done num ∧ percentage done num ≤ 100 ∧
    (percentage done num = 100 ↔ done = num) := by
  have hn' : (0 : ℚ) < num := by exact_mod_cast hn
  have h' : (done : ℚ) ≤ num := by exact_mod_cast h
  have hd : (done : ℚ) / num ≤ 1 := by rw [div_le_one hn']; exact h'
  have h0 : (0 : ℚ) ≤ 10000 * ((done : ℚ) / num) := by positivity
  have h1 := Int.floor_le (10000 * ((done : ℚ) / num))
  have h2 : (0 : ℚ) ≤ (⌊10000 * ((done : ℚ) / num)⌋ : ℚ) := by exact_mod_cast Int.floor_nonneg.2 h0
  unfold percentage
  refine ⟨by linarith, by linarith, ?_, ?_⟩
  · intro h3
    have : (10000 : ℚ) ≤ 10000 * ((done : ℚ) / num) := by linarith
    have h4 : (1 : ℚ) ≤ (done : ℚ) / num := by linarith
    rw [le_div_iff₀ hn', one_mul] at h4
    exact le_antisymm h (by exact_mod_cast h4)
  · rintro rfl
    rw [div_self (ne_of_gt hn')]
    norm_num

end Phyem.Monitor
