import Verif.Dds.Reach
import Mathlib.Tactic.NormNum
import Mathlib.Data.Nat.Lattice

/-!
# What the stream function is
-/

namespace Phyem.Dds

variable {regs : List Reg} {ψ : ℚ → ℚ → ℚ}

/-- Corners that have the same seven decimals have the same value. -/
def Fits (regs : List Reg) (ψ : ℚ → ℚ → ℚ) : Prop :=
  ∀ r ∈ regs, ∀ r' ∈ regs, ∀ c c', r.keyAt c = r'.keyAt c' → r.atCorner ψ c = r'.atCorner ψ c'

/-- Everything found so far is `ψ + C`. -/
structure Val (regs : List Reg) (ψ : ℚ → ℚ → ℚ) (C : ℚ) (s : St) : Prop where
  pool : ∀ p ∈ s.pool, ∀ r ∈ regs, ∀ c, r.keyAt c = p.1 → p.2 = r.atCorner ψ c + C
  sf : ∀ p ∈ s.sf, ∀ r ∈ regs, r.key = p.1 → ∀ i j, i < r.n0 → j < r.n1 → p.2 i j = ψ (r.x i j) (r.y i j) + C

lemma lookup_mem {α β : Type} [BEq α] [LawfulBEq α] {l : List (α × β)} {k : α} {b : β} (h : l.lookup k = some b) :
    (k, b) ∈ l := by
  induction l with
  | nil => simp at h
  | cons p l ih =>
    obtain ⟨a, c⟩ := p
    rw [List.lookup_cons] at h
    by_cases e : k = a
    · subst e
      simp only [BEq.rfl, Option.some.injEq] at h
      subst h; simp
    · have : (k == a) = false := by simpa using e
      rw [this] at h
      exact List.mem_cons_of_mem _ (ih h)

lemma Val.add {C : ℚ} {s : St} (hn : (regs.map Reg.key).Nodup) (hF : Fits regs ψ) (hc : ∀ r ∈ regs, r.Carries ψ)
    (hp : ∀ r ∈ regs, r.HasPoints) {r : Reg} (hr : r ∈ regs) {s' : St} {c : Corner} {a : ℚ} (ha : a = r.atCorner ψ c + C)
    (hV : Val regs ψ C s) (h1 : s'.pool = poolAfter s.pool r (compute id r c a))
    (h2 : s'.sf = (r.key, compute id r c a) :: s.sf) : Val regs ψ C s' := by
  have hcomp : ∀ i j, i < r.n0 → j < r.n1 → compute id r c a i j = ψ (r.x i j) (r.y i j) + C := by
    intro i j hi hj
    rw [compute_potential (hp r hr) (hc r hr) c a i j hi hj, ha]; ring
  refine ⟨?_, ?_⟩
  · intro p hpm r' hr' c' hk
    rw [h1, mem_poolAfter] at hpm
    rcases hpm with ⟨d, rfl⟩ | hpm
    · dsimp only at hk ⊢
      rw [hcomp _ _ (index_lt (hp r hr) d).1 (index_lt (hp r hr) d).2, hF r' hr' r hr c' d hk]
      rfl
    · exact hV.pool p hpm r' hr' c' hk
  · intro p hpm r' hr' hk
    rw [h2] at hpm
    rcases List.mem_cons.1 hpm with rfl | hpm
    · obtain rfl := eq_of_key hn hr' hr hk
      exact hcomp
    · exact hV.sf p hpm r' hr' hk

lemma pass_val {C : ℚ} (hn : (regs.map Reg.key).Nodup) (hF : Fits regs ψ) (hc : ∀ r ∈ regs, r.Carries ψ)
    (hp : ∀ r ∈ regs, r.HasPoints) : ∀ (l : List Reg), (∀ r ∈ l, r ∈ regs) → ∀ s s' : St, s.empty = false →
      Val regs ψ C s → l.foldlM (visit id) s = some s' → s'.empty = false ∧ Val regs ψ C s' := by
  intro l
  induction l with
  | nil =>
    intro _ s s' hE hV h
    rw [List.foldlM_nil] at h
    obtain rfl : s = s' := by simpa using h
    exact ⟨hE, hV⟩
  | cons r l ih =>
    intro hl s s' hE hV h
    have hr := hl r (by simp)
    have hl' : ∀ r ∈ l, r ∈ regs := fun x hx => hl x (by simp [hx])
    rw [List.foldlM_cons] at h
    rcases visit_cases (st := id) hE (hp r hr) with ⟨hd, hv⟩ | ⟨hd, hns, hv⟩ | ⟨hd, c, a, hsome, hv⟩
    · rw [hv] at h
      exact ih hl' s s' hE hV h
    · rw [hv] at h
      exact ih hl' { s with full := false } s' hE ⟨hV.1, hV.2⟩ h
    · rw [hv] at h
      have ha := hV.pool _ (lookup_mem (renewStart_some hsome)) r hr c rfl
      exact ih hl' _ s' (by exact hE) (hV.add hn hF hc hp hr (c := c) (a := a) ha rfl rfl) h

lemma passes_val {C : ℚ} (hn : (regs.map Reg.key).Nodup) (hF : Fits regs ψ) (hc : ∀ r ∈ regs, r.Carries ψ)
    (hp : ∀ r ∈ regs, r.HasPoints) : ∀ (fuel : ℕ) (s : St), s.empty = false → Val regs ψ C s →
      ∀ out, passes id regs fuel s = some out → ∀ p ∈ out, ∀ r ∈ regs, r.key = p.1 →
        ∀ i j, i < r.n0 → j < r.n1 → p.2 i j = ψ (r.x i j) (r.y i j) + C := by
  intro fuel
  induction fuel with
  | zero => intro s _ _ out h; cases h
  | succ fuel ih =>
    intro s hE hV out h
    rw [passes_succ, Option.bind_eq_some_iff] at h
    obtain ⟨s', h1, h2⟩ := h
    obtain ⟨hE', hV'⟩ := pass_val hn hF hc hp regs (fun _ h => h) { s with full := true } s' hE ⟨hV.1, hV.2⟩ h1
    by_cases hlen : s'.sf.length > s.sf.length
    · rw [if_pos hlen] at h2
      by_cases hfull : s'.full = true
      · rw [if_pos hfull] at h2
        simp only [Option.some.injEq] at h2
        subst h2
        exact hV'.sf
      · rw [if_neg hfull] at h2
        exact ih s' hE' hV' out h2
    · rw [if_neg hlen] at h2
      cases h2

lemma reached_base {S : Reg → Prop} {r : Reg} (h : Reached regs S r) : ∃ x ∈ regs, S x := by
  induction h with
  | base hx hS => exact ⟨_, hx, hS⟩
  | step _ _ _ ih => exact ih

/-- The constant is such that the first corner of the first region has the value of the shift, or the given point has the
given value plus the shift. -/
def Const (regs : List Reg) (ψ : ℚ → ℚ → ℚ) (start : Option ((ℚ × ℚ) × ℚ)) (shift C : ℚ) : Prop :=
  match start with
  | none => ∀ r, regs.head? = some r → r.atCorner ψ .mm + C = shift
  | some (p, s) => ∀ r ∈ regs, ∀ c, r.keyAt c = keyOf p.1 p.2 → r.atCorner ψ c + C = s + shift

/-- If the values in all regions belong to `ψ`, the computed stream function is `ψ` up to one constant for all regions. -/
theorem stream_values (hn : (regs.map Reg.key).Nodup) (hp : ∀ r ∈ regs, r.HasPoints) (hF : Fits regs ψ)
    (hc : ∀ r ∈ regs, r.Carries ψ) (start : Option ((ℚ × ℚ) × ℚ)) (shift : ℚ) {out : List (ℕ × (ℕ → ℕ → ℚ))}
    (h : streamfunction id regs start shift = some out) :
    ∃ C, Const regs ψ start shift C ∧ ∀ r ∈ regs, ∃ f, out.lookup r.key = some f ∧
      ∀ i j, i < r.n0 → j < r.n1 → f i j = ψ (r.x i j) (r.y i j) + C := by
  have hreg := (stream_regions id hn hp start shift h).2
  have hne := ((stream_exists id hn hp start shift).1 (by rw [h]; rfl))
  -- it is enough to know every entry
  suffices hs : ∃ C, Const regs ψ start shift C ∧ ∀ p ∈ out, ∀ r ∈ regs, r.key = p.1 →
      ∀ i j, i < r.n0 → j < r.n1 → p.2 i j = ψ (r.x i j) (r.y i j) + C by
    obtain ⟨C, h1, h2⟩ := hs
    refine ⟨C, h1, fun r hr => ?_⟩
    have := lookup_isSome_iff.2 ((hreg r.key).2 (List.mem_map_of_mem hr))
    obtain ⟨f, hf⟩ := Option.isSome_iff_exists.1 this
    exact ⟨f, hf, h2 _ (lookup_mem hf) r hr rfl⟩
  unfold streamfunction at h
  rw [Option.map_eq_some_iff] at h
  obtain ⟨l, hl, rfl⟩ := h
  suffices hs : ∃ C, Const regs ψ start 0 C ∧ ∀ p ∈ l, ∀ r ∈ regs, r.key = p.1 →
      ∀ i j, i < r.n0 → j < r.n1 → p.2 i j = ψ (r.x i j) (r.y i j) + C by
    obtain ⟨C, h1, h2⟩ := hs
    refine ⟨C + shift, ?_, ?_⟩
    · cases start with
      | none => intro r hr; have := h1 r hr; linarith
      | some q =>
        obtain ⟨p, s⟩ := q
        intro r hr c hk
        have := h1 r hr c hk; linarith
    · by_cases hsh : shift ≠ 0
      · rw [if_pos hsh]
        intro p hpm r hr hk i j hi hj
        obtain ⟨q, hq, rfl⟩ := List.mem_map.1 hpm
        have := h2 q hq r hr hk i j hi hj
        dsimp only [id]
        rw [this]; ring
      · rw [if_neg hsh]
        push Not at hsh
        subst hsh
        intro p hpm r hr hk i j hi hj
        rw [h2 p hpm r hr hk i j hi hj]; ring
  cases regs with
  | nil => exact absurd rfl hne.1
  | cons r rest =>
    cases start with
    | none =>
      refine ⟨- r.atCorner ψ .mm, ?_, ?_⟩
      · intro x hx
        simp only [List.head?_cons, Option.some.injEq] at hx
        subst hx; ring
      · obtain ⟨s', h1, h2⟩ := passes_first (st := id) hp hn
        dsimp only at hl
        rw [h2] at hl
        have hV0 : Val (r :: rest) ψ (- r.atCorner ψ .mm) ⟨[], [], false, true⟩ := ⟨by simp, by simp⟩
        have hV1 : Val (r :: rest) ψ (- r.atCorner ψ .mm) (firstSt id r) :=
          hV0.add hn hF hc hp (r := r) (by simp) (c := .mm) (a := 0) (by ring) rfl rfl
        obtain ⟨hE', hV'⟩ := pass_val hn hF hc hp (r :: rest) (fun _ h => h) _ s' rfl hV1 h1
        by_cases hfull : s'.full = true
        · rw [if_pos hfull] at hl
          simp only [Option.some.injEq] at hl
          subst hl
          exact hV'.sf
        · rw [if_neg hfull] at hl
          exact passes_val hn hF hc hp _ s' hE' hV' l hl
    | some q =>
      obtain ⟨p, s⟩ := q
      dsimp only at hl
      -- one begins somewhere
      have hb : ∃ x ∈ r :: rest, ∃ c, x.keyAt c = keyOf p.1 p.2 := by
        exact reached_base (hne.2 r (by simp))
      obtain ⟨x, hx, c, hk⟩ := hb
      refine ⟨s - x.atCorner ψ c, ?_, ?_⟩
      · intro z hz d hd
        rw [hF z hz x hx d c (by rw [hd, hk])]; ring
      · refine passes_val hn hF hc hp _ _ rfl ⟨?_, by simp⟩ l hl
        intro q hq z hz d hd
        simp only [List.mem_singleton] at hq
        subst hq
        dsimp only at hd ⊢
        rw [hF z hz x hx d c (by rw [hd, hk])]; ring

end Phyem.Dds
