import Verif.Triangle.Model
import Verif.Incidence.Instances
import Verif.Poly.Forms

namespace Phyem.Triangle

open Phyem.Numbering Phyem.Incidence Finset Poly

theorem stk0 (px py : ℕ) : Stacked 0 (lnT0 px py) (nT0 px py) := by
  simp [lnT0, nT0, Stacked, Comp.size]; ring

theorem stk1o (px py : ℕ) : Stacked 0 (lnT1o px py) (nT1 px py) := by
  simp [lnT1o, nT1, Stacked, Comp.size]

theorem stk1i (px py : ℕ) : Stacked 0 (lnT1i px py) (nT1 px py) := by
  simp [lnT1i, nT1, Stacked, Comp.size]; ring

theorem at0_valid {px py i j : ℕ} (hi : i < px + 1) (hj : j < py + 1) :
    ∃ x, (lnT0 px py)[(at0 i j).1]? = some x ∧ x.valid (at0 i j).2.1 (at0 i j).2.2.1 (at0 i j).2.2.2 := by
  unfold at0 lnT0
  split_ifs with h
  · exact ⟨_, rfl, by simp [Comp.valid]⟩
  · exact ⟨_, rfl, by simp only [Comp.valid]; omega⟩

theorem at0_ne_j {i j j' : ℕ} (h : j ≠ j') : at0 (i + 1) j ≠ at0 (i + 1) j' := by
  simp [at0, h]

theorem at0_ne_i {i j : ℕ} : at0 i j ≠ at0 (i + 1) j := by
  unfold at0
  rcases i with _ | i <;> simp

theorem goodT0o (px py : ℕ) : Good (lnT1o px py) (lnT0 px py) (nT1 px py) (nT0 px py) stT0o := by
  refine ⟨stk1o px py, stk0 px py, rfl, ?_, ?_⟩
  · intro t d st i j k h hs hv
    rcases t with _ | _ | t <;> simp [lnT1o, stT0o] at h hs
    · subst h; subst hs
      simpa using at0_ne_j (by omega)
    · subst h; subst hs
      simpa using at0_ne_i
  · intro t d st i j k h hs hv s hm
    rcases t with _ | _ | t <;> simp [lnT1o, stT0o] at h hs
    · subst h; subst hs
      simp only [Comp.valid] at hv
      simp only [List.mem_cons, List.not_mem_nil, or_false] at hm
      rcases hm with rfl | rfl <;> exact at0_valid (by omega) (by omega)
    · subst h; subst hs
      simp only [Comp.valid] at hv
      simp only [List.mem_cons, List.not_mem_nil, or_false] at hm
      rcases hm with rfl | rfl <;> exact at0_valid (by omega) (by omega)

theorem goodT0i (px py : ℕ) : Good (lnT1i px py) (lnT0 px py) (nT1 px py) (nT0 px py) stT0i := by
  refine ⟨stk1i px py, stk0 px py, rfl, ?_, ?_⟩
  · intro t d st i j k h hs hv
    rcases t with _ | _ | t <;> simp [lnT1i, stT0i] at h hs
    · subst h; subst hs
      simpa using at0_ne_i
    · subst h; subst hs
      simpa using at0_ne_j (by omega)
  · intro t d st i j k h hs hv s hm
    rcases t with _ | _ | t <;> simp [lnT1i, stT0i] at h hs
    · subst h; subst hs
      simp only [Comp.valid] at hv
      simp only [List.mem_cons, List.not_mem_nil, or_false] at hm
      rcases hm with rfl | rfl <;> exact at0_valid (by omega) (by omega)
    · subst h; subst hs
      simp only [Comp.valid] at hv
      simp only [List.mem_cons, List.not_mem_nil, or_false] at hm
      rcases hm with rfl | rfl <;> exact at0_valid (by omega) (by omega)

theorem goodT1o (px py : ℕ) : Good (ln22 px py) (lnT1o px py) (nd22 px py) (nT1 px py) stT1o := by
  refine ⟨Numbering.st22 px py, stk1o px py, rfl, ?_, ?_⟩
  · intro t d st i j k h hs hv
    rcases t with _ | t <;> simp [ln22, stT1o] at h hs
    subst h; subst hs
    rcases i with _ | i <;> simp
  · intro t d st i j k h hs hv s hm
    rcases t with _ | t <;> simp [ln22, stT1o] at h hs
    subst h; subst hs
    simp only [Comp.valid] at hv
    rcases i with _ | i
    · simp at hm
      rcases hm with rfl | rfl | rfl <;> exact ⟨_, rfl, by simp only [Comp.valid]; omega⟩
    · simp at hm
      rcases hm with rfl | rfl | rfl | rfl <;> exact ⟨_, rfl, by simp only [Comp.valid]; omega⟩

theorem goodT1i (px py : ℕ) : Good (ln22 px py) (lnT1i px py) (nd22 px py) (nT1 px py) stT1i := by
  refine ⟨Numbering.st22 px py, stk1i px py, rfl, ?_, ?_⟩
  · intro t d st i j k h hs hv
    rcases t with _ | t <;> simp [ln22, stT1i] at h hs
    subst h; subst hs
    rcases i with _ | i <;> simp
  · intro t d st i j k h hs hv s hm
    rcases t with _ | t <;> simp [ln22, stT1i] at h hs
    subst h; subst hs
    simp only [Comp.valid] at hv
    rcases i with _ | i
    · simp at hm
      rcases hm with rfl | rfl | rfl <;> exact ⟨_, rfl, by simp only [Comp.valid]; omega⟩
    · simp at hm
      rcases hm with rfl | rfl | rfl | rfl <;> exact ⟨_, rfl, by simp only [Comp.valid]; omega⟩

end Phyem.Triangle
