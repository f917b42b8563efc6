import Verif.Reduce.Model
import Verif.Reduce.Spec
import Verif.Incidence.Model
import Verif.Poly.Model
import Mathlib.Tactic.Ring
import Mathlib.Tactic.FieldSimp

/-! The entries of the reduced cochains: which quadrature of which function each one is. -/

namespace Phyem.Reduce

open Phyem.Numbering Phyem.Incidence Phyem.Poly

variable {α K : Type} [Field K]

lemma tile_length (l : List α) (n : ℕ) : (tile l n).length = l.length * n := by
  simp [tile, List.length_flatten, Nat.mul_comm]

lemma rep_length (l : List α) (n : ℕ) : (rep l n).length = l.length * n := by
  simp [rep, List.length_flatMap, Nat.mul_comm]

lemma tile_at (l : List α) {n i j : ℕ} (hi : i < l.length) (hj : j < n) : (tile l n)[i + l.length * j]? = l[i]? := by
  induction n generalizing j with
  | zero => omega
  | succ n ih =>
    have e : tile l (n + 1) = l ++ tile l n := by simp [tile, List.replicate_succ]
    rw [e]
    rcases j with _ | j
    · simp [List.getElem?_append_left, hi]
    · rw [List.getElem?_append_right (by rw [Nat.mul_succ]; omega), ← ih (j := j) (by omega)]
      congr 1
      rw [Nat.mul_succ]; omega

lemma rep_at (l : List α) {n i j : ℕ} (hi : i < n) : (rep l n)[i + n * j]? = l[j]? := by
  induction l generalizing j with
  | nil => simp [rep]
  | cons a l ih =>
    have e : rep (a :: l) n = List.replicate n a ++ rep l n := by simp [rep]
    rw [e]
    rcases j with _ | j
    · simp [List.getElem?_append_left, hi, List.getElem?_replicate]
    · rw [List.getElem?_append_right (by simp [Nat.mul_succ]; omega)]
      simp only [List.length_replicate]
      rw [show i + n * (j + 1) - n = i + n * j by rw [Nat.mul_succ]; omega, ih]
      simp

lemma rep_rep (l : List α) (n m : ℕ) : rep (rep l n) m = rep l (n * m) := by
  have h : ∀ (a : α) n, rep (List.replicate n a) m = List.replicate (n * m) a := by
    intro a n
    induction n with
    | zero => simp [rep]
    | succ n ih =>
      have : rep (List.replicate (n + 1) a) m = List.replicate m a ++ rep (List.replicate n a) m := by
        simp [rep, List.replicate_succ]
      rw [this, ih, List.replicate_append_replicate]
      congr 1; ring
  induction l with
  | nil => simp [rep]
  | cons a l ih =>
    have e : rep (a :: l) n = List.replicate n a ++ rep l n := by simp [rep]
    have e' : rep (a :: l) (n * m) = List.replicate (n * m) a ++ rep l (n * m) := by simp [rep]
    rw [e, e', ← ih, ← h]
    simp [rep]

lemma node_at {xs : List K} {i : ℕ} (h : i < xs.length) : xs[i]? = some (node xs i) := by
  simp [node, List.getD, h]

lemma sizes_length (xs : List K) : (sizes xs).length = xs.length - 1 := by simp [sizes]

lemma sizes_at {xs : List K} {i : ℕ} (h : i + 1 < xs.length) : (sizes xs)[i]? = some (node xs (i + 1) - node xs i) := by
  have h' : i < xs.length - 1 := by omega
  have h2 : i < xs.length := by omega
  simp [sizes, List.getElem?_zipWith, List.getElem?_tail, List.getElem?_dropLast, h', node, List.getD, h, h2]

lemma dropLast_at {xs : List K} {i : ℕ} (h : i + 1 < xs.length) : xs.dropLast[i]? = some (node xs i) := by
  have h' : i < xs.length - 1 := by omega
  have h2 : i < xs.length := by omega
  simp [List.getElem?_dropLast, h', node, List.getD, h2]

lemma cells_length (xs qs : List K) : (cells xs qs).length = xs.length - 1 := by simp [cells, sizes]

/-- The quadrature points of edge `i`. -/
def onEdge (xs qs : List K) (i : ℕ) : List K :=
  qs.map fun t => node xs i + (node xs (i + 1) - node xs i) / 2 * (t + 1)

lemma cells_at {xs qs : List K} {i : ℕ} (h : i + 1 < xs.length) : (cells xs qs)[i]? = some (onEdge xs qs i) := by
  simp only [cells, List.getElem?_zipWith, sizes_at h, dropLast_at h, onEdge]
  congr 1
  refine List.map_congr_left fun t _ => ?_
  ring

lemma moved_at {qs size start : List K} {m : ℕ} {s a : K} (hs : size[m]? = some s) (ha : start[m]? = some a) :
    (moved qs size start)[m]? = some (qs.map fun t => a + s / 2 * (t + 1)) := by
  simp only [moved, List.getElem?_zipWith, hs, ha]
  congr 1
  refine List.map_congr_left fun t _ => ?_
  ring

lemma same_at {n m : ℕ} {l : List K} {a : K} (h : l[m]? = some a) : (same n l)[m]? = some (List.replicate n a) := by
  simp [same, h]

lemma pts2_at {X Y : List (List K)} {m : ℕ} {a b : List K} (ha : X[m]? = some a) (hb : Y[m]? = some b) :
    (pts2 X Y)[m]? = some (a.zip b) := by
  simp [pts2, List.getElem?_zipWith, ha, hb]

lemma pts3_at {X Y Z : List (List K)} {m : ℕ} {a b c : List K} (ha : X[m]? = some a) (hb : Y[m]? = some b)
    (hc : Z[m]? = some c) : (pts3 X Y Z)[m]? = some (a.zip (b.zip c)) := by
  simp [pts3, List.getElem?_zipWith, ha, hb, hc]

lemma along_at {g : α → K} {ws : List K} {pts : List (List α)} {size : List K} {m : ℕ} {col : List α} {s : K}
    (hc : pts[m]? = some col) (hs : size[m]? = some s) :
    (along g ws pts size)[m]? = some ((List.zipWith (fun P w => g P * w) col ws).sum * (s * (1 / 2))) := by
  simp [along, List.getElem?_zipWith, hc, hs]

lemma zip_replicate_left (a : α) {β : Type} (l : List β) : (List.replicate l.length a).zip l = l.map fun b => (a, b) := by
  induction l with
  | nil => rfl
  | cons b l ih => simp [List.replicate_succ, ih]

lemma zip_replicate_right (a : α) {β : Type} (l : List β) : l.zip (List.replicate l.length a) = l.map fun b => (b, a) := by
  induction l with
  | nil => rfl
  | cons b l ih => simp [List.replicate_succ, ih]

lemma zipWith_map {β : Type} (f : β → K → K) (g : α → β) (l : List α) (ws : List K) :
    List.zipWith f (l.map g) ws = List.zipWith (fun a w => f (g a) w) l ws := by
  simp [List.zipWith_map_left]

lemma zipWith_ext {β γ : Type} {f g : α → β → γ} {l : List α} {m : List β} (h : ∀ a ∈ l, ∀ b ∈ m, f a b = g a b) :
    List.zipWith f l m = List.zipWith g l m := by
  induction l generalizing m with
  | nil => simp
  | cons a l ih =>
    cases m with
    | nil => simp
    | cons b m =>
      simp only [List.zipWith_cons_cons]
      rw [h a (by simp) b (by simp), ih fun a ha b hb => h a (by simp [ha]) b (by simp [hb])]

/-- A quadrature along a line of the code is the rule on the interval. -/
lemma sum_rule (qs ws : List K) (g : K → K) (a b : K) :
    (List.zipWith (fun t w => g (a + (b - a) / 2 * (t + 1)) * w) qs ws).sum * ((b - a) * (1 / 2)) = rule qs ws g a b := by
  unfold rule
  rw [mul_comm, zipWith_ext (g := fun t w => w * g (a + (b - a) / 2 * (t + 1))) fun a _ b _ => mul_comm _ _]
  ring

lemma mul_sum_zipWith (s : K) {β γ : Type} (f : β → γ → K) (l : List β) (m : List γ) :
    s * (List.zipWith f l m).sum = (List.zipWith (fun a b => s * f a b) l m).sum := by
  induction l generalizing m with
  | nil => simp
  | cons a l ih =>
    cases m with
    | nil => simp
    | cons b m => simp only [List.zipWith_cons_cons, List.sum_cons, mul_add, ih]

/-- A double sum of the code is the product rule. -/
lemma sum_rule2 (qx wx qy wy : List K) (g : K → K → K) (a b c d : K) :
    (List.zipWith (fun s ws => (List.zipWith (fun t wt =>
      g (a + (b - a) / 2 * (s + 1)) (c + (d - c) / 2 * (t + 1)) * (ws * wt)) qy wy).sum) qx wx).sum *
        ((b - a) / 2 * ((d - c) / 2)) = rule2 qx wx qy wy g a b c d := by
  unfold rule2 rule
  rw [mul_comm, mul_assoc]
  congr 1
  rw [mul_sum_zipWith]
  congr 1
  refine zipWith_ext fun s _ ws _ => ?_
  dsimp only
  rw [mul_sum_zipWith, mul_sum_zipWith, mul_sum_zipWith]
  congr 1
  refine zipWith_ext fun t _ wt _ => ?_
  ring

lemma sum_rule3 (qx wx qy wy qz wz : List K) (g : K → K → K → K) (a b c d e f : K) :
    (List.zipWith (fun s ws => (List.zipWith (fun t wt => (List.zipWith (fun u wu =>
      g (a + (b - a) / 2 * (s + 1)) (c + (d - c) / 2 * (t + 1)) (e + (f - e) / 2 * (u + 1)) * (ws * (wt * wu))) qz wz).sum)
        qy wy).sum) qx wx).sum *
        ((b - a) / 2 * ((d - c) / 2 * ((f - e) / 2))) = rule3 qx wx qy wy qz wz g a b c d e f := by
  unfold rule3
  rw [rule, mul_comm, mul_assoc]
  congr 1
  rw [mul_sum_zipWith]
  congr 1
  refine zipWith_ext fun s _ ws _ => ?_
  have := sum_rule2 qy wy qz wz (g (a + (b - a) / 2 * (s + 1))) c d e f
  unfold rule2 at this
  rw [← this, mul_comm _ ((d - c) / 2 * ((f - e) / 2)), mul_left_comm ws]
  congr 1
  rw [mul_sum_zipWith]
  congr 1
  refine zipWith_ext fun t _ wt _ => ?_
  rw [mul_sum_zipWith]
  congr 1
  refine zipWith_ext fun u _ wu _ => ?_
  ring

/-- Entry `i + n * j` of nested loops. -/
lemma loop_at (f : ℕ → ℕ → K) {n m i j : ℕ} (hi : i < n) (hj : j < m) :
    ((List.range m).flatMap fun j => (List.range n).map fun i => f i j)[i + n * j]? = some (f i j) := by
  have key : ∀ (a : ℕ) (l : List ℕ), (∀ k < l.length, l[k]? = some (a + k)) → ∀ j < l.length,
      (l.flatMap fun j => (List.range n).map fun i => f i j)[i + n * j]? = some (f i (a + j)) := by
    intro a l
    induction l generalizing a with
    | nil => intro _ j hj; simp at hj
    | cons b l ih =>
      intro h j hj
      have hb : b = a := by simpa using h 0 (by simp)
      rw [List.flatMap_cons]
      rcases j with _ | j
      · rw [List.getElem?_append_left (by simpa using hi)]
        simp [hi, hb]
      · rw [List.getElem?_append_right (by simp [Nat.mul_succ]; omega)]
        simp only [List.length_map, List.length_range]
        rw [show i + n * (j + 1) - n = i + n * j by rw [Nat.mul_succ]; omega,
          ih (a + 1) (fun k hk => by
            have := h (k + 1) (by simpa using hk)
            rw [List.getElem?_cons_succ] at this
            rw [this]; congr 1; omega) j (by simpa using hj)]
        congr 2; omega
  have := key 0 (List.range m) (fun k hk => by simp at hk; simp [hk]) j (by simpa using hj)
  simpa using this

lemma loop_length (f : ℕ → ℕ → K) (n m : ℕ) :
    ((List.range m).flatMap fun j => (List.range n).map fun i => f i j).length = n * m := by
  simp [List.length_flatMap, Nat.mul_comm]

/-- Three nested loops as two. -/
lemma loop3_at (f : ℕ → ℕ → ℕ → K) {a b c i j k : ℕ} (hi : i < a) (hj : j < b) (hk : k < c) :
    ((List.range c).flatMap fun k => (List.range b).flatMap fun j => (List.range a).map fun i => f i j k)[i + a * (j + b * k)]? =
      some (f i j k) := by
  have key : ∀ (s : ℕ) (l : List ℕ), (∀ k < l.length, l[k]? = some (s + k)) → ∀ k < l.length,
      (l.flatMap fun k => (List.range b).flatMap fun j => (List.range a).map fun i => f i j k)[i + a * (j + b * k)]? =
        some (f i j (s + k)) := by
    intro s l
    induction l generalizing s with
    | nil => intro _ j hj; simp at hj
    | cons x l ih =>
      intro h k hk
      have hb : x = s := by simpa using h 0 (by simp)
      rw [List.flatMap_cons]
      have hlen := loop_length (fun i j => f i j x) a b
      have hlt : i + a * j < a * b := by
        calc i + a * j < a + a * j := by omega
          _ = a * (j + 1) := by ring
          _ ≤ a * b := Nat.mul_le_mul_left _ hj
      rcases k with _ | k
      · rw [List.getElem?_append_left (by rw [hlen]; simpa using hlt)]
        have := loop_at (fun i j => f i j x) hi hj
        simpa [hb] using this
      · have e : i + a * (j + b * (k + 1)) = a * b + (i + a * (j + b * k)) := by ring
        rw [List.getElem?_append_right (by rw [hlen, e]; omega), hlen, e, Nat.add_sub_cancel_left,
          ih (s + 1) (fun k hk => by
            have := h (k + 1) (by simpa using hk)
            rw [List.getElem?_cons_succ] at this
            rw [this]; congr 1; omega) k (by simpa using hk)]
        congr 2; omega
  have := key 0 (List.range c) (fun k hk => by simp at hk; simp [hk]) k (by simpa using hk)
  simpa using this

lemma loop3_length (f : ℕ → ℕ → ℕ → K) (a b c : ℕ) :
    ((List.range c).flatMap fun k => (List.range b).flatMap fun j => (List.range a).map fun i => f i j k).length =
      a * b * c := by
  simp [List.length_flatMap, Nat.mul_comm, Nat.mul_left_comm]

/-- A loop over the values of a list is a loop over its indices. -/
lemma map_eq_range {β : Type} (l : List K) (f : K → β) : l.map f = (List.range l.length).map fun i => f (node l i) := by
  refine List.ext_getElem (by simp) fun i h _ => ?_
  simp at h
  simp [node, List.getD, h]

lemma flatMap_eq_range {β : Type} (l : List K) (f : K → List β) :
    l.flatMap f = (List.range l.length).flatMap fun i => f (node l i) := by
  rw [List.flatMap_def, map_eq_range, ← List.flatMap_def]

end Phyem.Reduce
