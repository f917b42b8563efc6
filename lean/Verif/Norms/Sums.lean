import Verif.Norms.Model
import Verif.Norms.Change
import Mathlib.Tactic.Ring
import Mathlib.Tactic.NormNum

/-!
The sums over the quadrature points are product rules of C115-C117 on the reference square and cube.
-/

namespace Phyem.Norms

open Reduce

/-- As many weights as nodes. -/
def Quad.Ok {K : Type} (q : Quad K) : Prop := q.nodes.length = q.weights.length

/-- Integrals of functions on the reference interval, square and cube by a quadrature rule. -/
noncomputable def Q1 (q : Quad ℝ) (g : ℝ → ℝ) : ℝ := rule q.nodes q.weights g (-1) 1
noncomputable def Q2 (qx qy : Quad ℝ) (g : ℝ → ℝ → ℝ) : ℝ := rule2 qx.nodes qx.weights qy.nodes qy.weights g (-1) 1 (-1) 1
noncomputable def Q3 (qx qy qz : Quad ℝ) (g : ℝ → ℝ → ℝ → ℝ) : ℝ :=
  rule3 qx.nodes qx.weights qy.nodes qy.weights qz.nodes qz.weights g (-1) 1 (-1) 1 (-1) 1

lemma rule_one (qs ws : List ℝ) (g : ℝ → ℝ) : rule qs ws g (-1) 1 = (List.zipWith (fun t w => w * g t) qs ws).sum := by
  unfold rule
  have : ∀ t : ℝ, (-1 : ℝ) + (1 - -1) / 2 * (t + 1) = t := by intro t; ring
  simp only [this]
  norm_num

lemma range_zip {B : Type} (l : List ℝ) (w : List ℝ) (h : l.length = w.length) (f : ℕ → ℝ → B) (g : ℝ → ℝ → B)
    (hfg : ∀ i < w.length, f i (w.getD i 0) = g (l.getD i 0) (w.getD i 0)) :
    (List.range w.length).map (fun i => f i (w.getD i 0)) = List.zipWith g l w := by
  apply List.ext_getElem
  · simp [h]
  · intro i h1 h2
    have hi : i < w.length := by simpa using h1
    simp only [List.getElem_map, List.getElem_range, List.getElem_zipWith, hfg i hi]
    rw [List.getD_eq_getElem l 0 (h ▸ hi), List.getD_eq_getElem w 0 hi]

lemma mul_sum (a : ℝ) (l : List ℝ) : a * l.sum = (l.map fun b => a * b).sum := by
  rw [List.sum_map_mul_left]; simp

lemma einsum1_Q (qx : Quad ℝ) (hx : qx.Ok) (A : ℕ → ℝ) (G : ℝ → ℝ)
    (hA : ∀ i < qx.nodes.length, A i = G (qx.nodes.getD i 0)) : einsum1 A qx.weights = Q1 qx G := by
  unfold einsum1 Q1
  rw [rule_one]
  congr 1
  apply range_zip _ _ hx (fun i w => A i * w) (fun t w => w * G t)
  intro i hi
  try dsimp only
  rw [hA i (by rw [hx]; exact hi), mul_comm]

lemma einsum2_Q (qx qy : Quad ℝ) (hx : qx.Ok) (hy : qy.Ok) (A : ℕ → ℕ → ℝ) (G : ℝ → ℝ → ℝ)
    (hA : ∀ i < qx.nodes.length, ∀ j < qy.nodes.length, A i j = G (qx.nodes.getD i 0) (qy.nodes.getD j 0)) :
    einsum2 A qx.weights qy.weights = Q2 qx qy G := by
  unfold einsum2 Q2 rule2
  rw [rule_one]
  congr 1
  apply range_zip _ _ hx (fun i w => ((List.range qy.weights.length).map fun j => A i j * w * qy.weights.getD j 0).sum)
  intro i hi
  try dsimp only
  rw [rule_one, mul_sum]
  congr 1
  rw [List.map_zipWith]
  apply range_zip _ _ hy (fun j w => A i j * qx.weights.getD i 0 * w)
    (fun t w => qx.weights.getD i 0 * (w * G (qx.nodes.getD i 0) t))
  intro j hj
  try dsimp only
  rw [hA i (by rw [hx]; exact hi) j (by rw [hy]; exact hj)]
  ring

lemma einsum3_Q (qx qy qz : Quad ℝ) (hx : qx.Ok) (hy : qy.Ok) (hz : qz.Ok) (A : ℕ → ℕ → ℕ → ℝ) (G : ℝ → ℝ → ℝ → ℝ)
    (hA : ∀ i < qx.nodes.length, ∀ j < qy.nodes.length, ∀ k < qz.nodes.length,
      A i j k = G (qx.nodes.getD i 0) (qy.nodes.getD j 0) (qz.nodes.getD k 0)) :
    einsum3 A qx.weights qy.weights qz.weights = Q3 qx qy qz G := by
  unfold einsum3 Q3 rule3
  rw [rule_one]
  congr 1
  apply range_zip _ _ hx (fun i w => ((List.range qy.weights.length).map fun j => ((List.range qz.weights.length).map fun k =>
    A i j k * w * qy.weights.getD j 0 * qz.weights.getD k 0).sum).sum)
  intro i hi
  try dsimp only
  rw [rule_one, mul_sum]
  congr 1
  rw [List.map_zipWith]
  apply range_zip _ _ hy (fun j w => ((List.range qz.weights.length).map fun k =>
    A i j k * qx.weights.getD i 0 * w * qz.weights.getD k 0).sum)
    (fun t w => qx.weights.getD i 0 * (w * rule qz.nodes qz.weights (fun z => G (qx.nodes.getD i 0) t z) (-1) 1))
  intro j hj
  try dsimp only
  rw [rule_one, mul_sum, mul_sum]
  congr 1
  rw [List.map_zipWith, List.map_zipWith]
  apply range_zip _ _ hz (fun k w => A i j k * qx.weights.getD i 0 * qy.weights.getD j 0 * w)
    (fun t w => qx.weights.getD i 0 * (qy.weights.getD j 0 * (w * G (qx.nodes.getD i 0) (qy.nodes.getD j 0) t)))
  intro k hk
  try dsimp only
  rw [hA i (by rw [hx]; exact hi) j (by rw [hy]; exact hj) k (by rw [hz]; exact hk)]
  ring

/-! ### Raveled arrays -/

variable {K : Type} [Field K]

lemma ravel2_length {B : Type} (f : K → K → B) (xs ys : List K) : (ravel2 f xs ys).length = xs.length * ys.length := by
  unfold ravel2
  induction ys with
  | nil => simp
  | cons y ys ih =>
    rw [List.flatMap_cons, List.length_append, ih, List.length_map, List.length_cons]
    ring

lemma at2_ravel {B : Type} (f : K → K → B) (xs ys : List K) (i j : ℕ) (d : B) (hi : i < xs.length) (hj : j < ys.length) :
    at2 (ravel2 f xs ys) xs.length i j d = f (xs.getD i 0) (ys.getD j 0) := by
  unfold at2
  induction ys generalizing j with
  | nil => simp at hj
  | cons y ys ih =>
    have e : ravel2 f xs (y :: ys) = (xs.map fun x => f x y) ++ ravel2 f xs ys := by
      unfold ravel2; rw [List.flatMap_cons]
    rw [e]
    cases j with
    | zero =>
      rw [List.getD_append _ _ _ _ (by simpa using hi)]
      rw [List.getD_eq_getElem _ _ (by simpa using hi), List.getD_eq_getElem _ _ hi]
      simp
    | succ j =>
      rw [List.getD_append_right _ _ _ _ (by rw [List.length_map]; nlinarith), List.length_map]
      have : i + xs.length * (j + 1) - xs.length = i + xs.length * j := by rw [mul_add]; omega
      rw [this, ih j (by simpa using hj)]
      simp

lemma ravel3_cons {B : Type} (f : K → K → K → B) (xs ys : List K) (z : K) (zs : List K) :
    ravel3 f xs ys (z :: zs) = ravel2 (fun x y => f x y z) xs ys ++ ravel3 f xs ys zs := by
  unfold ravel3 ravel2; rw [List.flatMap_cons]

lemma at3_ravel {B : Type} (f : K → K → K → B) (xs ys zs : List K) (i j k : ℕ) (d : B) (hi : i < xs.length)
    (hj : j < ys.length) (hk : k < zs.length) :
    at3 (ravel3 f xs ys zs) xs.length ys.length i j k d = f (xs.getD i 0) (ys.getD j 0) (zs.getD k 0) := by
  unfold at3
  have hij : i + xs.length * j < xs.length * ys.length := by
    calc i + xs.length * j < xs.length + xs.length * j := by omega
      _ = xs.length * (j + 1) := by ring
      _ ≤ xs.length * ys.length := Nat.mul_le_mul_left _ hj
  induction zs generalizing k with
  | nil => simp at hk
  | cons z zs ih =>
    rw [ravel3_cons]
    cases k with
    | zero =>
      rw [List.getD_append _ _ _ _ (by rw [ravel2_length]; simpa using hij)]
      have := at2_ravel (fun x y => f x y z) xs ys i j d hi hj
      unfold at2 at this
      simpa using this
    | succ k =>
      have e : i + xs.length * (j + ys.length * (k + 1)) = xs.length * ys.length + (i + xs.length * (j + ys.length * k)) := by ring
      rw [List.getD_append_right _ _ _ _ (by rw [ravel2_length, e]; omega), ravel2_length, e, Nat.add_sub_cancel_left,
        ih k (by simpa using hk)]
      simp

lemma map_at {B : Type} (f : K → B) (xs : List K) (i : ℕ) (d : B) (hi : i < xs.length) :
    (xs.map f).getD i d = f (xs.getD i 0) := by
  rw [List.getD_eq_getElem _ _ (by simpa using hi), List.getD_eq_getElem _ _ hi]
  simp

/-! ### The numbers of elements -/

lemma er1_Q (d : ℕ) (Φ : ℝ → ℝ) (jac : ℝ → ℝ) (val : ℝ → List ℝ) (cf : ℝ → List ℝ) (qx : Quad ℝ) (hx : qx.Ok) :
    er1 d Φ jac val cf qx = Q1 qx fun x => jac x * diffPow d (val x) (cf (Φ x)) := by
  apply einsum1_Q _ hx
  intro i hi
  rw [map_at _ _ _ _ hi, map_at _ _ _ _ hi]

lemma er2_Q (d : ℕ) (Φ : ℝ → ℝ → ℝ × ℝ) (jac : ℝ → ℝ → ℝ) (val : ℝ → ℝ → List ℝ) (cf : ℝ × ℝ → List ℝ) (qx qy : Quad ℝ)
    (hx : qx.Ok) (hy : qy.Ok) :
    er2 d Φ jac val cf qx qy = Q2 qx qy fun x y => jac x y * diffPow d (val x y) (cf (Φ x y)) := by
  apply einsum2_Q _ _ hx hy
  intro i hi j hj
  rw [at2_ravel _ _ _ _ _ _ hi hj, at2_ravel _ _ _ _ _ _ hi hj]

lemma er3_Q (d : ℕ) (Φ : ℝ → ℝ → ℝ → ℝ × ℝ × ℝ) (jac : ℝ → ℝ → ℝ → ℝ) (val : ℝ → ℝ → ℝ → List ℝ) (cf : ℝ × ℝ × ℝ → List ℝ)
    (qx qy qz : Quad ℝ) (hx : qx.Ok) (hy : qy.Ok) (hz : qz.Ok) :
    er3 d Φ jac val cf qx qy qz = Q3 qx qy qz fun x y z => jac x y z * diffPow d (val x y z) (cf (Φ x y z)) := by
  apply einsum3_Q _ _ _ hx hy hz
  intro i hi j hj k hk
  rw [at3_ravel _ _ _ _ _ _ _ _ hi hj hk, at3_ravel _ _ _ _ _ _ _ _ hi hj hk]

lemma no1_Q (d : ℕ) (jac : ℝ → ℝ) (val : ℝ → List ℝ) (qx : Quad ℝ) (hx : qx.Ok) :
    no1 d jac val qx = Q1 qx fun x => jac x * valPow d (val x) := by
  apply einsum1_Q _ hx
  intro i hi
  rw [map_at _ _ _ _ hi]

lemma no2_Q (d : ℕ) (jac : ℝ → ℝ → ℝ) (val : ℝ → ℝ → List ℝ) (qx qy : Quad ℝ) (hx : qx.Ok) (hy : qy.Ok) :
    no2 d jac val qx qy = Q2 qx qy fun x y => jac x y * valPow d (val x y) := by
  apply einsum2_Q _ _ hx hy
  intro i hi j hj
  rw [at2_ravel _ _ _ _ _ _ hi hj]

lemma no3_Q (d : ℕ) (jac : ℝ → ℝ → ℝ → ℝ) (val : ℝ → ℝ → ℝ → List ℝ) (qx qy qz : Quad ℝ) (hx : qx.Ok) (hy : qy.Ok) (hz : qz.Ok) :
    no3 d jac val qx qy qz = Q3 qx qy qz fun x y z => jac x y z * valPow d (val x y z) := by
  apply einsum3_Q _ _ _ hx hy hz
  intro i hi j hj k hk
  rw [at3_ravel _ _ _ _ _ _ _ _ hi hj hk]

lemma mass2_Q (jac : ℝ → ℝ → ℝ) (val : ℝ → ℝ → ℝ) (qx qy : Quad ℝ) (hx : qx.Ok) (hy : qy.Ok) :
    mass2 jac val qx qy = Q2 qx qy fun x y => jac x y * val x y := by
  apply einsum2_Q _ _ hx hy
  intro i hi j hj
  rw [at2_ravel _ _ _ _ _ _ hi hj]

lemma mass3_Q (jac : ℝ → ℝ → ℝ → ℝ) (val : ℝ → ℝ → ℝ → ℝ) (qx qy qz : Quad ℝ) (hx : qx.Ok) (hy : qy.Ok) (hz : qz.Ok) :
    mass3 jac val qx qy qz = Q3 qx qy qz fun x y z => jac x y z * val x y z := by
  apply einsum3_Q _ _ _ hx hy hz
  intro i hi j hj k hk
  rw [at3_ravel _ _ _ _ _ _ _ _ hi hj hk]

lemma rule_ext (q : Quad ℝ) (f g : ℝ → ℝ) (h : ∀ x ∈ q.nodes, f x = g x) :
    rule q.nodes q.weights f (-1) 1 = rule q.nodes q.weights g (-1) 1 := by
  rw [rule_one, rule_one]
  obtain ⟨l, w⟩ := q
  dsimp only at *
  congr 1
  induction l generalizing w with
  | nil => simp
  | cons t l ih =>
    cases w with
    | nil => simp
    | cons v w =>
      rw [List.zipWith_cons_cons, List.zipWith_cons_cons, h t List.mem_cons_self, ih w fun x hx => h x (List.mem_cons_of_mem _ hx)]

lemma Q2_ext (qx qy : Quad ℝ) (f g : ℝ → ℝ → ℝ) (h : ∀ x ∈ qx.nodes, ∀ y ∈ qy.nodes, f x y = g x y) :
    Q2 qx qy f = Q2 qx qy g :=
  rule_ext qx _ _ fun x hx => rule_ext qy _ _ fun y hy => h x hx y hy

lemma Q3_ext (qx qy qz : Quad ℝ) (f g : ℝ → ℝ → ℝ → ℝ)
    (h : ∀ x ∈ qx.nodes, ∀ y ∈ qy.nodes, ∀ z ∈ qz.nodes, f x y z = g x y z) : Q3 qx qy qz f = Q3 qx qy qz g :=
  rule_ext qx _ _ fun x hx => rule_ext qy _ _ fun y hy => rule_ext qz _ _ fun z hz => h x hx y hy z hz

lemma rule_nonneg (q : Quad ℝ) (hw : ∀ w ∈ q.weights, 0 ≤ w) (f : ℝ → ℝ) (h : ∀ x ∈ q.nodes, 0 ≤ f x) :
    0 ≤ rule q.nodes q.weights f (-1) 1 := by
  rw [rule_one]
  apply List.sum_nonneg
  intro a ha
  obtain ⟨i, hi, rfl⟩ := List.getElem_of_mem ha
  rw [List.getElem_zipWith]
  exact mul_nonneg (hw _ (List.getElem_mem _)) (h _ (List.getElem_mem _))

lemma Q2_nonneg (qx qy : Quad ℝ) (hx : ∀ w ∈ qx.weights, 0 ≤ w) (hy : ∀ w ∈ qy.weights, 0 ≤ w) (f : ℝ → ℝ → ℝ)
    (h : ∀ x ∈ qx.nodes, ∀ y ∈ qy.nodes, 0 ≤ f x y) : 0 ≤ Q2 qx qy f :=
  rule_nonneg qx hx _ fun x hx => rule_nonneg qy hy _ fun y hy => h x hx y hy

lemma Q3_nonneg (qx qy qz : Quad ℝ) (hx : ∀ w ∈ qx.weights, 0 ≤ w) (hy : ∀ w ∈ qy.weights, 0 ≤ w)
    (hz : ∀ w ∈ qz.weights, 0 ≤ w) (f : ℝ → ℝ → ℝ → ℝ)
    (h : ∀ x ∈ qx.nodes, ∀ y ∈ qy.nodes, ∀ z ∈ qz.nodes, 0 ≤ f x y z) : 0 ≤ Q3 qx qy qz f :=
  rule_nonneg qx hx _ fun x hx => rule_nonneg qy hy _ fun y hy => rule_nonneg qz hz _ fun z hz => h x hx y hy z hz

/-! ### The rules of the mass matrices -/

/-- Nodes together with their weights. -/
def Quad.pairs {K : Type} (q : Quad K) : List (K × K) := q.nodes.zip q.weights

lemma quad1_pairs (q : Quad ℝ) (g : ℝ → ℝ) : Mass.quad1 q.pairs g = rule q.nodes q.weights g (-1) 1 := by
  rw [rule_one]
  unfold Mass.quad1 Quad.pairs
  rw [← List.map_uncurry_zip_eq_zipWith]
  rfl

lemma quad1_swap (a b : List (ℝ × ℝ)) (G : ℝ → ℝ → ℝ) :
    (Mass.quad1 b fun y => Mass.quad1 a fun x => G x y) = Mass.quad1 a fun x => Mass.quad1 b fun y => G x y := by
  unfold Mass.quad1
  induction a with
  | nil => simp
  | cons p a ih =>
    simp only [List.map_cons, List.sum_cons, mul_add]
    rw [← ih, ← List.sum_map_mul_left, ← List.sum_map_add]
    congr 1
    apply List.map_congr_left
    intro y _
    ring

lemma quad2_pairs (qx qy : Quad ℝ) (G : ℝ → ℝ → ℝ) : Mass.quad2 qx.pairs qy.pairs G = Q2 qx qy G := by
  unfold Mass.quad2 Q2 rule2
  rw [quad1_swap, quad1_pairs]
  simp only [quad1_pairs]

lemma quad3_pairs (qx qy qz : Quad ℝ) (G : ℝ → ℝ → ℝ → ℝ) : Mass.quad3 qx.pairs qy.pairs qz.pairs G = Q3 qx qy qz G := by
  unfold Mass.quad3
  simp only [quad2_pairs]
  unfold Q2 Q3 rule2 rule3
  simp only [← quad1_pairs]
  rw [quad1_swap]
  congr 1
  funext x
  rw [quad1_swap]

end Phyem.Norms
