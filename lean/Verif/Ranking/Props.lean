import Verif.Ranking.Model
import Mathlib.Data.List.Perm.Basic
import Mathlib.Data.List.Nodup
import Mathlib.Data.List.Sort
import Mathlib.Data.List.Dedup

/-!
# What the file of a ranking holds
-/

namespace Phyem.Ranking

open Phyem.Dict Phyem.Runner

variable {T : Type} [LinearOrder T]

/-- A word of a line. -/
def Word (s : Str) : Prop := s ≠ [] ∧ ' ' ∉ s ∧ '\n' ∉ s

/-- Numbers are words, and reading them gives them back. -/
structure Format.Good (F : Format T) : Prop where
  wordI : ∀ n, Word (F.showI n)
  wordF : ∀ t, Word (F.showF t)
  backI : ∀ n, F.readI (F.showI n) = some n
  backF : ∀ t, F.readF (F.showF t) = some t

/-- A ranking: the cheaper come first, every machine is in it once, and its name is a word. -/
structure IsRanking (l : List (Rec T)) : Prop where
  sorted : l.Pairwise fun x y => x.cost ≤ y.cost
  once : (l.map Rec.host).Nodup
  words : ∀ x ∈ l, Word x.host

/-! ### The file -/

/-- The lines, each but the last one with its end. -/
def ended : List Str → List Str
  | [] => []
  | [l] => [l]
  | l :: l' :: ls => (l ++ ['\n']) :: ended (l' :: ls)

lemma lines_join : ∀ ls : List Str, (∀ l ∈ ls, l ≠ [] ∧ '\n' ∉ l) → lines (join ls) = ended ls
  | [], _ => rfl
  | [l], h => lines_last l (h l (by simp)).2 (h l (by simp)).1
  | l :: l' :: ls, h => by
    rw [join, lines_line _ _ (h l (by simp)).2, lines_join (l' :: ls) fun x hx => h x (List.mem_cons_of_mem _ hx)]
    · rfl
    · simp

lemma recText_line {F : Format T} (hF : F.Good) (r : ℕ) {x : Rec T} (hx : Word x.host) : recText F r x ≠ [] ∧ '\n' ∉ recText F r x := by
  refine ⟨by simp [recText], ?_⟩
  simp [recText, (hF.wordI r).2.2, hx.2.2, (hF.wordI x.size).2.2, (hF.wordF x.cost).2.2]

lemma split4 {a b c d : Str} (ha : ' ' ∉ a) (hb : ' ' ∉ b) (hc : ' ' ∉ c) (hd : ' ' ∉ d) :
    (a ++ ' ' :: (b ++ ' ' :: (c ++ ' ' :: d))).splitOn ' ' = [a, b, c, d] := by
  rw [List.splitOn_append_cons_self_of_not_mem ha, List.splitOn_append_cons_self_of_not_mem hb, List.splitOn_append_cons_self_of_not_mem hc,
    List.splitOn_eq_singleton hd]

lemma chomp_no {s : Str} (h : '\n' ∉ s) : chomp s = s := by
  unfold chomp
  rw [if_neg fun e => h (List.mem_of_getLast? e)]

lemma chomp_nl (s : Str) : chomp (s ++ ['\n']) = s := by simp [chomp]

lemma readRec_text {F : Format T} (hF : F.Good) (r : ℕ) {x : Rec T} (hx : Word x.host) {e : Str} (he : e = [] ∨ e = ['\n']) :
    readRec F (recText F r x ++ e) = some (r, x) := by
  have h1 : recText F r x ++ e = F.showI r ++ ' ' :: (x.host ++ ' ' :: (F.showI x.size ++ ' ' :: (F.showF x.cost ++ e))) := by simp [recText]
  have h2 : ' ' ∉ F.showF x.cost ++ e := by
    rcases he with rfl | rfl
    · simpa using (hF.wordF x.cost).2.1
    · simpa using (hF.wordF x.cost).2.1
  have h3 : chomp (F.showF x.cost ++ e) = F.showF x.cost := by
    rcases he with rfl | rfl
    · rw [List.append_nil]; exact chomp_no (hF.wordF x.cost).2.2
    · exact chomp_nl _
  unfold readRec
  rw [h1, split4 (hF.wordI r).2.1 hx.2.1 (hF.wordI x.size).2.1 h2]
  simp [hF.backI, hF.backF, h3]

lemma read_ended {F : Format T} (hF : F.Good) : ∀ ps : List (Rec T × ℕ), (∀ p ∈ ps, Word p.1.host) →
    (ended (ps.map fun p => recText F p.2 p.1)).mapM (readRec F) = some (ps.map fun p => (p.2, p.1))
  | [], _ => rfl
  | [p], h => by
    have := readRec_text hF p.2 (h p (by simp)) (e := []) (Or.inl rfl)
    rw [List.append_nil] at this
    simp [ended, this]
  | p :: q :: ps, h => by
    have h1 := readRec_text hF p.2 (h p (by simp)) (e := ['\n']) (Or.inr rfl)
    have h2 := read_ended hF (q :: ps) fun x hx => h x (List.mem_cons_of_mem _ hx)
    rw [List.map_cons] at h2
    rw [List.map_cons, List.map_cons, ended, List.mapM_cons, h1, h2]
    rfl

lemma lines_text {F : Format T} (hF : F.Good) {l : List (Rec T)} (h : ∀ x ∈ l, Word x.host) :
    lines (text F l) = ended (l.zipIdx.map fun p => recText F p.2 p.1) := by
  refine lines_join _ fun s hs => ?_
  obtain ⟨p, hp, rfl⟩ := List.mem_map.1 hs
  exact recText_line hF _ (h _ (List.fst_mem_of_mem_zipIdx hp))

lemma put_new {K V : Type} [DecidableEq K] : ∀ (d : Dict K V) (k : K) (v : V), k ∉ keys d → put d k v = d ++ [(k, v)]
  | [], _, _, _ => rfl
  | (a, w) :: d, k, v, h => by
    simp only [keys, List.map_cons, List.mem_cons, not_or] at h
    rw [put, if_neg fun e => h.1 e.symm, put_new d k v h.2, List.cons_append]

lemma foldl_put {V : Type} : ∀ (l : List (ℕ × V)) (d : Dict ℕ V), (keys (d ++ l)).Nodup → l.foldl (fun d p => put d p.1 p.2) d = d ++ l
  | [], d, _ => by simp
  | p :: l, d, h => by
    have h1 : p.1 ∉ keys d := by
      simp only [keys, List.map_append, List.map_cons] at h
      exact fun hm => (List.nodup_append.1 h).2.2 _ hm _ (by simp) rfl
    rw [List.foldl_cons, put_new d _ _ h1, foldl_put l _ (by simpa [keys] using h)]
    simp

lemma zip_fst {β : Type} (f : Rec T → β) (l : List (Rec T)) (n : ℕ) : ((l.zipIdx n).map fun p => f p.1) = l.map f := by
  rw [show (fun p : Rec T × ℕ => f p.1) = f ∘ Prod.fst from rfl, ← List.map_map]; simp

/-- What is read when a test starts is the ranking that was written. -/
lemma start_text {F : Format T} (hF : F.Good) {l : List (Rec T)} (h : ∀ x ∈ l, Word x.host) :
    start F (text F l) = some ⟨l.zipIdx.map fun p => (p.2, p.1), l.map Rec.host⟩ := by
  unfold start
  rw [lines_text hF h, read_ended hF _ fun p hp => h _ (List.fst_mem_of_mem_zipIdx hp)]
  rw [Option.map_some, foldl_put]
  · congr 2
    rw [List.map_map]
    exact zip_fst Rec.host l 0
  · simp [keys, Function.comp_def, List.nodup_range']

/-! ### The new ranking -/

lemma insert_perm (x : Rec T) : ∀ l : List (Rec T), (insert x l).Perm (x :: l)
  | [] => List.Perm.refl _
  | y :: l => by
    rw [insert]
    split_ifs
    · exact List.Perm.refl _
    · exact ((insert_perm x l).cons y).trans (List.Perm.swap x y l)

lemma insert_sorted (x : Rec T) : ∀ l : List (Rec T), l.Pairwise (fun x y => x.cost ≤ y.cost) → (insert x l).Pairwise fun x y => x.cost ≤ y.cost
  | [], _ => by simp [insert]
  | y :: l, h => by
    rw [insert]
    rw [List.pairwise_cons] at h
    split_ifs with hc
    · refine List.pairwise_cons.2 ⟨fun z hz => ?_, List.pairwise_cons.2 h⟩
      rcases List.mem_cons.1 hz with rfl | hz
      · exact hc
      · exact hc.trans (h.1 z hz)
    · refine List.pairwise_cons.2 ⟨fun z hz => ?_, insert_sorted x l h.2⟩
      rcases List.mem_cons.1 ((insert_perm x l).mem_iff.1 hz) with rfl | hz
      · exact (not_le.1 hc).le
      · exact h.1 z hz

lemma fold_perm : ∀ (l acc : List (Rec T)), (l.foldl (fun a y => insert y a) acc).Perm (l ++ acc)
  | [], acc => List.Perm.refl _
  | x :: l, acc => by
    rw [List.foldl_cons]
    exact (fold_perm l _).trans (((insert_perm x acc).append_left l).trans List.perm_middle)

lemma fold_sorted : ∀ (l acc : List (Rec T)), acc.Pairwise (fun x y => x.cost ≤ y.cost) →
    (l.foldl (fun a y => insert y a) acc).Pairwise fun x y => x.cost ≤ y.cost
  | [], _, h => h
  | x :: l, acc, h => by rw [List.foldl_cons]; exact fold_sorted l _ (insert_sorted x acc h)

lemma renew_perm (x : Rec T) : ∀ d : Dict ℕ (Rec T), (d.map fun p => p.2.host).Nodup → x.host ∈ d.map (fun p => p.2.host) →
    ((renew x d).map Prod.snd).Perm (x :: (d.map Prod.snd).filter fun y => decide (y.host ≠ x.host))
  | [], _, h => by simp at h
  | (r, y) :: d, hn, h => by
    rw [List.map_cons, List.nodup_cons] at hn
    rw [renew]
    split_ifs with he
    · simp only [List.map_cons]
      rw [List.filter_cons_of_neg (by simpa using he), List.filter_eq_self.2]
      intro z hz
      obtain ⟨p, hp, rfl⟩ := List.mem_map.1 hz
      have := hn.1
      simp only [decide_eq_true_eq]
      exact fun e => this (List.mem_map.2 ⟨p, hp, e.trans he.symm⟩)
    · simp only [List.map_cons]
      rw [List.filter_cons_of_pos (by simpa using he)]
      have h' : x.host ∈ d.map (fun p => p.2.host) := by
        rcases List.mem_cons.1 h with e | h
        · exact absurd e.symm he
        · exact h
      exact ((renew_perm x d hn.2 h').cons y).trans (List.Perm.swap _ _ _)

lemma zip_snd (l : List (Rec T)) : (l.zipIdx.map fun p => (p.2, p.1)).map Prod.snd = l := by
  rw [List.map_map]; simp [Function.comp_def]

lemma zip_host (l : List (Rec T)) : ((l.zipIdx.map fun p => (p.2, p.1)).map fun p => p.2.host) = l.map Rec.host := by
  rw [List.map_map]
  exact zip_fst Rec.host l 0

lemma zip_keys (l : List (Rec T)) : keys (l.zipIdx.map fun p => (p.2, p.1)) = List.range l.length := by
  simp [keys, Function.comp_def, List.range_eq_range']

lemma ranked_spec {l : List (Rec T)} (h : IsRanking l) (x : Rec T) :
    (ranked ⟨l.zipIdx.map fun p => (p.2, p.1), l.map Rec.host⟩ x).Perm (x :: l.filter fun y => decide (y.host ≠ x.host)) ∧
      (ranked ⟨l.zipIdx.map fun p => (p.2, p.1), l.map Rec.host⟩ x).Pairwise fun x y => x.cost ≤ y.cost := by
  unfold ranked
  dsimp only
  refine ⟨(fold_perm _ []).trans ?_, fold_sorted _ [] List.Pairwise.nil⟩
  rw [List.append_nil]
  split_ifs with hm
  · have := renew_perm x (l.zipIdx.map fun p => (p.2, p.1)) (by rw [zip_host]; exact h.once) (by rw [zip_host]; exact hm)
    rwa [zip_snd] at this
  · rw [put_new _ _ _ (by rw [zip_keys]; simp), List.map_append, zip_snd, List.filter_eq_self.2]
    · exact List.perm_append_singleton x l
    · intro y hy
      simp only [decide_eq_true_eq]
      exact fun e => hm (List.mem_map.2 ⟨y, hy, e⟩)

lemma once_new {l : List (Rec T)} (h : IsRanking l) (x : Rec T) :
    ((x :: l.filter fun y => decide (y.host ≠ x.host)).map Rec.host).Nodup := by
  rw [List.map_cons, List.nodup_cons]
  refine ⟨fun hm => ?_, h.once.sublist (List.filter_sublist.map _)⟩
  obtain ⟨y, hy, he⟩ := List.mem_map.1 hm
  have := (List.mem_filter.1 hy).2
  simp [he] at this

/-- **C180.** What a test does to a ranking in the file. All the records it has, but those of the machine itself, and the new record of the machine are
put in order, the cheapest first. The best `top` of them are in the file afterwards, which is a ranking again. The machine is told its place among all
of them if it is in the file, and nothing else otherwise. -/
theorem report_spec {F : Format T} (hF : F.Good) (top : ℕ) {l : List (Rec T)} (h : IsRanking l) (x : Rec T) (hx : Word x.host) :
    ∃ all : List (Rec T), all.Perm (x :: l.filter fun y => decide (y.host ≠ x.host)) ∧ IsRanking all ∧ IsRanking (all.take top) ∧
      ∃ k, all[k]? = some x ∧ one F top (text F l) x = some (text F (all.take top), if k < top then some (k + 1) else none) := by
  obtain ⟨hp, hs⟩ := ranked_spec h x
  set all := ranked ⟨l.zipIdx.map fun p => (p.2, p.1), l.map Rec.host⟩ x with hall
  have hn : (all.map Rec.host).Nodup := ((hp.map Rec.host).nodup_iff).2 (once_new h x)
  have hw : ∀ y ∈ all, Word y.host := by
    intro y hy
    rcases List.mem_cons.1 (hp.mem_iff.1 hy) with rfl | hy
    · exact hx
    · exact h.words y (List.mem_filter.1 hy).1
  have hr : IsRanking all := ⟨hs, hn, hw⟩
  have hmem : x ∈ all := hp.mem_iff.2 (by simp)
  have hmine : (all.map Rec.host).idxOf x.host < all.length := by
    have := List.idxOf_lt_length_iff.2 (List.mem_map_of_mem (f := Rec.host) hmem)
    simpa using this
  refine ⟨all, hp, hr, ⟨hs.sublist (List.take_sublist _ _), hn.sublist ((List.take_sublist _ _).map _),
    fun y hy => hw y (List.mem_of_mem_take hy)⟩, (all.map Rec.host).idxOf x.host, ?_, ?_⟩
  · obtain ⟨i, hi, hxi⟩ := List.getElem_of_mem hmem
    have h1 : (all.map Rec.host)[(all.map Rec.host).idxOf x.host]'(by simpa using hmine) = x.host := List.getElem_idxOf _
    have h2 : (all.map Rec.host)[i]'(by simpa using hi) = x.host := by rw [List.getElem_map, hxi]
    have h3 := (List.Nodup.getElem_inj_iff hn).1 (h1.trans h2.symm)
    rw [h3, List.getElem?_eq_getElem hi, hxi]
  · unfold one
    rw [start_text hF h.words, Option.bind_some]
    unfold report
    dsimp only
    rw [← hall, if_pos hmine]
    congr 2
    by_cases hk : (all.map Rec.host).idxOf x.host < top
    · rw [if_neg (not_le.2 hk), if_pos hk]
    · rw [if_pos (not_lt.1 hk), if_neg hk]

/-! ### Tests one after the other -/

/-- The last record of a machine in a list of tests. -/
def lastOf (xs : List (Rec T)) (h : Str) : Option (Rec T) := (xs.filter fun x => decide (x.host = h)).getLast?

lemma lastOf_snoc (xs : List (Rec T)) (x : Rec T) (h : Str) : lastOf (xs ++ [x]) h = if x.host = h then some x else lastOf xs h := by
  unfold lastOf
  rw [List.filter_append]
  split_ifs with he
  · simp [he]
  · simp [he]

lemma after_snoc (F : Format T) (top : ℕ) (x : Rec T) : ∀ (xs : List (Rec T)) (f : Str),
    after F top f (xs ++ [x]) = (after F top f xs).bind fun g => (one F top g x).map Prod.fst
  | [], f => by cases h : one F top f x <;> simp [after, h]
  | y :: xs, f => by
    rw [List.cons_append, after, after]
    cases h : one F top f y with
    | none => rfl
    | some p => simpa using after_snoc F top x xs p.1

lemma history (F : Format T) (hF : F.Good) (top : ℕ) (xs : List (Rec T)) (hw : ∀ x ∈ xs, Word x.host) :
    ∃ l, after F top [] xs = some (text F l) ∧ IsRanking l ∧ l.length ≤ top ∧ (∀ x ∈ l, lastOf xs x.host = some x) ∧
      ((xs.map Rec.host).dedup.length ≤ top → ∀ h x, lastOf xs h = some x → x ∈ l) := by
  induction xs using List.reverseRecOn with
  | nil => exact ⟨[], rfl, ⟨List.Pairwise.nil, List.nodup_nil, by simp⟩, by simp, by simp, by simp [lastOf]⟩
  | append_singleton xs x ih =>
    obtain ⟨l, h1, h2, h3, h4, h5⟩ := ih fun y hy => hw y (by simp [hy])
    obtain ⟨all, hp, ha, ht, k, _, ho⟩ := report_spec hF top h2 x (hw x (by simp))
    refine ⟨all.take top, ?_, ht, by simp, fun y hy => ?_, fun hd h y hy => ?_⟩
    · rw [after_snoc, h1, Option.bind_some, ho]; rfl
    · rw [lastOf_snoc]
      rcases List.mem_cons.1 (hp.mem_iff.1 (List.mem_of_mem_take hy)) with rfl | hy
      · simp
      · obtain ⟨hy, hne⟩ := List.mem_filter.1 hy
        rw [if_neg fun e => by simp [e] at hne, h4 y hy]
    · -- all the machines that were ever tested are at most `top`
      have hsub : ∀ z ∈ all, z.host ∈ ((xs ++ [x]).map Rec.host).dedup := by
        intro z hz
        rw [List.mem_dedup]
        rcases List.mem_cons.1 (hp.mem_iff.1 hz) with rfl | hz
        · simp
        · have := h4 z (List.mem_filter.1 hz).1
          have hm : z ∈ xs := by
            have := List.mem_of_getLast? this
            exact (List.mem_filter.1 this).1
          exact List.mem_map_of_mem (by simp [hm])
      have hlen : all.length ≤ top := by
        have := (List.subperm_of_subset ha.once (fun s hs => by
          obtain ⟨z, hz, rfl⟩ := List.mem_map.1 hs
          exact hsub z hz)).length_le
        rw [List.length_map] at this
        omega
      rw [List.take_of_length_le hlen, hp.mem_iff]
      rw [lastOf_snoc] at hy
      split_ifs at hy with he
      · rw [Option.some.inj hy]; simp
      · refine List.mem_cons_of_mem _ (List.mem_filter.2 ⟨h5 ?_ h y hy, ?_⟩)
        · refine le_trans ?_ hd
          refine (List.subperm_of_subset (List.nodup_dedup _) fun s hs => ?_).length_le
          rw [List.mem_dedup] at hs ⊢
          rw [List.map_append]; exact List.mem_append_left _ hs
        · have hm := List.mem_of_getLast? hy
          have : y.host = h := by simpa using (List.mem_filter.1 hm).2
          simp only [decide_eq_true_eq, this]
          exact fun e => he e.symm

/-- **C180.** After any tests one after the other, from an empty file on, the file holds a ranking of at most `top` machines, with the record of the
last test of each of them. -/
theorem history_spec (F : Format T) (hF : F.Good) (top : ℕ) (xs : List (Rec T)) (hw : ∀ x ∈ xs, Word x.host) :
    ∃ l, after F top [] xs = some (text F l) ∧ IsRanking l ∧ l.length ≤ top ∧ ∀ x ∈ l, lastOf xs x.host = some x := by
  obtain ⟨l, h1, h2, h3, h4, _⟩ := history F hF top xs hw
  exact ⟨l, h1, h2, h3, h4⟩

/-- **C180.** If there were never more than `top` machines, then all of them are in the file. -/
theorem history_all (F : Format T) (hF : F.Good) (top : ℕ) (xs : List (Rec T)) (hw : ∀ x ∈ xs, Word x.host)
    (hd : (xs.map Rec.host).dedup.length ≤ top) :
    ∃ l, after F top [] xs = some (text F l) ∧ IsRanking l ∧ ∀ x, x ∈ l ↔ lastOf xs x.host = some x := by
  obtain ⟨l, h1, h2, _, h4, h5⟩ := history F hF top xs hw
  exact ⟨l, h1, h2, fun x => ⟨h4 x, h5 hd x.host x⟩⟩

/-! ### What is printed -/

lemma dropLast_nl (s : Str) : (s ++ ['\n']).dropLast = s := by simp

/-- **C181.** `print_ranking` prints every record but the last one as it is in the file. For the last one, which has no newline at its end, a character
of its cost is missing. -/
theorem printed_spec {F : Format T} (hF : F.Good) {l : List (Rec T)} (h : ∀ x ∈ l, Word x.host) (x : Rec T) (hx : Word x.host) :
    printed F (text F (l ++ [x])) =
      (F.readF (F.showF x.cost).dropLast).map fun t => (l.map fun y => (y.host, F.showI y.size, y.cost)) ++ [(x.host, F.showI x.size, t)] := by
  have key : ∀ ps : List (Rec T × ℕ), (∀ p ∈ ps, Word p.1.host) → ∀ n : ℕ,
      (ended ((ps ++ [(x, n)]).map fun p => recText F p.2 p.1)).mapM (printRec F) =
        (F.readF (F.showF x.cost).dropLast).map fun t => (ps.map fun p => (p.1.host, F.showI p.1.size, p.1.cost)) ++ [(x.host, F.showI x.size, t)] := by
    intro ps
    induction ps with
    | nil =>
      intro _ n
      have h1 : (recText F n x).dropLast = F.showI n ++ ' ' :: (x.host ++ ' ' :: (F.showI x.size ++ ' ' :: (F.showF x.cost).dropLast)) := by
        obtain ⟨a, c, e⟩ : ∃ a c, F.showF x.cost = a ++ [c] := ⟨_, _, (List.dropLast_append_getLast (hF.wordF x.cost).1).symm⟩
        have h0 : recText F n x = (F.showI n ++ ' ' :: (x.host ++ ' ' :: (F.showI x.size ++ ' ' :: a))) ++ [c] := by simp [recText, e]
        rw [h0, List.dropLast_concat, e, List.dropLast_concat]
      have h2 : printRec F (recText F n x) = (F.readF (F.showF x.cost).dropLast).map fun t => (x.host, F.showI x.size, t) := by
        unfold printRec
        rw [h1, split4 (hF.wordI n).2.1 hx.2.1 (hF.wordI _).2.1 fun hm => (hF.wordF x.cost).2.1 (List.mem_of_mem_dropLast hm)]
      simp only [List.nil_append, List.map_cons, List.map_nil, ended, List.mapM_cons, List.mapM_nil, h2]
      cases F.readF (F.showF x.cost).dropLast <;> rfl
    | cons p ps ih =>
      intro hp n
      have h2 : printRec F (recText F p.2 p.1 ++ ['\n']) = some (p.1.host, F.showI p.1.size, p.1.cost) := by
        unfold printRec
        rw [dropLast_nl, recText, split4 (hF.wordI _).2.1 (hp p (by simp)).2.1 (hF.wordI _).2.1 (hF.wordF _).2.1]
        simp [hF.backF]
      have h3 := ih (fun q hq => hp q (List.mem_cons_of_mem _ hq)) n
      obtain ⟨a, as, he⟩ : ∃ a as, ((ps ++ [(x, n)]).map fun p => recText F p.2 p.1) = a :: as := by cases ps <;> simp
      rw [List.cons_append, List.map_cons, he, ended, List.mapM_cons, h2, ← he, h3]
      cases F.readF (F.showF x.cost).dropLast <;> simp
  unfold printed
  rw [lines_text hF (by intro y hy; rcases List.mem_append.1 hy with hy | hy; exact h y hy; rw [List.mem_singleton.1 hy]; exact hx),
    List.zipIdx_append]
  rw [show [x].zipIdx (0 + l.length) = [(x, l.length)] by simp, key _ (fun p hp => h _ (List.fst_mem_of_mem_zipIdx hp))]
  congr 1
  funext t
  rw [zip_fst (fun y : Rec T => (y.host, F.showI y.size, y.cost))]

end Phyem.Ranking
