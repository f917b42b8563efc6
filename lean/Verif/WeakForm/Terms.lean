import Verif.WeakForm.Model
import Verif.LinRepr.Model

/-!
The terms of weak formulations and their rewrites: `src/wf/term/main.py`.
-/

namespace Phyem.WeakForm

open Phyem.Expr (Str split removeSpaces)
open Phyem.LinRepr (Form Registry Un Bin Op)

/-- `L2InnerProductTerm` or `DualityPairingTerm` (`src/wf/term/main.py:365`, `737`). -/
inductive Kind
  | inner
  | duality
deriving DecidableEq, Repr

/-- A term: factor times `(f0, f1)` or `<f0|f1>` (`src/wf/term/main.py:38-72`). The factor is kept
by its value; `restricted` says that the term was restricted to a part of the manifold. -/
structure Term (R : Type) where
  kind : Kind
  factor : R
  f0 : Form
  f1 : Form
  restricted : Bool := false
deriving DecidableEq

/-- What the rewrites ask about forms: whether a term of two forms can be made (the `assert`s on
spaces and meshes, `src/wf/term/main.py:350-358`, `385-389`, `763-774`), on which forms an operator
is defined, and whether the manifold is periodic. -/
structure Spaces where
  ok : Kind → Form → Form → Bool
  defined : Un → Form → Bool
  periodic : Bool
  /-- `A.representing()[3] == 'vector'` of a scalar-valued form. -/
  isVector : Form → Bool
  /-- `A.representing()[3] == 'scalar'`. -/
  isScalar : Form → Bool
  /-- The orientation of the space is `'inner'`; else `'outer'`. -/
  innerOriented : Form → Bool
  /-- The output space of `B.multi(A, output_space=A)`. -/
  spaceOf : Form → ℕ

/-- The constructor of a term of a kind. -/
def mkTerm {R : Type} (S : Spaces) (k : Kind) (f0 f1 : Form) (c : R) : Option (Term R) :=
  if S.ok k f0 f1 = true then some ⟨k, c, f0, f1, false⟩ else none

/-- `split(f, into, signs, factors)` (`src/wf/term/main.py:279-329`). `onF0` is `f == 'f0'`, the other
accepted value being `'f1'`. The factor of the term is not used (`304`, `317`). -/
def splitTerm {R : Type} [One R] (S : Spaces) (t : Term R) (onF0 : Bool) (into : List Form)
    (signs : List Str) (factors : Option (List R)) : Option (List (Term R) × List Str) :=
  if into.length < 1 then none
  else if into.length ≠ signs.length then none
  else
    let fs := factors.getD (into.map fun _ => 1)
    if signs.length ≠ fs.length then none
    else if t.restricted = true then none
    else if mapOpt parseSign signs = none then none
    else
      (mapOpt (fun p : Form × R =>
        if onF0 then mkTerm S t.kind p.1 t.f1 p.2 else mkTerm S t.kind t.f0 p.1 p.2)
        (into.zip fs)).map fun ts => (ts, signs)

/-- `wf.derive.split(index, ...)` (`src/wf/derive.py:296-300`). -/
def deriveSplit {R F : Type} [One R] [DecidableEq F] (S : Spaces) (E : Env (Term R) F) (w : Wf (Term R) F)
    (i k : ℕ) (onF0 : Bool) (into : List Form) (signs : List Str) (factors : Option (List R)) :
    Option (Wf (Term R) F) :=
  w.eqs[i]?.bind fun e => (e.left ++ e.right)[k]?.bind fun st =>
    (splitTerm S st.2 onF0 into signs factors).bind fun p => replace E w i k p.1 p.2

/-! ### Triple products -/

/-- The three characters around and inside a format (`src/wf/term/main.py:472-487`, `886-901`). -/
def delims : Kind → Char × Char × Char
  | .inner => ('(', ',', ')')
  | .duality => ('<', '|', '>')

/-- A format: the name of the single factor, the two names of the cross product, and whether the
single factor comes first (`src/wf/term/main.py:469-516`). `none` when a check fails. -/
def parseFormat (k : Kind) (s : Str) : Option (Bool × Char × Char × Char) :=
  let s := removeSpaces s
  let o := (delims k).1
  let m := (delims k).2.1
  let c := (delims k).2.2
  if s.length = 7 ∧ s.head? = some o ∧ s.getLast? = some c ∧ s.count m = 1 ∧ s.count o = 1 ∧
      s.count c = 1 ∧ s.count 'x' = 1 ∧ 'X' ∉ s then
    match split m (s.tail.dropLast) with
    | [[a], [b, x, d]] => if a ∉ [b, x, d] then some (true, a, b, d) else none
    | [[b, x, d], [a]] => if a ∉ [b, x, d] then some (false, a, b, d) else none
    | _ => none
  else none

/-- `'A'`, `'B'`, `'C'`: the places of the three factors in the current format. -/
inductive Slot
  | A
  | B
  | C
deriving DecidableEq, Repr

/-- `_dict[name]` where the names of the current format were entered in the order `A`, `B`, `C`, so
the last one wins; `KeyError` is `none` (`src/wf/term/main.py:498-513`). -/
def slot (cur : Char × Char × Char) (n : Char) : Option Slot :=
  if n = cur.2.2 then some .C else if n = cur.2.1 then some .B else if n = cur.1 then some .A
  else none

/-- The table of `check_format` (`src/wf/term/main.py:521-577`). -/
def tableSign : Slot → Slot → Slot → Option Sign
  | .A, .B, .C => some .pos
  | .B, .C, .A => some .pos
  | .C, .A, .B => some .pos
  | .A, .C, .B => some .neg
  | .B, .A, .C => some .neg
  | .C, .B, .A => some .neg
  | _, _, _ => none

/-- `normalized_indicator_dict[slot]`. -/
def pick (A B C : Form) : Slot → Form
  | .A => A
  | .B => B
  | .C => C

/-- `_commutation_wrt_inner_and_x(current_format, target_format)` (`src/wf/term/main.py:444-671` for
duality pairings, `858-1085` for inner products: the same text up to delimiters and class). `G` are
the registered forms. -/
def commute {R : Type} (S : Spaces) (G : Registry) (t : Term R) (cur tgt : Str) :
    Option (Term R × Sign) :=
  (parseFormat t.kind cur).bind fun cf =>
  (parseFormat t.kind tgt).bind fun tf =>
  (slot cf.2 tf.2.1).bind fun x => (slot cf.2 tf.2.2.1).bind fun y => (slot cf.2 tf.2.2.2).bind fun z =>
  (tableSign x y z).bind fun s =>
  let A := if cf.1 then t.f0 else t.f1
  let BC := if cf.1 then t.f1 else t.f0
  (LinRepr.splitCross G BC.lin).bind fun p =>
  let X := pick A p.1 p.2 x
  let YZ := Form.bin .cross_product (pick A p.1 p.2 y) (pick A p.1 p.2 z)
  (if tf.1 then mkTerm S t.kind X YZ t.factor else mkTerm S t.kind YZ X t.factor).map fun t' => (t', s)

/-- `wf.derive.commutation_wrt_inner_and_x` (`src/wf/derive.py:307-310`); a single new term and sign are
put into lists by `replace` (`19-24`). -/
def signText : Sign → Str
  | .pos => ['+']
  | .neg => ['-']

def deriveCommute {R F : Type} [DecidableEq F] (S : Spaces) (G : Registry) (E : Env (Term R) F)
    (w : Wf (Term R) F) (i k : ℕ) (cur tgt : Str) : Option (Wf (Term R) F) :=
  w.eqs[i]?.bind fun e => (e.left ++ e.right)[k]?.bind fun st =>
    (commute S G st.2 cur tgt).bind fun p => replace E w i k [p.1] [signText p.2]

/-! ### Integration by parts and the duality switch -/

/-- The two texts around the only occurrence of `' convect '` (`src/wf/term/pattern.py:957-965`). -/
def splitConvect (G : Registry) (f : Form) : Option (Form × Form) :=
  G.findSome? fun A => if A.isRoot then
    (G.find? fun B => B.isRoot && decide ((Form.bin .convect A B).lin = f.lin)).map fun B => (A, B)
  else none

/-- `_integration_by_parts(drop_bi_term, output_format=0)` (`src/wf/term/main.py:780-856`). The pattern
`(cd,)` is recognised by the text of `f0` (`src/wf/term/pattern.py:19-22`, `1154-1156`). The pattern
`(A .V B, C)` is recognised for two registered root forms and a root form `f1`
(`src/wf/term/pattern.py:956-990`; there the text is cut at the operator and the two parts looked up,
here the parts are searched for); terms that match one of the other patterns first make the call
fail and are not told apart here. -/
def intByParts {R : Type} (S : Spaces) (G : Registry) (t : Term R) (drop : Bool) :
    Option (List (Term R × Sign)) :=
  if t.kind ≠ .inner then none
  else if Op.codifferential.chars.isPrefixOf t.f0.lin = true then
    (LinRepr.findUpon (G.filter fun f => S.defined .codifferential f) .codifferential t.f0.lin).bind
      fun bf => (mkTerm S .inner bf (.un .d t.f1) t.factor).bind fun tm =>
        if S.periodic = true ∨ drop = true then some [(tm, .pos)]
        else
          (mkTerm S .duality (.un .trace (.un .hodge bf)) (.un .trace t.f1) t.factor).map fun tb =>
            [(tm, .pos), (tb, .neg)]
  else if t.f1.isRoot = true then
    (splitConvect G t.f0).bind fun p =>
      if S.isVector p.1 = true ∧ S.isScalar p.2 = true ∧ S.isScalar t.f1 = true ∧ drop = true then
        let f0 := Form.bin (.multi (S.spaceOf p.1)) p.2 p.1
        let f1 := Form.un .d t.f1
        let k := if S.innerOriented f0 = S.innerOriented f1 then Kind.inner else Kind.duality
        (mkTerm S k f0 f1 t.factor).map fun tn => [(tn, .neg)]
      else none
  else none

/-- `wf.derive.integration_by_parts` (`src/wf/derive.py:290-294`). -/
def deriveIntByParts {R F : Type} [DecidableEq F] (S : Spaces) (G : Registry) (E : Env (Term R) F)
    (w : Wf (Term R) F) (i k : ℕ) (drop : Bool) : Option (Wf (Term R) F) :=
  w.eqs[i]?.bind fun e => (e.left ++ e.right)[k]?.bind fun st =>
    (intByParts S G st.2 drop).bind fun l =>
      replace E w i k (l.map Prod.fst) (l.map fun p => signText p.2)

/-- `_switch_to_duality_pairing` (`src/wf/term/main.py:1087-1135`). -/
def switchDuality {R : Type} (S : Spaces) (G : Registry) (t : Term R) : Option (Term R × Sign) :=
  if t.kind ≠ .inner then none
  else if Op.hodge.chars.isPrefixOf t.f0.lin = true then
    (LinRepr.underHodge G t.f0.lin).bind fun a =>
      (mkTerm S .duality a t.f1 t.factor).map fun t' => (t', .pos)
  else if Op.hodge.chars.isPrefixOf t.f1.lin = true then
    (LinRepr.underHodge G t.f1.lin).bind fun b =>
      (mkTerm S .duality t.f0 b t.factor).map fun t' => (t', .pos)
  else none

/-- `wf.derive.switch_to_duality_pairing` (`src/wf/derive.py:312-315`). -/
def deriveSwitch {R F : Type} [DecidableEq F] (S : Spaces) (G : Registry) (E : Env (Term R) F)
    (w : Wf (Term R) F) (i k : ℕ) : Option (Wf (Term R) F) :=
  w.eqs[i]?.bind fun e => (e.left ++ e.right)[k]?.bind fun st =>
    (switchDuality S G st.2).bind fun p => replace E w i k [p.1] [signText p.2]

end Phyem.WeakForm
