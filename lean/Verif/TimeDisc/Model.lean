import Verif.WeakForm.Terms
import Verif.Base.Dict

/-!
Temporal discretisation of a weak formulation: `src/wf/td.py`, `src/ode/main.py`,
`src/ode/discretize.py`. Exceptions are `none`.

A form that results from `form.replace` is known by its text only, so the terms here carry the texts
of their two forms.
-/

namespace Phyem.TimeDisc

open Phyem.LinRepr (Str Form Scalar Registry isIn replaceText formText validName findUpon)
open Phyem.WeakForm (Kind Term Eqn Wf Env str mapOpt)

/-- A term with the texts of its forms (`src/wf/term/main.py:38-72`). -/
structure TTerm (R : Type) where
  kind : Kind
  factor : R
  lin0 : Str
  lin1 : Str
  restricted : Bool
deriving DecidableEq

/-- A discretisation in progress: the formulation (`td._wf`, `None` after a clean call), the name of
the time sequence, the defined abstract instants (`_at_instants`) and the replacements made so far
(`_eq_terms`, of all equations, by equation and term number, `src/ode/discretize.py:14-21`). -/
structure State (R F : Type) where
  wf : Option (Wf (TTerm R) F)
  ts : Str
  instants : List Str
  disc : Dict (ℕ × ℕ) (TTerm R × Sign)

/-- The name of the abstract time instant `k` (`src/time_sequence.py:57`). -/
def instName (ts k : Str) : Str := ts ++ ['['] ++ k ++ [']']

/-- `(f @ t)._pure_lin_repr` for the root form named `n` (`src/form/main.py:697-701`). -/
def atName (ts n k : Str) : Str := n ++ ['@'] ++ instName ts k

/-- The length of the interval between two instants, as a scalar (`src/time_sequence.py:111-112`,
`686-692`). -/
def stepName (ts ks ke : Str) : Str := ts ++ ['['] ++ ks ++ [','] ++ ke ++ [']']

/-- The simple pattern of a term is `(pt,)` (`src/wf/term/pattern.py:24-34`, `1158-1166`): an inner
product whose first text starts with the time derivative and whose second has none. `none` when no
form is found under the time derivative (`None.is_root`). Terms of diagonal forms, which have no such
pattern, are left out. -/
def isPt {R : Type} (G : Registry) (t : TTerm R) : Option Bool :=
  if t.kind = .inner ∧ LinRepr.Op.timeDerivative.chars.isPrefixOf t.lin0 = true then
    (findUpon G .timeDerivative t.lin0).map fun _ => !isIn LinRepr.Op.timeDerivative.chars t.lin1
  else some false

/-- All terms of an equation in the order of their indices (`src/ode/main.py:114-145`). -/
def terms {T : Type} (e : Eqn T) : List (Sign × T) := e.left ++ e.right

/-- `wf.td` after `set_time_sequence` (`src/wf/td.py:14-35`, `75-95`). The patterns of all terms are
examined here (`src/ode/main.py:69-91`). -/
def start {R F : Type} (G : Registry) (w : Wf (TTerm R) F) (ts : Str) : Option (State R F) :=
  if ∀ e ∈ w.eqs, ∀ p ∈ terms e, (isPt G p.2).isSome = true then some ⟨some w, ts, [], []⟩ else none

/-- What a user asks for. -/
inductive Cmd
  | define (ks : List Str)
  | differentiate (i k : ℕ) (ks ke : Str)
  | average (i k : ℕ) (f : Form) (tis : List Str)

/-- `define_abstract_time_instants` (`src/ode/discretize.py:33-42`); names with forbidden characters
are refused by `_parse_lin_repr`. -/
def define {R F : Type} (st : State R F) (ks : List Str) : Option (State R F) :=
  if ∀ k ∈ ks, validName (instName st.ts k) = true then some { st with instants := st.instants ++ ks }
  else none

/-- The term of an index (`index in self._wf`, `self._ode[index]`, `src/wf/td.py:102-105`,
`src/ode/main.py:171-178`). -/
def termAt {R F : Type} (st : State R F) (i k : ℕ) : Option (Sign × TTerm R) :=
  st.wf.bind fun w => w.eqs[i]?.bind fun e => (terms e)[k]?

/-- `differentiate(index, ks, ke)` (`src/ode/discretize.py:59-78`): the term of the quotient is made
without a factor, and replaces whatever was stored for the index. The forms made by evaluations
`f @ t` are registered too; the registry `G` is taken as fixed. -/
def differentiate {R F : Type} [One R] (G : Registry) (st : State R F) (i k : ℕ) (ks ke : Str) :
    Option (State R F) :=
  (termAt st i k).bind fun p =>
    if ks ∈ st.instants ∧ ke ∈ st.instants ∧ isPt G p.2 = some true then
      (findUpon G .timeDerivative p.2.lin0).bind fun b =>
        match b with
        | .root n =>
          let q := Form.sdiv (.sub (.root (atName st.ts n ke)) (.root (atName st.ts n ks)))
            (.root (stepName st.ts ks ke))
          some { st with disc := st.disc.put (i, k) (⟨p.2.kind, 1, q.lin, p.2.lin1, false⟩, .pos) }
        | _ => none
    else none

/-- The sum of root forms, from the left (`src/ode/discretize.py:97-101`). -/
def sumForms (ts n : Str) (t0 : Str) (tis : List Str) : Form :=
  tis.foldl (fun acc t => Form.add acc (.root (atName ts n t))) (.root (atName ts n t0))

/-- The average of a root form at instants (`src/ode/discretize.py:82-104`): a single value, or the
sum divided by the number. No instants: `f_[0]` raises. -/
def averageForm (ts n : Str) : List Str → Option Form
  | [] => none
  | [t] => some (.root (atName ts n t))
  | t :: tis => some (.sdiv (sumForms ts n t tis) (.root (str (tis.length + 1))))

/-- `term.replace(f, by)` (`src/wf/term/main.py:217-275`, `which='all'`): factor and restriction are
kept; the sign is `'+'`. -/
def replaceTerm {R : Type} (t : TTerm R) (n : Str) (by' : Form) : TTerm R × Sign :=
  ({ t with
      lin0 := replaceText t.lin0 (formText n) by'.lin
      lin1 := replaceText t.lin1 (formText n) by'.lin }, .pos)

/-- `average(index, f, instants)` (`src/ode/discretize.py:80-126`); only root forms can be evaluated
at an instant (`src/form/main.py:697`). -/
def average {R F : Type} (st : State R F) (i k : ℕ) (f : Form) (tis : List Str) :
    Option (State R F) :=
  (termAt st i k).bind fun p =>
    match f with
    | .root n =>
      if ∀ t ∈ tis, t ∈ st.instants then
        (averageForm st.ts n tis).map fun a =>
          match st.disc.get (i, k) with
          | none => { st with disc := st.disc.put (i, k) (replaceTerm p.2 n a) }
          | some old =>
            let new := replaceTerm old.1 n a
            { st with disc := st.disc.put (i, k) (new.1, if old.2 = new.2 then .pos else .neg) }
      else none
    | _ => none

/-- One command; `none` is an exception. After a clean call `self._valid_ode` is `None` and every
command raises. -/
def step {R F : Type} [One R] (G : Registry) (st : State R F) (c : Cmd) : Option (State R F) :=
  if st.wf.isNone then none else
  match c with
  | .define ks => define st ks
  | .differentiate i k ks ke => differentiate G st i k ks ke
  | .average i k f tis => average st i k f tis

/-- A history of commands that all succeed. -/
def run {R F : Type} [One R] (G : Registry) (st : State R F) : List Cmd → Option (State R F)
  | [] => some st
  | c :: cs => (step G st c).bind fun st' => run G st' cs

/-- `_parse_sign` (`src/ode/discretize.py:155-158`). -/
def parseSign (a b : Sign) : Sign := if a = b then .pos else .neg

/-- The entry of index `k` of equation `i` in the result (`src/ode/discretize.py:134-147`). -/
def entry {R : Type} (disc : Dict (ℕ × ℕ) (TTerm R × Sign)) (i k : ℕ) (p : Sign × TTerm R) :
    Sign × TTerm R :=
  match disc.get (i, k) with
  | some new => (parseSign p.1 new.2, new.1)
  | none => p

/-- One equation of the result: every entry is put on the side of its index
(`src/ode/discretize.py:130-151`). -/
def callEqn {R : Type} (disc : Dict (ℕ × ℕ) (TTerm R × Sign)) (i : ℕ) (e : Eqn (TTerm R)) :
    Eqn (TTerm R) :=
  let all := (terms e).zipIdx.map fun p => (entry disc i p.2 p.1, p.2)
  ⟨(all.filter fun q => decide (q.2 < e.left.length)).map Prod.fst,
   (all.filter fun q => !decide (q.2 < e.left.length)).map Prod.fst⟩

/-- `td(clean=...)` (`src/wf/td.py:44-66`): the new formulation and the state left behind. The
unknowns are not passed on. -/
def call {R F : Type} [DecidableEq F] (E : Env (TTerm R) F) (st : State R F) (clean : Bool) :
    Option (Wf (TTerm R) F × State R F) :=
  st.wf.bind fun w =>
    (WeakForm.build E (w.eqs.zipIdx.map fun p => callEqn st.disc p.2 p.1) none w.bc).map fun w' =>
      (w', if clean then { st with wf := none } else st)

end Phyem.TimeDisc
