import Mathlib.Data.List.Basic
import Mathlib.Data.Int.Notation

/-!
Forms and their linguistic representations (`_lin_repr`): `src/config.py`,
`src/form/operators.py`, `src/form/main.py`, `src/form/parameters.py`, `src/form/others.py`.
Strings are lists of characters. The symbolic representation (`_sym_repr`), which is used for
display and for uniqueness checks of root forms, is not modelled, and neither are the space checks
of the operators (see `Verif.Spaces`): every operator accepts every operand here.
-/

namespace Phyem.LinRepr

abbrev Str := List Char

/-- The pieces of text that the operators put between operands: the entries of
`_global_operator_lin_repr_setting` (`src/config.py:385-413`) used by forms, and the two brackets
`_non_root_lin_sep` (`src/config.py:416`). -/
inductive Op
  | opn | cls
  | plus | minus | wedge | hodge | d | codifferential | timeDerivative | trace
  | division | multiply
  | cross_product | Cross_Product | CrossProduct | crossProduct
  | convect | tensorProduct | projection | multi | ln
deriving DecidableEq, Repr

/-- The texts (`src/config.py:385-416`). -/
def Op.chars : Op → Str
  | opn => ['\\', '{']
  | cls => ['\\', '}']
  | plus => [' ', '$', '+', '$', ' ']
  | minus => [' ', '$', '-', '$', ' ']
  | wedge => [' ', '$', '\\', 'w', 'e', 'd', 'g', 'e', '$', ' ']
  | hodge => ['$', '\\', 's', 't', 'a', 'r', '$', ' ']
  | d => ['$', '\\', 'm', 'a', 't', 'h', 'r', 'm', '{', 'd', '}', '$', ' ']
  | codifferential => ['$', '\\', 'm', 'a', 't', 'h', 'r', 'm', '{', 'd', '}', '^', '{', '\\',
      'a', 's', 't', '}', '$', ' ']
  | timeDerivative => ['$', '\\', 'p', 'a', 'r', 't', 'i', 'a', 'l', '_', '{', 't', '}', '$', ' ']
  | trace => ['\\', 'e', 'm', 'p', 'h', '{', 't', 'r', '}', ' ']
  | division => [' ', '\\', 'e', 'm', 'p', 'h', '{', 'd', 'i', 'v', 'i', 'd', 'e', 'd', ' ',
      'b', 'y', '}', ' ']
  | multiply => [' ', '\\', 'e', 'm', 'p', 'h', '{', 'm', 'u', 'l', 't', 'i', 'p', 'l', 'y',
      '}', ' ']
  | cross_product => ['$', '\\', 't', 'i', 'm', 'e', 's', '$']
  | Cross_Product => ['-', '$', '\\', 'm', 'a', 't', 'h', 's', 'f', '{', 'X', '}', '$', '-']
  | CrossProduct => ['-', '$', '\\', 'm', 'a', 't', 'h', 'r', 'm', '{', 'x', '}', '$', '-']
  | crossProduct => ['-', '$', '\\', 'm', 'a', 't', 'h', 's', 'f', '{', 'x', '}', '$', '-']
  | convect => ['$', '\\', 'c', 'd', 'o', 't', '\\', 'n', 'a', 'b', 'l', 'a', '$']
  | tensorProduct => ['$', '\\', 'o', 't', 'i', 'm', 'e', 's', '$']
  | projection => ['$', '\\', 'p', 'i', '$', ' ']
  | multi => ['$', '\\', 'a', 's', 't', '$']
  | ln => [' ', '$', '\\', 'l', 'n', '$', ' ']

/-- `_parse_lin_repr` accepts a pure name when it is not empty and contains none of
`{ $ \ }` (`src/config.py:327-334`). -/
def validName (n : Str) : Bool := n ≠ [] && n.all fun c => c ≠ '{' && c ≠ '$' && c ≠ '\\' && c ≠ '}'

/-- `_parse_lin_repr('form', name)` (`src/config.py:315`, `333-334`). -/
def formText (n : Str) : Str := ['\\', 't', 'e', 'x', 't', 's', 'f', '{'] ++ n ++ ['}']

/-- `_parse_lin_repr('scalar_parameter', name)` (`src/config.py:316`, `333-334`). -/
def scalarText (n : Str) : Str := ['\\', 't', 'e', 'x', 't', 's', 'c', '{'] ++ n ++ ['}']

/-- Constant scalars: `constant_scalar`, `+`, `/` (`src/form/parameters.py:15-66`, `128-206`). Only
the text is modelled: sums of two numbers, which are computed, are not. -/
inductive Scalar
  | root (name : Str)
  | add (a b : Scalar)
  | div (a b : Scalar)
deriving DecidableEq, Repr

/-- `_lin_repr` of a scalar: no brackets (`src/form/parameters.py:144-145`, `155-156`, `200-203`). -/
def Scalar.lin : Scalar → Str
  | root n => scalarText n
  | add a b => a.lin ++ Op.plus.chars ++ b.lin
  | div a b => a.lin ++ Op.division.chars ++ b.lin

/-- `ConstantScalar0Form.is_root` (`src/form/parameters.py:117`). -/
def Scalar.isRoot : Scalar → Bool
  | root _ => true
  | _ => false

/-- Operators with one operand. `projection` and `log` also take an output space (its number),
which is not part of the text (`src/form/operators.py:40-69`, `100-245`, `526-556`). -/
inductive Un
  | hodge | d | codifferential | timeDerivative | trace
  | projection (space : ℕ)
  | ln (space : ℕ)
deriving DecidableEq, Repr

/-- Operators with two operands (`src/form/operators.py:72-98`, `248-523`). `multi` takes an output
space, which is not part of the text. -/
inductive Bin
  | wedge | cross_product | Cross_Product | CrossProduct | crossProduct | convect | tensorProduct
  | multi (space : ℕ)
deriving DecidableEq, Repr

def Un.op : Un → Op
  | hodge => .hodge
  | d => .d
  | codifferential => .codifferential
  | timeDerivative => .timeDerivative
  | trace => .trace
  | projection _ => .projection
  | ln _ => .ln

def Bin.op : Bin → Op
  | wedge => .wedge
  | cross_product => .cross_product
  | Cross_Product => .Cross_Product
  | CrossProduct => .CrossProduct
  | crossProduct => .crossProduct
  | convect => .convect
  | tensorProduct => .tensorProduct
  | multi _ => .multi

/-- How a form was built. -/
inductive Form
  | root (name : Str)
  | un (u : Un) (f : Form)
  | bin (b : Bin) (f g : Form)
  | add (f g : Form)
  | sub (f g : Form)
  | smul (c : Scalar) (f : Form)
  | sdiv (f : Form) (c : Scalar)
deriving DecidableEq, Repr

/-- `Form.is_root` (`src/form/main.py:332`): every operator builds its result with
`is_root = False`. -/
def Form.isRoot : Form → Bool
  | root _ => true
  | _ => false

/-- An operand: in brackets unless it is a root form (`src/form/operators.py:52-55` and all other
operators). -/
def bracket (isRoot : Bool) (s : Str) : Str :=
  if isRoot then s else Op.opn.chars ++ s ++ Op.cls.chars

/-- `_lin_repr`. Root: `src/form/main.py:161`; unary: `src/form/operators.py:113-116` and alike;
binary: `src/form/operators.py:84-93` and alike; `+`, `-`: `src/form/main.py:571`, `599` (no
brackets); `c * f`: `src/form/main.py:627-637` (a compound scalar is put in brackets only when the
form is not a root form); `f / c`: `src/form/main.py:664-670`. -/
def Form.lin : Form → Str
  | root n => formText n
  | un u f => u.op.chars ++ bracket f.isRoot f.lin
  | bin b f g => bracket f.isRoot f.lin ++ b.op.chars ++ bracket g.isRoot g.lin
  | add f g => f.lin ++ Op.plus.chars ++ g.lin
  | sub f g => f.lin ++ Op.minus.chars ++ g.lin
  | smul c f =>
    if f.isRoot then c.lin ++ Op.multiply.chars ++ f.lin
    else if c.isRoot then c.lin ++ Op.multiply.chars ++ (Op.opn.chars ++ f.lin ++ Op.cls.chars)
    else (Op.opn.chars ++ c.lin ++ Op.cls.chars) ++ Op.multiply.chars ++
      (Op.opn.chars ++ f.lin ++ Op.cls.chars)
  | sdiv f c => bracket f.isRoot f.lin ++ Op.division.chars ++ c.lin

/-- `a in b` for strings. -/
def isIn (a : Str) : Str → Bool
  | [] => a.isEmpty
  | c :: s => a.isPrefixOf (c :: s) || isIn a s

/-- `elementary_forms` (`src/form/main.py:282-291`): the registered root forms whose text occurs in
`_lin_repr`. The registry `_global_root_forms_lin_dict` is the list of the registered pure
names. -/
def elementaryForms (registry : List Str) (lin : Str) : List Str :=
  registry.filter fun n => isIn (formText n) lin

/-- Left-to-right replacement of the non-overlapping occurrences, skipping `k` characters first. -/
def replaceGo (pat by' : Str) : ℕ → Str → Str
  | _, [] => []
  | k + 1, _ :: s => replaceGo pat by' k s
  | 0, c :: s =>
    if pat.isPrefixOf (c :: s) then by' ++ replaceGo pat by' (pat.length - 1) s
    else c :: replaceGo pat by' 0 s

/-- `s.replace(pat, by)` for a non-empty pattern. -/
def strReplace (pat by' s : Str) : Str := replaceGo pat by' 0 s

/-- `form.replace(f, by, which='all')` (`src/form/main.py:729-739`): the text of the result. The
result is a new form known only by this text. -/
def replaceText (self f by' : Str) : Str :=
  if isIn f self = false then self
  else if self = f then by'
  else strReplace f by' self

/-- A registered form: how it was built. -/
abbrev Registry := List Form

/-- First part of `_find_form(lin_repr)` (`src/form/others.py:40-64`): the first registered form
whose `_lin_repr`, or `_pure_lin_repr` (root forms only), is the text. -/
def findForm (G : Registry) (lin : Str) : Option Form :=
  G.find? fun f => decide (f.lin = lin) ||
    (match f with | .root n => decide (n = lin) | _ => false)

/-- `_find_form(lin_repr, upon=op)` (`src/form/others.py:66-88`): the first registered form on which
the operator gives the text. -/
def findUpon (G : Registry) (u : Un) (lin : Str) : Option Form :=
  G.find? fun f => decide ((Form.un u f).lin = lin)

/-- The double loop over all registered forms that splits `B x C`
(`src/wf/term/main.py:600-632`, `1014-1046`): the last first factor for which a second factor is
found wins, because `break` leaves the inner loop only; the two forms are then looked up again by
their texts. -/
def splitCross (G : Registry) (lin : Str) : Option (Form × Form) :=
  let found := G.foldl (fun acc f1 =>
    match G.find? (fun f2 =>
      decide (bracket f1.isRoot f1.lin ++ Op.cross_product.chars ++ bracket f2.isRoot f2.lin = lin)) with
    | some f2 => some (f1.lin, f2.lin)
    | none => acc) none
  found.bind fun p => (findForm G p.1).bind fun B => (findForm G p.2).map fun C => (B, C)

/-- The search for the form under a Hodge operator in `_switch_to_duality_pairing`
(`src/wf/term/main.py:1087-1122`): the operator text is cut off, and the rest compared with the
bracketed texts of all forms. -/
def underHodge (G : Registry) (lin : Str) : Option Form :=
  if Op.hodge.chars.isPrefixOf lin then
    G.find? fun f => decide (bracket f.isRoot f.lin = lin.drop Op.hodge.chars.length)
  else none

end Phyem.LinRepr
