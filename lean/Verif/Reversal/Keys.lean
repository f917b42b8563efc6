import Verif.Reversal.Spec
import Verif.Base.Dict

/-!
Model of the caches and cache keys of the element incidence matrices in two dimensions
(`incidence_matrix/Lambda/IM_m2n2k0.py`, `IM_m2n2k1.py`). Strings are lists of characters.
-/

namespace Phyem.Reversal

open Phyem.Numbering Phyem.Incidence Phyem.Triangle Phyem

/-- `str` of a natural number. -/
def num (n : ℕ) : List Char := Nat.toDigits 10 n

/-- `f'{p}'` of the tuple `(px, py)`. -/
def tup (p q : ℕ) : List Char := '(' :: (num p ++ ',' :: ' ' :: (num q ++ [')']))

/-- The rest of `str` of a list after an entry. -/
def lstTail : List ℕ → List Char
  | [] => [']']
  | a :: l => ',' :: ' ' :: (num a ++ lstTail l)

/-- `str` of a list of natural numbers. -/
def lst : List ℕ → List Char
  | [] => ['[', ']']
  | a :: l => '[' :: (num a ++ lstTail l)

/-- How incidence matrices distinguish elements: `'unique msepy curvilinear quadrilateral'` and `'orthogonal rectangle'`;
`9` and `'unique curvilinear quad'`; `5` and `'unique msepy curvilinear triangle'` (`IM_m2n2k0.py:36-46`, `233-243`,
`IM_m2n2k1.py:34-42`, `227-234`). -/
inductive EType where
  | regular
  | nine
  | five
deriving DecidableEq, Repr

/-- Which incidence matrix: from 0- or from 1-forms. -/
inductive Deg where
  | k0
  | k1
deriving DecidableEq, Repr

/-- The parts of an element these functions use: type, degree and `dof_reverse_info`. -/
structure Elem where
  et : EType
  p : ℕ
  q : ℕ
  inner : Option (List ℕ)
  outer : Option (List ℕ)
deriving DecidableEq, Repr

def shapeOf : EType → Shape
  | .regular => .quad
  | .nine => .quad
  | .five => .tri

/-- `element.dof_reverse_info['m2n2k1_inner']` or `['m2n2k1_outer']`, if present. -/
def Elem.rev (el : Elem) : Ori → Option (List ℕ)
  | .inner => el.inner
  | .outer => el.outer

/-- A matrix with its shape. -/
abbrev M := ℕ × ℕ × Mat

/-- The matrix before reversal (`IM_m2n2k0.py:60-84`, `170-194`, `257-282`, `369-394`, `IM_m2n2k1.py:56-77`, `163-187`,
`248-270`, `355-380`). `none`: `IndexError`. -/
def rawE : Deg → Ori → Shape → ℕ → ℕ → Option M
  | .k0, o, .quad, p, q => some ((p + 1) * q + p * (q + 1), (p + 1) * (q + 1), E0 .quad o p q)
  | .k1, o, .quad, p, q => some (p * q, (p + 1) * q + p * (q + 1), E1 .quad o p q)
  | .k0, .outer, .tri, p, q => imT0o p q
  | .k0, .inner, .tri, p, q => imT0i p q
  | .k1, .outer, .tri, p, q => imT1o p q
  | .k1, .inner, .tri, p, q => imT1i p q

/-- The beginnings of the keys (`IM_m2n2k0.py:85`, `195`, `283`, `395`, `IM_m2n2k1.py:78`, `188`, `271`, `381`). -/
def pre : Deg → Ori → Shape → List Char
  | .k0, .outer, .quad => ['m', 'q']
  | .k0, .outer, .tri => ['v', 't', 'u', '5', 'o']
  | .k0, .inner, .quad => ['m', 'q']
  | .k0, .inner, .tri => ['v', 't', 'u', '5', 'i']
  | .k1, .outer, .quad => ['m', 'q']
  | .k1, .outer, .tri => ['v', 't', 'u', '5', 'o']
  | .k1, .inner, .quad => ['m', 'q']
  | .k1, .inner, .tri => ['m', 'q']

/-- What the loop over faces appends to the key: `new_cache_key += str(fi)`, not there for inner 0-forms
(`IM_m2n2k0.py:112-117`, `208-213`, `312-316`, `409-413`, `IM_m2n2k1.py:105-110`, `201-206`, `298-303`, `394-399`). -/
def digits : Deg → Ori → List ℕ → List Char
  | .k0, .inner, _ => []
  | _, _, faces => faces.flatMap num

/-- `new_E` (the same lines). -/
def reverseE (k : Deg) (o : Ori) (s : Shape) (p q : ℕ) (E : M) (faces : List ℕ) : Option M :=
  match k with
  | .k0 => (revRows s o p q E.2.2 faces).map fun A => (E.1, E.2.1, A)
  | .k1 => (revCols s o p q E.2.2 faces).map fun A => (E.1, E.2.1, A)

/-- The caches of one function: `_cache_msepy_*_`, `_cache_vtu9_*_`, `_cache_vtu5_*_` (entries under degrees and under
strings apart: a tuple never equals a string). -/
structure Caches where
  msepy : Dict (ℕ × ℕ) (M × List Char)
  vtu9 : Dict (List Char) M
  vtu5p : Dict (ℕ × ℕ) (M × List Char)
  vtu5 : Dict (List Char) M

def Caches.empty : Caches := ⟨[], [], [], []⟩

/-- Look the matrix of a degree up or make it. -/
def base (k : Deg) (o : Ori) (s : Shape) (d : Dict (ℕ × ℕ) (M × List Char)) (p q : ℕ) :
    Dict (ℕ × ℕ) (M × List Char) × Option (M × List Char) :=
  match d.get (p, q) with
  | some r => (d, some r)
  | none =>
    match rawE k o s p q with
    | none => (d, none)
    | some E => (d.put (p, q) (E, pre k o s ++ tup p q), some (E, pre k o s ++ tup p q))

/-- The reversal with its cache (`IM_m2n2k0.py:102-120`, …). -/
def withRev (k : Deg) (o : Ori) (s : Shape) (d : Dict (List Char) M) (p q : ℕ) (r : M × List Char) :
    Option (List ℕ) → Dict (List Char) M × Option (M × List Char)
  | none => (d, some r)
  | some faces =>
    match d.get (r.2 ++ lst faces) with
    | some E => (d, some (E, r.2 ++ lst faces))
    | none =>
      match reverseE k o s p q r.1 faces with
      | none => (d, none)
      | some E => (d.put (r.2 ++ lst faces ++ digits k o faces) E, some (E, r.2 ++ lst faces ++ digits k o faces))

/-- `_im220o_msepy_quadrilateral_`, `_im220o_vtu_9_`, `_im220o_vtu_5_` and their five analogues; `none`: an exception. Caches filled
before an exception stay filled. -/
def im (k : Deg) (o : Ori) (c : Caches) (el : Elem) : Caches × Option (M × List Char) :=
  match el.et with
  | .regular =>
    let b := base k o .quad c.msepy el.p el.q
    ({ c with msepy := b.1 }, if el.inner = none ∧ el.outer = none then b.2 else none)
  | .nine =>
    let b := base k o .quad c.msepy el.p el.q
    match b.2 with
    | none => ({ c with msepy := b.1 }, none)
    | some r =>
      let w := withRev k o .quad c.vtu9 el.p el.q r (el.rev o)
      ({ c with msepy := b.1, vtu9 := w.1 }, w.2)
  | .five =>
    let b := base k o .tri c.vtu5p el.p el.q
    match b.2 with
    | none => ({ c with vtu5p := b.1 }, none)
    | some r =>
      let w := withRev k o .tri c.vtu5 el.p el.q r (el.rev o)
      ({ c with vtu5p := b.1, vtu5 := w.1 }, w.2)

/-- The caches after a history of calls. -/
def calls (k : Deg) (o : Ori) (h : List Elem) : Caches := h.foldl (fun c el => (im k o c el).1) Caches.empty

end Phyem.Reversal
