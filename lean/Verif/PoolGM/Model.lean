import Verif.Base.Dict

/-!
Model of the global numbering on unstructured meshes in
`msehtt/static/space/gathering_matrix/Lambda/` (`GM_m2n2k0.py`, `GM_m2n2k1.py`, `GM_m2n2k2.py`).

An element's function fills arrays block by block: numbers for a node, for the inner dofs of an edge
(both taken from a pool shared by all elements if the pool has them) and for the interior.
-/

namespace Phyem.PoolGM

/-- A position of an array: component, `i`, `j`, `k`. -/
abbrev Cell := ℕ × ℕ × ℕ × ℕ

/-- What one block of an element's function does. -/
inductive Block where
  /-- Number a node (`GM_m2n2k0.py:95-103`) and write the number to `cells`. -/
  | node (v : ℕ) (cells : List Cell)
  /-- Number the dofs of an edge (`GM_m2n2k0.py:105-117`, `GM_m2n2k1.py:136-147`) or face, an array of the
  given shape, and write them to `cells`; both in Fortran order. With `cut` the numbers are cut into parts which
  are reshaped before they are written (`GM_m3n3k1.py:227-228`). -/
  | ent (cut : Bool) (key : List ℕ) (shape : ℕ × ℕ) (cells : List Cell)
  /-- Number interior dofs (`GM_m2n2k0.py:147-150`). -/
  | inner (cells : List Cell)

/-- The pools and the counter (`GM_m2n2k0.py:26-29`). Edge and face pools are one dictionary here: their
keys are tuples of different lengths. -/
structure St where
  nodes : Dict ℕ ℕ
  pool : Dict (List ℕ) ((ℕ × ℕ) × List ℕ)
  cur : ℕ

/-- `np.arange(cur, cur + m)`. -/
def arange (cur m : ℕ) : List ℕ := (List.range m).map fun t => cur + t

/-- The entry of an array of shape `sh` (flat, Fortran order) that numpy's broadcasting assigns to entry
`t` of an array of shape `tgt`. -/
def bcIndex (sh tgt : ℕ × ℕ) (t : ℕ) : ℕ :=
  (if sh.1 = 1 then 0 else t % tgt.1) + sh.1 * (if sh.2 = 1 then 0 else t / tgt.1)

/-- `numbering[slice] = number`: numpy broadcasts an axis of length 1 and refuses other mismatches. After cutting
and reshaping nothing is broadcast. -/
def assign (cut : Bool) (sh : ℕ × ℕ) (l : List ℕ) (tgt : ℕ × ℕ) (cells : List Cell) :
    Option (List (Cell × ℕ)) :=
  if (sh.1 = tgt.1 ∨ cut = false ∧ sh.1 = 1) ∧ (sh.2 = tgt.2 ∨ cut = false ∧ sh.2 = 1) then
    some (cells.zipIdx.filterMap fun x => (l[bcIndex sh tgt x.2]?).map fun n => (x.1, n))
  else none

/-- One block. With `rev`, edges are also looked up in the opposite direction and then reversed
(2d; `GM_m2n2k0.py:108-112`). -/
def runBlock (rev : Bool) (st : St) : Block → Option (List (Cell × ℕ) × St)
  | .node v cells =>
    match Dict.get st.nodes v with
    | some n => some (cells.map fun c => (c, n), st)
    | none => some (cells.map fun c => (c, st.cur),
        { st with nodes := Dict.put st.nodes v st.cur, cur := st.cur + 1 })
  | .ent cut key shape cells =>
    match Dict.get st.pool key with
    | some x => (assign cut x.1 x.2 shape cells).map fun w => (w, st)
    | none =>
      match (if rev then Dict.get st.pool key.reverse else none) with
      | some x => (assign cut x.1 x.2.reverse shape cells).map fun w => (w, st)
      | none =>
        (assign cut shape (arange st.cur (shape.1 * shape.2)) shape cells).map fun w =>
          (w, { st with pool := Dict.put st.pool key (shape, arange st.cur (shape.1 * shape.2))
                        cur := st.cur + shape.1 * shape.2 })
  | .inner cells =>
    some (cells.zip (arange st.cur cells.length), { st with cur := st.cur + cells.length })

/-- The blocks of one element, in order: all writes, and the state after. -/
def runBlocks (rev : Bool) : St → List Block → Option (List (Cell × ℕ) × St)
  | st, [] => some ([], st)
  | st, b :: bs =>
    (runBlock rev st b).bind fun r =>
      (runBlocks rev r.2 bs).map fun r' => (r.1 ++ r'.1, r'.2)

/-- The array after the writes, the last one to a position being the one that counts. -/
def array (w : List (Cell × ℕ)) (c : Cell) : Option ℕ := (w.reverse.find? fun x => x.1 == c).map Prod.snd

/-- All entries in the given order; none when one was never written (`assert -1 not in numbering`). -/
def ravel (a : Cell → Option ℕ) : List Cell → Option (List ℕ)
  | [] => some []
  | c :: cs => (a c).bind fun n => (ravel a cs).map fun ns => n :: ns

/-- One element: number, then ravel the arrays. -/
def runElem (rev : Bool) (st : St) (blocks : List Block) (order : List Cell) : Option (List ℕ × St) :=
  (runBlocks rev st blocks).bind fun r => (ravel (array r.1) order).map fun ns => (ns, r.2)

/-- An element of the mesh: its label, whether it belongs to the partial mesh, what its function does and
the order in which the arrays are ravelled. -/
structure Elem where
  label : ℕ
  inside : Bool
  blocks : List Block
  order : List Cell

/-- The loop over all elements (`GM_m2n2k0.py:30-62`); elements outside the partial mesh get `None`. -/
def runMesh (rev : Bool) : St → List Elem → Option (Dict ℕ (Option (List ℕ)) × St)
  | st, [] => some ([], st)
  | st, x :: xs =>
    if x.inside then
      (runElem rev st x.blocks x.order).bind fun r =>
        (runMesh rev r.2 xs).map fun r' => ((x.label, some r.1) :: r'.1, r'.2)
    else (runMesh rev st xs).map fun r' => ((x.label, none) :: r'.1, r'.2)

/-- The numbering of the whole mesh, and the number of dofs. -/
def number (rev : Bool) (mesh : List Elem) : Option (Dict ℕ (Option (List ℕ)) × ℕ) :=
  (runMesh rev ⟨[], [], 0⟩ mesh).map fun r => (r.1, r.2.cur)

/-! ### The element types in 2d -/

/-- The shapes of elements in 2d. `quad` is a quadrilateral or an orthogonal rectangle (corners `x-y-`,
`x+y-`, `x-y+`, `x+y+`); `quad9` the vtk quadrilateral (corners in cyclic order); `tri` the triangle. -/
inductive Shape2 where
  | quad (m0 m1 m2 m3 : ℕ)
  | quad9 (m0 m1 m2 m3 : ℕ)
  | tri (m0 m1 m2 : ℕ)

/-- `[i:i', j]`, `[i, j:j']`, `[i:i', j:j']` of component `t`, in Fortran order. -/
def rect (t i0 m j0 n : ℕ) : List Cell :=
  (List.range n).flatMap fun j => (List.range m).map fun i => (t, i0 + i, j0 + j, 0)

/-- `___gm220_msepy_quadrilateral___` (`GM_m2n2k0.py:86-196`), the corners being `a` (`x-y-`), `b` (`x+y-`),
`c` (`x-y+`), `d` (`x+y+`). Degrees are at least 1, so that `1:-1` has length `p - 1`. -/
def quad0 (a b c d p q : ℕ) : List Block := [
  .node a [(0, 0, 0, 0)],
  .ent false [a, b] (p - 1, 1) (rect 0 1 (p - 1) 0 1),
  .node b [(0, p, 0, 0)],
  .ent false [a, c] (q - 1, 1) (rect 0 0 1 1 (q - 1)),
  .inner (rect 0 1 (p - 1) 1 (q - 1)),
  .ent false [b, d] (q - 1, 1) (rect 0 p 1 1 (q - 1)),
  .node c [(0, 0, q, 0)],
  .ent false [c, d] (p - 1, 1) (rect 0 1 (p - 1) q 1),
  .node d [(0, p, q, 0)]]

/-- `___gm220_vtu_5___` (`GM_m2n2k0.py:318-434`). -/
def tri0 (a b c p q : ℕ) : List Block := [
  .node a (rect 0 0 1 0 (q + 1)),
  .ent false [a, b] (p - 1, 1) (rect 0 1 (p - 1) 0 1),
  .node b [(0, p, 0, 0)],
  .inner (rect 0 1 (p - 1) 1 (q - 1)),
  .ent false [b, c] (q - 1, 1) (rect 0 p 1 1 (q - 1)),
  .ent false [a, c] (p - 1, 1) (rect 0 1 (p - 1) q 1),
  .node c [(0, p, q, 0)]]

/-- 0-forms: `GM_m2n2k0.py:30-62`; `___gm220_quad_9___` (`202-312`) is `quad0` with corners 2 and 3
exchanged. The triangle's function asserts `px == py` (`349`). -/
def elem0 (p q label : ℕ) (inside : Bool) : Shape2 → Option Elem
  | .quad m0 m1 m2 m3 => some ⟨label, inside, quad0 m0 m1 m2 m3 p q, rect 0 0 (p + 1) 0 (q + 1)⟩
  | .quad9 m0 m1 m2 m3 => some ⟨label, inside, quad0 m0 m1 m3 m2 p q, rect 0 0 (p + 1) 0 (q + 1)⟩
  | .tri m0 m1 m2 =>
    if p = q ∨ inside = false then
      some ⟨label, inside, tri0 m0 m1 m2 p q, (0, 0, 0, 0) :: rect 0 1 p 0 (q + 1)⟩
    else none

/-- `___gm_outer_msepy_quadrilateral___` (`GM_m2n2k1.py:128-198`). Component 0 is `dy`, component 1 `dx`. -/
def quad1o (a b c d p q : ℕ) : List Block := [
  .ent false [a, c] (q, 1) (rect 0 0 1 0 q),
  .inner (rect 0 1 (p - 1) 0 q),
  .ent false [b, d] (q, 1) (rect 0 p 1 0 q),
  .ent false [a, b] (p, 1) (rect 1 0 p 0 1),
  .inner (rect 1 0 p 1 (q - 1)),
  .ent false [c, d] (p, 1) (rect 1 0 p q 1)]

/-- `___gm_outer_vtu_5___` (`GM_m2n2k1.py:274-372`). -/
def tri1o (a b c p q : ℕ) : List Block := [
  .inner (rect 0 0 (p - 1) 0 q),
  .ent false [b, c] (q, 1) (rect 0 (p - 1) 1 0 q),
  .ent false [a, b] (p, 1) (rect 1 0 p 0 1),
  .inner (rect 1 0 p 1 (q - 1)),
  .ent false [a, c] (p, 1) (rect 1 0 p q 1)]

/-- Outer 1-forms (`GM_m2n2k1.py:54-87`, the numberings joined at `196`, `269`, `370`);
`___gm_outer_quad_9___` (`201-271`) is `quad1o` with corners 2 and 3 exchanged. -/
def elem1o (p q label : ℕ) (inside : Bool) : Shape2 → Elem
  | .quad m0 m1 m2 m3 =>
    ⟨label, inside, quad1o m0 m1 m2 m3 p q, rect 0 0 (p + 1) 0 q ++ rect 1 0 p 0 (q + 1)⟩
  | .quad9 m0 m1 m2 m3 =>
    ⟨label, inside, quad1o m0 m1 m3 m2 p q, rect 0 0 (p + 1) 0 q ++ rect 1 0 p 0 (q + 1)⟩
  | .tri m0 m1 m2 => ⟨label, inside, tri1o m0 m1 m2 p q, rect 0 0 p 0 q ++ rect 1 0 p 0 (q + 1)⟩

/-- `___gm_inner_msepy_quadrilateral___` (`GM_m2n2k1.py:487-557`). -/
def quad1i (a b c d p q : ℕ) : List Block := [
  .ent false [a, b] (p, 1) (rect 1 0 p 0 1),
  .inner (rect 1 0 p 1 (q - 1)),
  .ent false [c, d] (p, 1) (rect 1 0 p q 1),
  .ent false [a, c] (q, 1) (rect 0 0 1 0 q),
  .inner (rect 0 1 (p - 1) 0 q),
  .ent false [b, d] (q, 1) (rect 0 p 1 0 q)]

/-- `___gm_inner_vtu_5___` (`GM_m2n2k1.py:633-730`). -/
def tri1i (a b c p q : ℕ) : List Block := [
  .ent false [a, b] (p, 1) (rect 1 0 p 0 1),
  .inner (rect 1 0 p 1 (q - 1)),
  .ent false [a, c] (p, 1) (rect 1 0 p q 1),
  .inner (rect 0 0 (p - 1) 0 q),
  .ent false [b, c] (q, 1) (rect 0 (p - 1) 1 0 q)]

/-- Inner 1-forms (`GM_m2n2k1.py:413-446`); `___gm_inner_quad_9___` (`560-630`) is `quad1i` with corners 2
and 3 exchanged. -/
def elem1i (p q label : ℕ) (inside : Bool) : Shape2 → Elem
  | .quad m0 m1 m2 m3 =>
    ⟨label, inside, quad1i m0 m1 m2 m3 p q, rect 1 0 p 0 (q + 1) ++ rect 0 0 (p + 1) 0 q⟩
  | .quad9 m0 m1 m2 m3 =>
    ⟨label, inside, quad1i m0 m1 m3 m2 p q, rect 1 0 p 0 (q + 1) ++ rect 0 0 (p + 1) 0 q⟩
  | .tri m0 m1 m2 => ⟨label, inside, tri1i m0 m1 m2 p q, rect 1 0 p 0 (q + 1) ++ rect 0 0 p 0 q⟩

/-- 2-forms (`GM_m2n2k2.py:67-73`). -/
def elem2 (p q label : ℕ) (inside : Bool) : Elem :=
  ⟨label, inside, [.inner (rect 0 0 p 0 q)], rect 0 0 p 0 q⟩

/-- An element of a 2d mesh: its label, whether it belongs to the partial mesh, its shape and nodes. -/
structure Item where
  label : ℕ
  inside : Bool
  shape : Shape2

/-- All elements, or none when one is refused. -/
def elems0 (p q : ℕ) : List Item → Option (List Elem)
  | [] => some []
  | x :: xs => (elem0 p q x.label x.inside x.shape).bind fun e => (elems0 p q xs).map fun es => e :: es

/-- `gathering_matrix_Lambda__m2n2k0` (`GM_m2n2k0.py:13-80`): the numbering of all elements and the number
of dofs. Splitting it over the ranks (`64-72`) and the cache are not modelled. -/
def number0 (p q : ℕ) (mesh : List Item) : Option (Dict ℕ (Option (List ℕ)) × ℕ) :=
  (elems0 p q mesh).bind (number true)

/-- `gathering_matrix_Lambda__m2n2k1_outer` (`GM_m2n2k1.py:22-125`). -/
def number1o (p q : ℕ) (mesh : List Item) : Option (Dict ℕ (Option (List ℕ)) × ℕ) :=
  number true (mesh.map fun x => elem1o p q x.label x.inside x.shape)

/-- `gathering_matrix_Lambda__m2n2k1_inner` (`GM_m2n2k1.py:381-484`). -/
def number1i (p q : ℕ) (mesh : List Item) : Option (Dict ℕ (Option (List ℕ)) × ℕ) :=
  number true (mesh.map fun x => elem1i p q x.label x.inside x.shape)

/-- `gathering_matrix_Lambda__m2n2k2` (`GM_m2n2k2.py:13-60`). -/
def number2 (p q : ℕ) (mesh : List Item) : Option (Dict ℕ (Option (List ℕ)) × ℕ) :=
  number true (mesh.map fun x => elem2 p q x.label x.inside)

end Phyem.PoolGM
