import Verif.Customize.Parallel
import Verif.Chaining.Props2

/-!
Model of block systems: `bmat` and `concatenate` of `msehtt/tools/matrix/static/local.py`,
`msehtt/tools/vector/static/local.py`, and `apply_essential_bc` of
`msehtt/tools/linear_system/static/local/customize.py`.
-/

namespace Phyem.Customize

open Chaining Assembly

/-- Block and index within the block of an index of a row (column) of blocks with sizes `lens`. -/
def decode : List ℕ → ℕ → Option (ℕ × ℕ)
  | [], _ => none
  | a :: ls, R => if R < a then some (0, R) else (decode ls (R - a)).map fun q => (q.1 + 1, q.2)

/-- `scipy.sparse.bmat` of blocks `A`, msehtt/tools/matrix/static/local.py:622-637 (a missing block is zero). -/
def blockMat (lr lc : List ℕ) (A : ℕ → ℕ → Mat) : Mat := fun R C =>
  match decode lr R, decode lc C with
  | some p, some q => A p.1 q.1 p.2 q.2
  | _, _ => 0

/-- `np.concatenate`, msehtt/tools/vector/static/local.py:425-440. -/
def blockVec (lr : List ℕ) (b : ℕ → ℕ → ℚ) : ℕ → ℚ := fun R =>
  match decode lr R with
  | some p => b p.1 p.2
  | none => 0

/-- The local sizes of the blocks in an element. -/
def lens (gms : List DGM) (e : ℕ) : List ℕ := gms.map fun g => (g.at e).length

/-- The local matrix of a rank; a rank without data has zeros. -/
def onRank (A : List (Loc Mat)) (p e : ℕ) : Mat :=
  match A[p]? with
  | some M => M.get e
  | none => fun _ _ => 0

/-- The local vector of a rank. -/
def vonRank (b : List (Loc (ℕ → ℚ))) (p e : ℕ) : ℕ → ℚ :=
  match b[p]? with
  | some v => v.get e
  | none => fun _ => 0

/-- A block system: the blocks are objects; `addr i j` is the address of block `(i, j)` (the same object can be used
in several places: the local matrices of the terms are cached, msehtt/static/implementation_array_parser.py:182-207,
and a term with coefficient one is used as it is, msehtt/tools/linear_system/dynamic/main.py:521-533).  `cust` and
`vcust` are the customisations of `A._mA` and `b._vb` on each rank. -/
structure BSys where
  heap : ℕ → List (Loc Mat)
  addr : ℕ → ℕ → ℕ
  cust : List (Dict ℕ Mat)
  vheap : ℕ → List (Loc (ℕ → ℚ))
  vaddr : ℕ → ℕ
  vcust : List (Dict ℕ (ℕ → ℚ))

/-- `A._mA` on all ranks: `bmat(A)`, msehtt/tools/matrix/static/local.py:568-607. -/
def BSys.mA (gms : List DGM) (s : BSys) : List (Loc Mat) :=
  s.cust.zipIdx.map fun q =>
    ⟨fun e => blockMat (lens gms e) (lens gms e) fun i j => onRank (s.heap (s.addr i j)) q.2 e, q.1⟩

/-- `b._vb` on all ranks: `concatenate(b, gm)`, msehtt/tools/vector/static/local.py:391-422. -/
def BSys.vb (gms : List DGM) (s : BSys) : List (Loc (ℕ → ℚ)) :=
  s.vcust.zipIdx.map fun q => ⟨fun e => blockVec (lens gms e) fun i => vonRank (s.vheap (s.vaddr i)) q.2 e, q.1⟩

/-- `identify_rows`, msehtt/tools/matrix/static/local.py:557-560. -/
def identifyRowsH (g : DGM) : List (Loc Mat) → List ℤ → Option (List (Loc Mat))
  | A, [] => some A
  | A, i :: is => (identifyRowH g A i).bind fun A' => identifyRowsH g A' is

/-- `zero_rows`, msehtt/tools/matrix/static/local.py:562-565. -/
def zeroRowsH (g : DGM) : List (Loc Mat) → List ℤ → Option (List (Loc Mat))
  | A, [] => some A
  | A, i :: is => (zeroRowH g A i).bind fun A' => zeroRowsH g A' is

/-- `set_values`, msehtt/tools/vector/static/local.py:357-367, after the assertion on the lengths. -/
def setValuesH (g : DGM) : List (Loc (ℕ → ℚ)) → List (ℤ × ℚ) → Option (List (Loc (ℕ → ℚ)))
  | b, [] => some b
  | b, c :: cs => (setValueH g b c.1 c.2).bind fun b' => setValuesH g b' cs

/-- The loop over the blocks of row `i` in `apply_essential_bc`,
msehtt/tools/linear_system/static/local/customize.py:75-79. -/
def bcRow (g : DGM) (addr : ℕ → ℕ → ℕ) (i : ℕ) (dofs : List ℤ) :
    (ℕ → List (Loc Mat)) → List ℕ → Option (ℕ → List (Loc Mat))
  | h, [] => some h
  | h, j :: js =>
    (if i = j then identifyRowsH g (h (addr i j)) dofs else zeroRowsH g (h (addr i j)) dofs).bind fun A =>
      bcRow g addr i dofs (fun a => if a = addr i j then A else h a) js

/-- `apply_essential_bc`, msehtt/tools/linear_system/static/local/customize.py:46-81, on all ranks, with the dofs on
the place and the values there (`cs`); `g` is the gathering matrix of unknown `i`. -/
def applyBC (g : DGM) (i num : ℕ) (cs : List (ℤ × ℚ)) (s : BSys) : Option BSys :=
  (bcRow g s.addr i (cs.map Prod.fst) s.heap (List.range num)).bind fun h =>
    (setValuesH g (s.vheap (s.vaddr i)) cs).map fun b =>
      ⟨h, s.addr, s.cust, fun a => if a = s.vaddr i then b else s.vheap a, s.vaddr, s.vcust⟩

/-- `set_dof` on a block system, msehtt/tools/linear_system/static/local/customize.py:17-22: the customisations are
those of `A._mA` and `b._vb`; `c` is the chained gathering matrix. -/
def BSys.setDof (gms : List DGM) (c : DGM) (s : BSys) (i : ℤ) (v : ℚ) : Option BSys :=
  (setDofH c ⟨s.mA gms, s.vb gms⟩ i v).map fun t =>
    ⟨s.heap, s.addr, t.A.map Loc.cust, s.vheap, s.vaddr, t.b.map Loc.cust⟩

end Phyem.Customize
