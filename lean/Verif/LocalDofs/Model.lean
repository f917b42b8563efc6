import Verif.Numbering.Model

/-!
Model of `msepy/space/find/local_dofs.py`: the local dofs on a face of an element.
-/

namespace Phyem.LocalDofs

open Phyem.Numbering

/-- The index `0` (side 0) or `-1` (side 1) along an axis of length `len`; other sides raise
(`local_dofs.py:82-90` and the same in the other methods). -/
def atSide (len side : ℕ) : Option ℕ :=
  if len = 0 then none
  else if side = 0 then some 0
  else if side = 1 then some (len - 1)
  else none

/-- `x[0, :, :]`, `x[-1, :, :]`, `x[:, 0, :]`, … as a list of the entries. (The order of the entries of
the two-dimensional array is not modelled.) -/
def slice (x : Comp) (axis side : ℕ) : Option (List ℕ) :=
  if axis = 0 then (atSide x.a side).map fun i =>
    (List.range x.b).flatMap fun j => (List.range x.c).map fun k => x.num i j k
  else if axis = 1 then (atSide x.b side).map fun j =>
    (List.range x.a).flatMap fun i => (List.range x.c).map fun k => x.num i j k
  else if axis = 2 then (atSide x.c side).map fun k =>
    (List.range x.a).flatMap fun i => (List.range x.b).map fun j => x.num i j k
  else none

/-- A slice of component `t` of a local numbering. -/
def sliceOf (ln : List Comp) (t axis side : ℕ) : Option (List ℕ) :=
  (ln[t]?).bind fun x => slice x axis side

/-- `_Lambda_m1_n1_k0` (`local_dofs.py:77-93`). -/
def find10 (p axis side : ℕ) : Option (List ℕ) :=
  if axis = 0 then sliceOf (ln10 p) 0 0 side else none

/-- `_Lambda_m2_n2_k1_outer` (`local_dofs.py:95-122`). -/
def find21o (p q axis side : ℕ) : Option (List ℕ) :=
  if axis = 0 then sliceOf (ln21o p q) 0 0 side
  else if axis = 1 then sliceOf (ln21o p q) 1 1 side
  else none

/-- `_Lambda_m2_n2_k1_inner` (`local_dofs.py:124-151`). -/
def find21i (p q axis side : ℕ) : Option (List ℕ) :=
  if axis = 0 then sliceOf (ln21i p q) 1 0 side
  else if axis = 1 then sliceOf (ln21i p q) 0 1 side
  else none

/-- `_Lambda_m2_n2_k0` (`local_dofs.py:153-178`). -/
def find20 (p q axis side : ℕ) : Option (List ℕ) :=
  if axis = 0 then sliceOf (ln20 p q) 0 0 side
  else if axis = 1 then sliceOf (ln20 p q) 0 1 side
  else none

/-- `_Lambda_m3_n3_k0` (`local_dofs.py:180-214`). -/
def find30 (p q r axis side : ℕ) : Option (List ℕ) :=
  if axis = 0 then sliceOf (ln30 p q r) 0 0 side
  else if axis = 1 then sliceOf (ln30 p q r) 0 1 side
  else if axis = 2 then sliceOf (ln30 p q r) 0 2 side
  else none

/-- `_Lambda_m3_n3_k1` (`local_dofs.py:216-250`): as in the code, the slice of component `axis`. -/
def find31 (p q r axis side : ℕ) : Option (List ℕ) :=
  if axis = 0 then sliceOf (ln31 p q r) 0 0 side
  else if axis = 1 then sliceOf (ln31 p q r) 1 1 side
  else if axis = 2 then sliceOf (ln31 p q r) 2 2 side
  else none

/-- `_Lambda_m3_n3_k2` (`local_dofs.py:252-286`). -/
def find32 (p q r axis side : ℕ) : Option (List ℕ) :=
  if axis = 0 then sliceOf (ln32 p q r) 0 0 side
  else if axis = 1 then sliceOf (ln32 p q r) 1 1 side
  else if axis = 2 then sliceOf (ln32 p q r) 2 2 side
  else none

/-- `_Lambda_m2_n1_k1_outer` (`local_dofs.py:288-302`): 1-forms on the boundary of a 2d mesh. -/
def find2b (nWE nNS axis side : ℕ) : Option (List ℕ) :=
  if axis = 0 ∧ side = 0 then some (List.range' 0 nNS)
  else if axis = 0 ∧ side = 1 then some (List.range' nNS nNS)
  else if axis = 1 ∧ side = 0 then some (List.range' (nNS * 2) nWE)
  else if axis = 1 ∧ side = 1 then some (List.range' (nNS * 2 + nWE) nWE)
  else none

end Phyem.LocalDofs
