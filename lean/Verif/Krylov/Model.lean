import Mathlib.Data.Real.Sqrt
import Mathlib.LinearAlgebra.Matrix.NonsingularInverse
import Mathlib.Data.List.Basic
import Verif.Newton.Model

/-!
# The parallel iterative solvers of msehtt

Model of `gmres` and `lgmres` in
`/repo/msehtt/tools/linear_system/static/global_/solvers/mpi_py.py`, run by `p` processes at once.
Process `r` holds the part `A r` of the matrix and the part `f r` of the right hand side; the system is
the sum of the parts.  Numbers are real (no rounding).  `none` is an exception, or a result that is not
a number from then on (a division by zero).

An array that has not been written yet has arbitrary contents; it is part of the initial state.
The messages, the times and the cache of residuals for plots are left out.
-/

namespace Phyem.Krylov

open Matrix

/-- A vector of the length of the system. -/
abbrev Vec (n : ℕ) := Fin n → ℝ

/-- The arrays of a process.  `vs` is `Vm` on the master and `Vs` on the other processes (`mpi_py.py:83-104`; indexed by the number of the
vector, not by its place in `local_ind`), `cur` is what `Vm` is on the other processes (`mpi_py.py:136-139`), `H` is `Hm`. -/
structure Rank (n : ℕ) where
  vs : ℕ → Vec n
  cur : Vec n
  H : ℕ → ℕ → ℝ

/-- `local_ind` (`mpi_py.py:64-69`). -/
def localInd (p restart r : ℕ) : List ℕ := (List.range restart).filter fun i => i % p == r

/-- `np.sum(v ** 2) ** 0.5` -/
noncomputable def norm2 {n : ℕ} (v : Vec n) : ℝ := Real.sqrt (∑ i, v i ^ 2)

section inner

variable {p n : ℕ} [NeZero p]

/-- `mpi_py.py:144-202` for one `j`, given `Avj` on each process (`lgmres`: `mpi_py.py:384-434`).  For `restart = 1` the master deletes a name that
is not bound. -/
noncomputable def arnoldiStep (restart j : ℕ) (Av : Fin p → Vec n) (R : Fin p → Rank n) : Option (Fin p → Rank n) :=
  let R1 : Fin p → Rank n := fun r =>
    if r = 0 then R r
    else if j ∈ localInd p restart r then { R r with vs := Function.update (R r).vs j (R r).cur }
    else R r
  let AVJ := ∑ r, Av r
  let loc := fun r : Fin p => (localInd p restart r).takeWhile fun i => decide (i ≤ j)
  let Hij := fun (r : Fin p) (i : ℕ) => ∑ x, AVJ x * (R1 r).vs i x
  let hat := AVJ - ∑ r, ((loc r).map fun i => Hij r i • (R1 r).vs i).sum
  let h := norm2 hat
  let H := fun (r : Fin p) (a b : ℕ) =>
    if r = 0 ∧ a = j + 1 ∧ b = j then h
    else if b = j ∧ a ∈ loc r then Hij r a
    else (R r).H a b
  if j + 1 < restart then
    if h = 0 then none
    else some fun r =>
      if r = 0 then ⟨Function.update (R1 r).vs (j + 1) (h⁻¹ • hat), (R1 r).cur, H r⟩
      else ⟨(R1 r).vs, h⁻¹ • hat, H r⟩
  else if j = 0 then none
  else some fun r => ⟨(R1 r).vs, (R1 r).cur, H r⟩

/-- The first `j` turns of `for j in range(restart)`; `Av` gives the `Avj` and changes the state `S` of the caller. -/
noncomputable def arnoldi {S : Type} (restart : ℕ) (Av : ℕ → S → (Fin p → Rank n) → Option ((Fin p → Vec n) × S)) (s : S)
    (R : Fin p → Rank n) : ℕ → Option (S × (Fin p → Rank n))
  | 0 => some (s, R)
  | j + 1 =>
    (arnoldi restart Av s R j).bind fun c =>
      (Av j c.1 c.2).bind fun a => (arnoldiStep restart j a.1 c.2).map fun R' => (a.2, R')

/-- The vector that a process multiplies with its part of the matrix (`mpi_py.py:144-149`). -/
def own (j : ℕ) (R : Fin p → Rank n) (r : Fin p) : Vec n := if r = 0 then (R r).vs j else (R r).cur

/-- `mpi_py.py:133-139`: the arrays at the start of the inner loop. -/
def start (restart : ℕ) (v0 : Vec n) (R : Fin p → Rank n) : Fin p → Rank n := fun r =>
  if r = 0 then { R r with vs := Function.update (R r).vs 0 v0 }
  else if 0 ∈ localInd p restart r then ⟨Function.update (R r).vs 0 v0, v0, (R r).H⟩
  else { R r with cur := v0 }

/-- `mpi_py.py:204-210`: `HM` is the sum of the `Hm` of all processes.  `np.linalg.solve` raises an error if the matrix is singular. -/
noncomputable def leastSquares (restart : ℕ) (R : Fin p → Rank n) (beta : ℝ) : Option (Fin restart → ℝ) :=
  let HM : Matrix (Fin (restart + 1)) (Fin restart) ℝ := of fun a b => ∑ r, (R r).H a b
  let lsA := HMᵀ * HM
  if lsA.det = 0 then none else some (lsA⁻¹ *ᵥ fun b => HM 0 b * beta)

/-- The residual of the system, `VV` (`mpi_py.py:107-108`). -/
def residual (A : Fin p → Matrix (Fin n) (Fin n) ℝ) (f : Fin p → Vec n) (x : Vec n) : Vec n :=
  ∑ r, (f r - A r *ᵥ x)

end inner

/-! ### The stop criterion -/

/-- `_check_stop_criterion_` of `msepy/tools/nonlinear_system/static/solve/Newton_Raphson.py:326-413` with `BETA = [..., prev, beta]` for real
numbers: `JUDGE` and, when the iterations stop, `info`. -/
noncomputable def judge (prev beta atol : ℝ) (iter : ℕ) : Newton.MaxIter → Option (ℕ × Option ℤ)
  | .invalid => none
  | .forced N => if N ≤ iter then some (2, some iter) else some (0, none)
  | .int N =>
    if beta < atol then some (1, some 0)
    else if N ≤ iter then some (2, some iter)
    else if prev < beta ∧ 100 * prev < beta then some (3, some (-1))
    else if beta < prev ∧ (prev - beta) / prev < 1e-6 then some (4, some iter)
    else some (0, none)

/-- `BETA` before the new residual is appended (`mpi_py.py:117-124`), the newest first. -/
def history (beta : ℝ) (B : List ℝ) : List ℝ :=
  let B := if B = [] then [beta] else B
  if 20 < B.length then B.take 2 ++ B.getLast?.toList else B

/-- What a solver returns: `x`, `ITER`, `JUDGE`, `info` and the `beta` of the message. -/
structure Res (n : ℕ) where
  x : Vec n
  iter : ℕ
  judge : ℕ
  info : ℤ
  beta : ℝ

section outer

variable {p n : ℕ} [NeZero p]

/-! ### GMRES -/

/-- The variables of `gmres` between two turns of `while 1`. -/
structure G (p n : ℕ) where
  iter : ℕ
  B : List ℝ
  x : Vec n
  R : Fin p → Rank n

/-- One turn of `while 1` (`mpi_py.py:105-224`).  A negative `info` raises an error.  With `restart = 0` the master writes into an empty array. -/
noncomputable def gmresPass (A : Fin p → Matrix (Fin n) (Fin n) ℝ) (f : Fin p → Vec n) (atol : ℝ) (restart : ℕ)
    (maxiter : Newton.MaxIter) (s : G p n) : Option (G p n ⊕ Res n) :=
  let VV := residual A f s.x
  let beta := norm2 VV
  let B := history beta s.B
  match judge (B.headD 0) beta atol s.iter maxiter with
  | none => none
  | some (J, some info) => if info < 0 then none else some (.inr ⟨s.x, s.iter, J, info, beta⟩)
  | some (_, none) =>
    if restart = 0 ∨ beta = 0 then none
    else
      (arnoldi (S := Unit) restart (fun j _ R => some (fun r => A r *ᵥ own j R r, ())) () (start restart (beta⁻¹ • VV) s.R)
          restart).bind fun c =>
        (leastSquares restart c.2 beta).map fun ym =>
          .inl ⟨s.iter + 1, beta :: B, s.x + ∑ j : Fin restart, ym j • (c.2 0).vs j, c.2⟩

/-- `gmres(A, b, x0, atol, restart, maxiter)` after `k` turns; `junk` is what is in the arrays that are not initialised.  `Hm` is zero at the
start (`mpi_py.py:80`). -/
noncomputable def gmres (A : Fin p → Matrix (Fin n) (Fin n) ℝ) (f : Fin p → Vec n) (x0 : Vec n) (atol : ℝ) (restart : ℕ)
    (maxiter : Newton.MaxIter) (junk : Fin p → (ℕ → Vec n) × Vec n) : ℕ → Option (G p n ⊕ Res n)
  | 0 => some (.inl ⟨0, [], x0, fun r => ⟨(junk r).1, (junk r).2, fun _ _ => 0⟩⟩)
  | k + 1 =>
    (gmres A f x0 atol restart maxiter junk k).bind fun
      | .inr res => some (.inr res)
      | .inl s => gmresPass A f atol restart maxiter s

/-! ### LGMRES -/

/-- The variables of `lgmres` between two turns of `while 1`: `Z` is `ZZZ` (the same on all processes), `AZ` is `AZ_cache`. -/
structure L (p n : ℕ) where
  iter : ℕ
  B : List ℝ
  x : Vec n
  R : Fin p → Rank n
  Z : ℕ → Option (Vec n)
  AZ : ℕ → Option (Fin p → Vec n)

/-- `Avj` in `lgmres` (`mpi_py.py:363-389`); reading or deleting a missing key raises an error.  `ITER + m - 1 - j` is not negative where it is used. -/
noncomputable def lgmresAv (A : Fin p → Matrix (Fin n) (Fin n) ℝ) (outer m iter : ℕ) (Z : ℕ → Option (Vec n)) (j : ℕ)
    (AZ : ℕ → Option (Fin p → Vec n)) (R : Fin p → Rank n) :
    Option ((Fin p → Vec n) × (ℕ → Option (Fin p → Vec n))) :=
  if j < m then some (fun r => A r *ᵥ own j R r, AZ)
  else
    let index := iter + m - 1 - j
    match AZ index with
    | some a => some (a, AZ)
    | none =>
      if outer < iter ∧ AZ (iter - outer - 1) = none then none
      else
        let AZ1 := if outer < iter then Function.update AZ (iter - outer - 1) none else AZ
        (Z index).map fun z =>
          (fun r => A r *ᵥ z, Function.update AZ1 index (some fun r => A r *ᵥ z))

/-- One turn of `while 1` (`mpi_py.py:314-479`), `inner` and `outer` being `inner_m` and `outer_k`. -/
noncomputable def lgmresPass (A : Fin p → Matrix (Fin n) (Fin n) ℝ) (f : Fin p → Vec n) (atol : ℝ) (inner outer : ℕ)
    (maxiter : Newton.MaxIter) (s : L p n) : Option (L p n ⊕ Res n) :=
  let restart := inner + outer
  let k := if s.iter < outer then s.iter else outer
  let m := if s.iter < outer then restart - s.iter else inner
  let VV := residual A f s.x
  let beta := norm2 VV
  let B := history beta s.B
  match judge (B.headD 0) beta atol s.iter maxiter with
  | none => none
  | some (J, some info) => if info < 0 then none else some (.inr ⟨s.x, s.iter, J, info, beta⟩)
  | some (_, none) =>
    if restart = 0 ∨ beta = 0 then none
    else
      (arnoldi restart (fun j AZ R => lgmresAv A outer m s.iter s.Z j AZ R) s.AZ (start restart (beta⁻¹ • VV) s.R)
          restart).bind fun c =>
        (leastSquares restart c.2 beta).bind fun ym =>
          ((List.range k).mapM fun i => s.Z (s.iter - i - 1)).bind fun DL =>
            let Ws := fun j : ℕ => if j < m then (c.2 0).vs j else DL.getD (j - m) 0
            let y := ∑ j : Fin restart, ym j • Ws j
            if outer ≤ s.iter ∧ 0 < outer ∧ s.Z (s.iter - outer) = none then none
            else
              let Z1 := if outer ≤ s.iter ∧ 0 < outer then Function.update s.Z (s.iter - outer) none else s.Z
              some (.inl ⟨s.iter + 1, beta :: B, s.x + y, c.2, Function.update Z1 s.iter (some y), c.1⟩)

/-- `lgmres(A, b, x0, atol, inner_m, outer_k, maxiter)` after `k` turns. -/
noncomputable def lgmres (A : Fin p → Matrix (Fin n) (Fin n) ℝ) (f : Fin p → Vec n) (x0 : Vec n) (atol : ℝ) (inner outer : ℕ)
    (maxiter : Newton.MaxIter) (junk : Fin p → (ℕ → Vec n) × Vec n) : ℕ → Option (L p n ⊕ Res n)
  | 0 => some (.inl ⟨0, [], x0, fun r => ⟨(junk r).1, (junk r).2, fun _ _ => 0⟩, fun _ => none, fun _ => none⟩)
  | k + 1 =>
    (lgmres A f x0 atol inner outer maxiter junk k).bind fun
      | .inr res => some (.inr res)
      | .inl s => lgmresPass A f atol inner outer maxiter s

end outer

end Phyem.Krylov
