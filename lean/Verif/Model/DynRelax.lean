import Verif.Model.BC
import Verif.Model.Flt
import Mathlib.Data.Rat.Defs

/-!
# Dynamic relaxation

`solver.py:858-1049`. All numbers are `Flt K` (exact, plus NaN and infinities). `root` is the square
root on finite non-negative numbers. `fes`, `bcs` describe the problem, `res` is the flattened
`compute_residual`, `kmat` the summed tangent triplets at a vector. Printing and timing are left out;
`h = 1`.
-/

namespace JaxFem

universe u
variable {K : Type u} [Field K] [LinearOrder K] {N : Nat}

/-- `calC(t, cmin, cmax)` (`solver.py:891-899`). -/
def calC (root : K → K) (t cmin cmax : Flt K) : Flt K :=
  let t := if t.lt 0 then 0 else t
  let c := .fin 2 * t.sqrt root
  let c := if c.lt cmin then cmin else c
  if c.gt cmax then cmax else c

/-- `assembleVec` (`solver.py:969-974`). -/
def drResidual (fes : List FE) (bcs : List (List (BCEntry (Flt K))))
    (res : (Fin N → Flt K) → Fin N → Flt K) (dofs : Fin N → Flt K) : Fin N → Flt K :=
  assignZerosBcV fes bcs (res dofs)

/-- `M` from `assembleCSR` (`solver.py:875-888`, `979-980`, `1018-1019`; the shape problem of
`assembleCSR` for several variables is treated separately, see `csrShape`): scaled absolute row sums
of the matrix with eliminated rows. -/
def drMass (fes : List FE) (bcs : List (List (BCEntry (Flt K))))
    (kmat : (Fin N → Flt K) → Matrix (Fin N) (Fin N) (Flt K)) (dofs : Fin N → Flt K) :
    Fin N → Flt K :=
  let A := elimRows fes bcs (kmat dofs)
  fun k => .fin (11 / 10) * .fin (11 / 10) / .fin 4 * Flt.sum fun j => (A k j).abs

/-- Loop variables. `q_old`, `R_old` are overwritten at the start of every iteration. -/
structure DRState (K : Type u) (N : Nat) where
  q : Fin N → Flt K
  qdot : Fin N → Flt K
  qdotdot : Fin N → Flt K
  qdotdotOld : Fin N → Flt K
  R : Fin N → Flt K
  M : Fin N → Flt K
  nIters : Nat
  iKMat : Nat

/-- `error = onp.max(onp.absolute(R))`. -/
def DRState.error (s : DRState K N) : Flt K := Flt.maxAbs s.R

/-- The damping estimate `t` of one iteration (`solver.py:1005-1006`). -/
def drT (R Rold qdot M : Fin N → Flt K) : Flt K :=
  Flt.sum (fun i => (R i - Rold i) / 1 * qdot i) / Flt.sum fun i => qdot i * M i * qdot i

/-- `(2.- c*h)/(2 + c*h) * qdot_old - 2.*h/(2.+c*h)* R / M` (`solver.py:1027`). -/
def drVelocity (c : Flt K) (qdotOld R M : Fin N → Flt K) : Fin N → Flt K := fun i =>
  (.fin 2 - c * 1) / (.fin 2 + c * 1) * qdotOld i - .fin 2 * 1 / (.fin 2 + c * 1) * R i / M i

/-- The loop body (`solver.py:994-1033`). -/
def drBody (root : K → K) (fes : List FE) (bcs : List (List (BCEntry (Flt K))))
    (res : (Fin N → Flt K) → Fin N → Flt K)
    (kmat : (Fin N → Flt K) → Matrix (Fin N) (Fin N) (Flt K)) (nKMat : Nat) (s : DRState K N) :
    DRState K N :=
  let q : Fin N → Flt K := fun i => s.q i + 1 * s.qdot i
  let R := drResidual fes bcs res q
  let iKMat := s.iKMat + 1
  let c := calC root (drT R s.R s.qdot s.M) (.fin (1 / 1000)) (.fin (39 / 10))
  let eps : Fin N → Flt K := fun i => .fin (11 / 10) * .fin (11 / 10) / .fin 4 *
    (if q i - s.q i = 0 then 0 else (s.qdotdot i - s.qdotdotOld i) / (q i - s.q i)).abs
  let refresh := (Flt.maxAbs eps).gt 1 && decide (iKMat > nKMat)
  let M := if refresh then drMass fes bcs kmat q else s.M
  let qdot := drVelocity c s.qdot R M
  { q := q, qdot := qdot, qdotdot := fun i => (qdot i - s.qdot i) / 1, qdotdotOld := s.qdotdot,
    R := R, M := M, nIters := s.nIters + 1, iKMat := if refresh then 0 else iKMat }

/-- The state before the loop (`solver.py:960-984`), `dofs` the start vector. -/
def drInit (fes : List FE) (bcs : List (List (BCEntry (Flt K))))
    (res : (Fin N → Flt K) → Fin N → Flt K)
    (kmat : (Fin N → Flt K) → Matrix (Fin N) (Fin N) (Flt K)) (dofs : Fin N → Flt K) : DRState K N :=
  let R := drResidual fes bcs res dofs
  let M := drMass fes bcs kmat dofs
  { q := dofs, qdot := fun i => .fin (-1) / .fin 2 * R i / M i, qdotdot := 0, qdotdotOld := 0,
    R := R, M := M, nIters := 0, iKMat := 0 }

/-- The `while error > tol` loop; `fuel` bounds the number of guard evaluations. -/
def drLoop (body : DRState K N → DRState K N) (tol : Flt K) : Nat → DRState K N → Option (DRState K N)
  | 0, _ => none
  | fuel + 1, s => if s.error.gt tol then drLoop body tol fuel (body s) else some s

/-- The start vector (`solver.py:945-953`): a Newton step from zero (`newton`), replaced by the
initial guess with prescribed values if one is given. -/
def drStart (fes : List FE) (bcs : List (List (BCEntry (Flt K))))
    (newton : Except Err (Fin N → Flt K)) (guess : Option (Fin N → Flt K)) :
    Except Err (Fin N → Flt K) := do
  let dofs ← newton
  match guess with
  | none => return dofs
  | some g => return assignBcV fes bcs g

/-- `dynamic_relax_solve` (`solver.py:918-1049`): start vector, asserts, loop; the returned vector
(flattened `sol_list`) is the last `dofs`, whether or not the residual is NaN (`solver.py:1035-1049`
only prints). -/
def dynamicRelax (root : K → K) (fes : List FE) (bcs : List (List (BCEntry (Flt K))))
    (res : (Fin N → Flt K) → Fin N → Flt K)
    (kmat : (Fin N → Flt K) → Matrix (Fin N) (Fin N) (Flt K))
    (newton : Except Err (Fin N → Flt K)) (guess : Option (Fin N → Flt K)) (tol : Flt K)
    (nKMat fuel : Nat) : Option (Except Err (Fin N → Flt K)) :=
  match drStart fes bcs newton guess with
  | .error e => some (.error e)
  | .ok dofs =>
    let s := drInit fes bcs res kmat dofs
    if (List.ofFn s.M).all Flt.isFinite && (List.ofFn s.q).all Flt.isFinite &&
        (List.ofFn s.qdot).all Flt.isFinite then
      (drLoop (drBody root fes bcs res kmat nKMat) tol fuel s).map fun t => .ok t.q
    else some (.error .assertion)

/-- The shape handling of `assembleCSR` (`solver.py:877-879`): `csr_array((V, (I, J)), shape)` raises
`ValueError` if an index does not fit the shape taken from the first variable. -/
def csrShape (fes : List FE) (I J : List Nat) : Except Err (Nat × Nat) :=
  let n := match fes with
    | [] => 0
    | fe :: _ => fe.numTotalDofs
  if I.all (fun i => decide (i < n)) && J.all (fun i => decide (i < n)) then .ok (n, n)
  else .error .value

end JaxFem
