import Verif.Model.Newton

/-!
# The Newton solver with linear multi-point constraints (`problem.P_mat`)

`solver.py:401-421` (initial guess, step), `540-553` (`get_A`), `1289-1342` (`solver`). `P` is
`problem.P_mat`, `res`, `tan` as in `Model/Newton`.
-/

namespace JaxFem

universe u
variable {K : Type u} [Field K] [LinearOrder K] {N M : Nat}

/-- The residual of `newton_update_helper` with `P_mat` (`solver.py:1298-1311`). -/
def mpcResidual (P : Matrix (Fin N) (Fin M) K) (fes : List FE) (bcs : List (List (BCEntry K)))
    (res : (Fin N → K) → Fin N → K) (dofs : Fin M → K) : Fin M → K :=
  let dofs := P.mulVec dofs
  P.transpose.mulVec (applyBcV fes bcs 1 (res dofs) dofs)

/-- `get_A` with `P_mat` (`solver.py:540-553`): `P_T (A P)`. -/
def mpcMatrix (P : Matrix (Fin N) (Fin M) K) (fes : List FE) (bcs : List (List (BCEntry K)))
    (tan : (Fin N → K) → Matrix (Fin N) (Fin N) K) (dofs : Fin M → K) : Matrix (Fin M) (Fin M) K :=
  let tmp := elimRows fes bcs (tan (P.mulVec dofs)) * P
  P.transpose * tmp

/-- `newton_update_helper` with `P_mat` (`solver.py:1297-1317`). -/
def mpcUpdate (P : Matrix (Fin N) (Fin M) K) (fes : List FE) (bcs : List (List (BCEntry K)))
    (res : (Fin N → K) → Fin N → K) (tan : (Fin N → K) → Matrix (Fin N) (Fin N) K)
    (dofs : Fin M → K) : Except Err ((Fin M → K) × Matrix (Fin M) (Fin M) K) :=
  .ok (mpcResidual P fes bcs res dofs, mpcMatrix P fes bcs tan dofs)

/-- `x0` in `newton_step` with `P_mat` (`solver.py:401-405`). -/
def mpcX0 (P : Matrix (Fin N) (Fin M) K) (fes : List FE) (bcs : List (List (BCEntry K)))
    (dofs : Fin M → K) : Fin M → K :=
  P.transpose.mulVec (assignBcV fes bcs 0 - copyBcV fes bcs (P.mulVec dofs))

/-- `newton_step` with `P_mat` (`solver.py:390-421`). `line_search` works on full vectors, so that with
fewer columns than rows `unflatten_fn_sol_list` raises. -/
def mpcStep (P : Matrix (Fin N) (Fin M) K) (fes : List FE) (bcs : List (List (BCEntry K)))
    (solve : Matrix (Fin M) (Fin M) K → (Fin M → K) → (Fin M → K) → Except Err (Fin M → K))
    (lineSearchFlag : Bool) (rA : (Fin M → K) × Matrix (Fin M) (Fin M) K) (dofs : Fin M → K) :
    Except Err (Fin M → K) := do
  let inc ← solve rA.2 (-rA.1) (mpcX0 P fes bcs dofs)
  if lineSearchFlag then .error .value else pure (dofs + inc)

/-- The Newton branch of `solver` with `P_mat` (`solver.py:1284-1356`): the result is expanded to the
full vector. -/
def mpcSolve (P : Matrix (Fin N) (Fin M) K) (fes : List FE) (bcs : List (List (BCEntry K)))
    (res : (Fin N → K) → Fin N → K) (tan : (Fin N → K) → Matrix (Fin N) (Fin N) K)
    (solve : Matrix (Fin M) (Fin M) K → (Fin M → K) → (Fin M → K) → Except Err (Fin M → K))
    (norm : (Fin M → K) → Flt K) (tol relTol : K) (lineSearchFlag : Bool) (guess : Option (Fin M → K))
    (fuel : Nat) : Option (Except Err ((Fin N → K) × Nat)) :=
  (newtonSolve (mpcUpdate P fes bcs res tan) (fun rA => norm rA.1)
    (mpcStep P fes bcs solve lineSearchFlag) (fun _ => true) tol relTol (guess.getD 0) fuel).map
    fun r => r.map fun dn => (P.mulVec dn.1, dn.2)

end JaxFem
