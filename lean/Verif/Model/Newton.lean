import Verif.Model.BC
import Verif.Model.Flt
import Mathlib.Data.Matrix.Mul

/-!
# The Newton solver without multi-point constraints

`solver.py:390-463` (`newton_step`, `line_search`) and `solver.py:1284-1356` (Newton branch of
`solver`). Timing and logging are in `Model/Timing.lean`. What the solver takes from the problem is
* `res`: flatten, `compute_residual`, ravel (`get_flatten_fn`, `solver.py:369-376`; the residual list of
  `newton_update` is the same function, C05);
* `tan`: the summed triplets after `newton_update` at that vector (C04).

The linear solver is a parameter `solve A b x0`, which may raise.
-/

namespace JaxFem

universe u
variable {K : Type u}

/-- The loop of `line_search` (`solver.py:449-461`): `n` halvings left, current `alpha` and
`res_norm`. -/
def lineSearchLoop [Field K] [LinearOrder K] (f : K → Flt K) : Nat → K → Flt K → K
  | 0, alpha, _ => alpha
  | n + 1, alpha, resNorm =>
    let alpha := alpha * (1 / 2)
    let resNormHalf := f alpha
    if resNormHalf.gt resNorm then alpha * 2 else lineSearchLoop f n alpha resNormHalf

/-- The factor `alpha` chosen by `line_search` for `res_norm_fn = f` (`solver.py:447-461`). -/
def lineSearchAlpha [Field K] [LinearOrder K] (f : K → Flt K) : K := lineSearchLoop f 3 1 (f 1)

section
variable [Field K] [LinearOrder K] {N : Nat}

/-- `line_search(problem, dofs, inc)` (`solver.py:424-463`); `norm` is `np.linalg.norm`. -/
def lineSearch (fes : List FE) (bcs : List (List (BCEntry K))) (norm : (Fin N → K) → Flt K)
    (res : (Fin N → K) → Fin N → K) (dofs inc : Fin N → K) : Fin N → K :=
  let resNormFn := fun alpha : K =>
    norm (applyBcV fes bcs 1 (res (dofs + alpha • inc)) (dofs + alpha • inc))
  dofs + lineSearchAlpha resNormFn • inc

/-- The initial guess for the linear solver in `newton_step` (`solver.py:401-408`). -/
def newtonX0 (fes : List FE) (bcs : List (List (BCEntry K))) (dofs : Fin N → K) : Fin N → K :=
  assignBcV fes bcs 0 - copyBcV fes bcs dofs

/-- `newton_step` (`solver.py:390-421`). -/
def newtonStep (fes : List FE) (bcs : List (List (BCEntry K))) (norm : (Fin N → K) → Flt K)
    (res : (Fin N → K) → Fin N → K)
    (solve : Matrix (Fin N) (Fin N) K → (Fin N → K) → (Fin N → K) → Except Err (Fin N → K))
    (lineSearchFlag : Bool) (rA : (Fin N → K) × Matrix (Fin N) (Fin N) K) (dofs : Fin N → K) :
    Except Err (Fin N → K) := do
  let inc ← solve rA.2 (-rA.1) (newtonX0 fes bcs dofs)
  if lineSearchFlag then pure (lineSearch fes bcs norm res dofs inc) else pure (dofs + inc)

/-- `newton_update_helper(dofs)` (`solver.py:1297-1317`): residual with boundary conditions and
row-eliminated tangent. -/
def newtonUpdate (fes : List FE) (bcs : List (List (BCEntry K)))
    (res : (Fin N → K) → Fin N → K) (tan : (Fin N → K) → Matrix (Fin N) (Fin N) K)
    (dofs : Fin N → K) : Except Err ((Fin N → K) × Matrix (Fin N) (Fin N) K) :=
  .ok (applyBcV fes bcs 1 (res dofs) dofs, elimRows fes bcs (tan dofs))

end

section
variable {D R : Type u} [Field K] [LinearOrder K]

/-- The `while` loop (`solver.py:1326-1333`); `update` is `newton_update_helper`, `step` is
`newton_step`, `fuel` bounds the number of guard evaluations (`none`: still running). The result has
the number of iterations. -/
def newtonLoop (update : D → Except Err R) (norm : R → Flt K) (step : R → D → Except Err D)
    (tol relTol : K) (resInitial : Flt K) : Nat → D → R → Nat → Option (Except Err (D × R × Nat))
  | 0, _, _, _ => none
  | fuel + 1, dofs, res, n =>
    if ((norm res).div resInitial).gt (.fin relTol) && (norm res).gt (.fin tol) then
      match step res dofs with
      | .error e => some (.error e)
      | .ok dofs' =>
        match update dofs' with
        | .error e => some (.error e)
        | .ok res' => newtonLoop update norm step tol relTol resInitial fuel dofs' res' (n + 1)
    else some (.ok (dofs, res, n))

/-- The Newton branch of `solver` from the initial guess to the final asserts
(`solver.py:1319-1337`). -/
def newtonSolve (update : D → Except Err R) (norm : R → Flt K) (step : R → D → Except Err D)
    (finite : D → Bool) (tol relTol : K) (dofs : D) (fuel : Nat) :
    Option (Except Err (D × Nat)) :=
  match update dofs with
  | .error e => some (.error e)
  | .ok res =>
    match newtonLoop update norm step tol relTol (norm res) fuel dofs res 0 with
    | none => none
    | some (.error e) => some (.error e)
    | some (.ok (d, r, n)) =>
      if (norm r).isFinite then
        if finite d then some (.ok (d, n)) else some (.error .assertion)
      else some (.error .assertion)

end

end JaxFem
