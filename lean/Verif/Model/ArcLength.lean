import Verif.Model.BC
import Mathlib.Analysis.SpecialFunctions.Pow.Real
import Mathlib.Algebra.QuadraticDiscriminant
import Mathlib.Data.Matrix.Mul

/-!
# Arc-length continuation (Crisfeld)

`solver.py:559-852`. Real arithmetic; `np.sqrt` of a negative number and division by zero give a
non-finite value, on which `assert np.isfinite(...)` fails. The lines 586-630 (displacement control)
and 672-716 (force control) are the same up to the name of the load vector `u_b` / `q_aux_mapped`;
they are modelled once (`arcCorrect`).
-/

namespace JaxFem

/-- Loop variables of the corrector: `u_vec`, `lamda`, `Delta_u_vec_dir`, `Delta_lamda_dir`. -/
structure ArcState (N : Nat) where
  u : Fin N → ℝ
  lam : ℝ
  dirU : Fin N → ℝ
  dirLam : ℝ

noncomputable section

open Classical in
/-- One corrector update given the two linear solutions `delta_u_bar`, `delta_u_t`
(`solver.py:586-630`, `672-716`); `w` is `u_b` resp. `q_aux_mapped`. -/
def arcCorrect {N : Nat} (psi deltaL : ℝ) (w prevU : Fin N → ℝ) (prevLam : ℝ) (ubar ut : Fin N → ℝ)
    (s : ArcState N) : Except Err (ArcState N) :=
  let dU := s.u - prevU
  let dLam := s.lam - prevLam
  let a1 := ∑ i, ut i ^ 2 + psi ^ 2 * ∑ i, w i ^ 2
  let a2 := 2 * ∑ i, (dU i + ubar i) * ut i + 2 * psi ^ 2 * dLam * ∑ i, w i ^ 2
  let a3 := ∑ i, (dU i + ubar i) ^ 2 + psi ^ 2 * dLam ^ 2 * ∑ i, w i ^ 2 - deltaL ^ 2
  if a2 ^ 2 - 4 * a1 * a3 < 0 ∨ 2 * a1 = 0 then .error .assertion
  else
    let delta1 := (-a2 + √(a2 ^ 2 - 4 * a1 * a3)) / (2 * a1)
    let delta2 := (-a2 - √(a2 ^ 2 - 4 * a1 * a3)) / (2 * a1)
    let dot := fun (v1 : Fin N → ℝ) (l1 : ℝ) (v2 : Fin N → ℝ) (l2 : ℝ) =>
      ∑ i, v1 i * v2 i + psi ^ 2 * l1 * l2 * ∑ i, w i ^ 2
    let dot1 := dot s.dirU s.dirLam (s.u + (ubar + delta1 • ut) - prevU) (s.lam + delta1 - prevLam)
    let dot2 := dot s.dirU s.dirLam (s.u + (ubar + delta2 • ut) - prevU) (s.lam + delta2 - prevLam)
    let delta := if |dot1| < 1 / 10 ^ 10 ∧ |dot2| < 1 / 10 ^ 10 then max delta1 delta2
      else if dot1 > dot2 then delta1 else delta2
    let lam := s.lam + delta
    let u := s.u + (ubar + delta • ut)
    .ok { u := u, lam := lam, dirU := u - prevU, dirLam := lam - prevLam }

/-- The body of the `while` loop in displacement control (`solver.py:580-630`): new state and
`res_val`. `res`, `tan` are residual and summed triplets (as in `Model/Newton`), `spsolve A b` is
`scipy_spsolve`. The line numbers of `u_b` are 575. -/
def arcDispIter {N : Nat} (fes : List FE) (bcs : List (List (BCEntry ℝ)))
    (res : (Fin N → ℝ) → Fin N → ℝ) (tan : (Fin N → ℝ) → Matrix (Fin N) (Fin N) ℝ)
    (spsolve : Matrix (Fin N) (Fin N) ℝ → (Fin N → ℝ) → Fin N → ℝ) (norm : (Fin N → ℝ) → ℝ)
    (psi deltaL : ℝ) (prevU : Fin N → ℝ) (prevLam : ℝ) (s : ArcState N) :
    Except Err (ArcState N × ℝ) :=
  let ub := assignBcV fes bcs 0
  let resVec := applyBcV fes bcs s.lam (res s.u) s.u
  let A := elimRows fes bcs (tan s.u)
  (arcCorrect psi deltaL ub prevU prevLam (spsolve A (-resVec)) (spsolve A ub) s).map
    fun t => (t, norm resVec)

/-- The body of the `while` loop in force control (`solver.py:664-716`). -/
def arcForceIter {N : Nat} (fes : List FE) (bcs : List (List (BCEntry ℝ)))
    (res : (Fin N → ℝ) → Fin N → ℝ) (tan : (Fin N → ℝ) → Matrix (Fin N) (Fin N) ℝ)
    (spsolve : Matrix (Fin N) (Fin N) ℝ → (Fin N → ℝ) → Fin N → ℝ) (norm : (Fin N → ℝ) → ℝ)
    (qAux : Fin N → ℝ) (psi deltaL : ℝ) (prevU : Fin N → ℝ) (prevLam : ℝ) (s : ArcState N) :
    Except Err (ArcState N × ℝ) :=
  let q := assignZerosBcV fes bcs qAux
  let resVec := applyBcV fes bcs 1 (res s.u) s.u
  let A := elimRows fes bcs (tan s.u)
  let loadTerm := (1 - s.lam) • q
  (arcCorrect psi deltaL q prevU prevLam (spsolve A (-(resVec + loadTerm))) (spsolve A q) s).map
    fun t => (t, norm (resVec + loadTerm))

/-- `while res_val > tol` around a loop body (`solver.py:578-580`, `662-664`); `res_val = 1` at the
start, `fuel` bounds the number of guard evaluations. -/
def arcLoop {N : Nat} (iter : ArcState N → Except Err (ArcState N × ℝ)) (tol : ℝ) :
    Nat → ArcState N → ℝ → Option (Except Err (ArcState N))
  | 0, _, _ => none
  | fuel + 1, s, resVal =>
    if resVal > tol then
      match iter s with
      | .error e => some (.error e)
      | .ok (t, r) => arcLoop iter tol fuel t r
    else some (.ok s)

/-- `arc_length_solver_disp_driven(...)` (`solver.py:559-634`) for a given number of guard
evaluations. -/
def arcDispSolve {N : Nat} (fes : List FE) (bcs : List (List (BCEntry ℝ)))
    (res : (Fin N → ℝ) → Fin N → ℝ) (tan : (Fin N → ℝ) → Matrix (Fin N) (Fin N) ℝ)
    (spsolve : Matrix (Fin N) (Fin N) ℝ → (Fin N → ℝ) → Fin N → ℝ) (norm : (Fin N → ℝ) → ℝ)
    (psi deltaL : ℝ) (fuel : Nat) (prev : ArcState N) : Option (Except Err (ArcState N)) :=
  arcLoop (arcDispIter fes bcs res tan spsolve norm psi deltaL prev.u prev.lam) (1 / 10 ^ 6) fuel
    prev 1

/-- `arc_length_solver_force_driven(...)` (`solver.py:645-721`). -/
def arcForceSolve {N : Nat} (fes : List FE) (bcs : List (List (BCEntry ℝ)))
    (res : (Fin N → ℝ) → Fin N → ℝ) (tan : (Fin N → ℝ) → Matrix (Fin N) (Fin N) ℝ)
    (spsolve : Matrix (Fin N) (Fin N) ℝ → (Fin N → ℝ) → Fin N → ℝ) (norm : (Fin N → ℝ) → ℝ)
    (qAux : Fin N → ℝ) (psi deltaL : ℝ) (fuel : Nat) (prev : ArcState N) :
    Option (Except Err (ArcState N)) :=
  arcLoop (arcForceIter fes bcs res tan spsolve norm qAux psi deltaL prev.u prev.lam) (1 / 10 ^ 6)
    fuel prev 1

end

/-! ### Continuation -/

universe u

section
variable {S U K : Type u}

/-- One entry of `history` (`solver.py:776-781`). -/
structure ArcRecord (U K : Type u) where
  step : Nat
  lam : K
  u : U
  deriving DecidableEq

/-- The `for step in range(max_steps)` loop (`solver.py:773-785`, `815-829`), from `step` with
`remaining` iterations left. `correct step s` is the corrector with the step length of that step,
`get` extracts `(u_vec, lam)`. Besides the state and the history the loop returns the list of the
arguments of the callback calls (a ghost variable). -/
def contLoop [One K] [LE K] [DecidableLE K] (correct : Nat → S → Except Err S) (get : S → U × K)
    (callback : Option (Nat → U → K → Except Err Unit)) :
    (remaining step : Nat) → S → List (ArcRecord U K) → List (ArcRecord U K) →
      Except Err (S × List (ArcRecord U K) × List (ArcRecord U K))
  | 0, _, s, h, calls => .ok (s, h, calls)
  | n + 1, step, s, h, calls =>
    match correct step s with
    | .error e => .error e
    | .ok t =>
      let record : ArcRecord U K := { step := step, lam := (get t).2, u := (get t).1 }
      let h := h ++ [record]
      match callback with
      | none =>
        if 1 ≤ (get t).2 then .ok (t, h, calls)
        else contLoop correct get callback n (step + 1) t h calls
      | some f =>
        match f step record.u (get t).2 with
        | .error e => .error e
        | .ok _ =>
          let calls := calls ++ [{ step := step, lam := (get t).2, u := record.u }]
          if 1 ≤ (get t).2 then .ok (t, h, calls)
          else contLoop correct get callback n (step + 1) t h calls

/-- The result of `_finish_arc_length` (`solver.py:736-756`): solution and `info`. -/
structure ArcResult (U K : Type u) where
  sol : U
  lam : K
  polished : Bool
  history : List (ArcRecord U K)
  control : String
  /-- Ghost: the arguments of the callback calls. -/
  calls : List (ArcRecord U K)
  deriving DecidableEq

/-- `_finish_arc_length` (`solver.py:736-756`); `polish u` is `_arc_length_newton_polish`, i.e. the
Newton solver started from `u`. -/
def finishArc [One K] [LE K] [DecidableLE K] (polish : U → Except Err U) (get : S → U × K) (s : S)
    (h calls : List (ArcRecord U K)) (control : String) : Except Err (ArcResult U K) :=
  if 1 ≤ (get s).2 then do
    let sol ← polish (get s).1
    return ⟨sol, (get s).2, true, h, control, calls⟩
  else .ok ⟨(get s).1, (get s).2, false, h, control, calls⟩

/-- The entries of the `arc_length` configuration that steer the continuation. -/
structure ArcCfg (U K : Type u) where
  control : Option String := none
  psi : Option K := none
  deltaL : Option K := none
  deltaLLate : Option K := none
  switchStep : Option Nat := none
  maxSteps : Option Nat := none
  qVecAux : Option U := none
  callback : Option (Nat → U → K → Except Err Unit) := none

/-- `_solve_arc_length` (`solver.py:759-852`). `dispCorrect psi deltaL`, `forceCorrect q psi deltaL` are
the two correctors; `tenth = 0.1`, `half = 0.5`. -/
def solveArcLength [One K] [LE K] [DecidableLE K] (tenth half : K)
    (dispCorrect : K → K → S → Except Err S) (forceCorrect : U → K → K → S → Except Err S)
    (polish : U → Except Err U) (get : S → U × K) (s0 : S) (cfg : ArcCfg U K) :
    Except Err (ArcResult U K) :=
  match cfg.control with
  | none => .error .value
  | some control =>
    if control = "displacement" then do
      let (s, h, calls) ← contLoop (fun _ => dispCorrect (cfg.psi.getD 1) (cfg.deltaL.getD tenth)) get
        cfg.callback (cfg.maxSteps.getD 600) 0 s0 [] []
      finishArc polish get s h calls "displacement"
    else if control = "force" then
      match cfg.qVecAux with
      | none => .error .value
      | some q => do
        let (s, h, calls) ← contLoop (fun step => forceCorrect q (cfg.psi.getD half)
          (if step < cfg.switchStep.getD 200 then cfg.deltaL.getD tenth else cfg.deltaLLate.getD 1)) get
          cfg.callback (cfg.maxSteps.getD 500) 0 s0 [] []
        finishArc polish get s h calls "force"
    else .error .value

end

end JaxFem
