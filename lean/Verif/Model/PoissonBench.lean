import Verif.Model.PlasticDrivers
import Verif.Model.UserBC
import Verif.Model.Newton

/-!
# The linear Poisson benchmark

`tests/benchmarks/linear_poisson/test_linear_poisson.py:15-55`: class `LinearPoisson`, boundary conditions, `solver(problem)`.

Simplifications: exact real arithmetic; the mesh, which the test reads from a file, is any points and cells; the tangent and the
linear solver are parameters; writing the solution and the comparison with the stored file are left out.
-/

namespace JaxFem.PoissonBench

variable {nq nfq nn : Nat}

/-- The class `LinearPoisson` (`test_linear_poisson.py:15-17`) with `vec=1, dim=3` (54). -/
def linearPoisson (numTotalNodes : Nat) (points : List (Fin 3 → ℝ)) (cells : List (List Nat)) (el : RefElement ℝ nq nn 3)
    (fc : RefFaces ℝ nfq nn 3) : Problem1 Unit nq nfq nn 1 3 where
  numTotalNodes := numTotalNodes
  points := points
  cells := cells.map fun c => ⟨c, fun _ => ()⟩
  el := el
  fc := fc
  tensorMap := fun _ x => x
  massMap := none
  surfaces := []

/-- `left` (`test_linear_poisson.py:37-38`). -/
noncomputable def left : LocFn (Fin 3 → ℝ) := .one fun p => decide (FinitePlasticity.isclose (p 0) 0)

/-- `right` (`test_linear_poisson.py:40-41`), `L = 1.`. -/
noncomputable def right : LocFn (Fin 3 → ℝ) := .one fun p => decide (FinitePlasticity.isclose (p 0) 1)

/-- `dirichlet_bc_info` (`test_linear_poisson.py:43-52`). -/
noncomputable def info : UserBC.Info (Fin 3 → ℝ) ℝ := some ([left, right], [0, 0], [fun _ => 0, fun _ => 1])

/-- Residual vector (`problem.py:462-475`, `solver.py:1300-1305`); the residual of a well-formed problem does not raise (C72). -/
noncomputable def residualVec (P : Problem1 Unit nq nfq nn 1 3) (u : Fin (totalDofs P.fes) → ℝ) : Fin (totalDofs P.fes) → ℝ :=
  fun k =>
    match P.residual (unravelSol (solShapes P.fes) (List.ofFn u)) with
    | .ok R => (ravelSol R).getD k 0
    | .error _ => 0

/-- Tangent and linear solver. -/
structure Numerics (N : Nat) where
  tan : (Fin N → ℝ) → Matrix (Fin N) (Fin N) ℝ
  solve : Matrix (Fin N) (Fin N) ℝ → (Fin N → ℝ) → (Fin N → ℝ) → Except Err (Fin N → ℝ)

/-- `solver(problem)` (`test_linear_poisson.py:55`) with its default options: zero initial guess, no line search, `tol = 1e-6`,
`rel_tol = 1e-8` (`solver.py:1285-1337`). The result is `sol_list[0]` and the number of Newton steps. -/
noncomputable def solver (P : Problem1 Unit nq nfq nn 1 3) (num : Numerics (totalDofs P.fes)) (fuel : Nat) :
    Option (Except Err (List (List ℝ) × Nat)) :=
  match dirichletBC P.points info with
  | .error e => some (.error e)
  | .ok b =>
    let bcs := [UserBC.entries b]
    (newtonSolve (newtonUpdate P.fes bcs (residualVec P) num.tan) (fun rA => .fin (FinitePlasticity.norm2 rA.1))
      (newtonStep P.fes bcs (fun r => .fin (FinitePlasticity.norm2 r)) (residualVec P) num.solve false) (fun _ => true)
      (1 / 10 ^ 6) (1 / 10 ^ 8) 0 fuel).map fun r => r.map fun dn =>
        ((unravelSol (solShapes P.fes) (List.ofFn dn.1)).getD 0 [], dn.2)

end JaxFem.PoissonBench
