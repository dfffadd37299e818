import Verif.Model.Hyper
import Verif.Model.ElasticBench

/-!
# The hyperelasticity benchmark

`tests/benchmarks/hyperelasticity/test_hyper_elasticity.py:15-34`, `73-107`: a neo-Hookean cylinder of height 10 is clamped at the
bottom and pulled by 1 at the top. `surface_integral` and `compute_traction` are in `Model/Benchmarks`.

Simplifications: exact real arithmetic; mesh and element tables are parameters (the test reads a file); tangent and linear solver are
parameters; output and comparison with the file are left out.
-/

namespace JaxFem.HyperBench

variable {nq nfq nn : Nat}

/-- `top` (`test_hyper_elasticity.py:90-91`) with `H = 10.`. -/
noncomputable def top : LocFn (Fin 3 → ℝ) := .one fun p => decide (FinitePlasticity.isclose (p 2) 10)

/-- `bottom` (`test_hyper_elasticity.py:93-94`). -/
noncomputable def bottom : LocFn (Fin 3 → ℝ) := .one fun p => decide (FinitePlasticity.isclose (p 2) 0)

/-- `dirichlet_bc_info` (`test_hyper_elasticity.py:96-106`). -/
noncomputable def info : UserBC.Info (Fin 3 → ℝ) ℝ :=
  some ([bottom, bottom, bottom, top, top, top], [0, 1, 2, 0, 1, 2],
    [fun _ => 0, fun _ => 0, fun _ => 0, fun _ => 0, fun _ => 0, fun _ => 1])

/-- `HyperElasticity` (`test_hyper_elasticity.py:15-34`) with `E = 1e3`, `nu = 0.3`. -/
noncomputable def problem (points : List (Fin 3 → ℝ)) (cells : List (List Nat)) (el : RefElement ℝ nq nn 3)
    (fc : RefFaces ℝ nfq nn 3) : Problem1 Unit nq nfq nn 3 3 where
  numTotalNodes := points.length
  points := points
  cells := cells.map fun c => ⟨c, fun _ => ()⟩
  el := el
  fc := fc
  tensorMap := fun _ => Hyper.firstPK (Hyper.psi 3 (Hyper.muOf 1000 0.3) (Hyper.kappaOf 1000 0.3))
  massMap := none
  surfaces := []

/-- Construction of the problem and `solver(problem)` (`test_hyper_elasticity.py:108-109`) with its default options: zero initial
guess, no line search, `tol = 1e-6`, `rel_tol = 1e-8` (`solver.py:1285-1337`). The result is `sol_list[0]` and the number of Newton
steps. -/
noncomputable def run (points : List (Fin 3 → ℝ)) (cells : List (List Nat)) (el : RefElement ℝ nq nn 3) (fc : RefFaces ℝ nfq nn 3)
    (num : (P : Problem1 Unit nq nfq nn 3 3) → ElasticBench.Numerics (totalDofs P.fes)) (fuel : Nat) :
    Option (Except Err (List (List ℝ) × Nat)) :=
  match dirichletBC points info with
  | .error e => some (.error e)
  | .ok b =>
    let P := problem points cells el fc
    let bcs := [UserBC.entries b]
    (newtonSolve (newtonUpdate P.fes bcs (ElasticBench.residualVec P) (num P).tan) (fun rA => .fin (FinitePlasticity.norm2 rA.1))
      (newtonStep P.fes bcs (fun r => .fin (FinitePlasticity.norm2 r)) (ElasticBench.residualVec P) (num P).solve false)
      (fun _ => true) (1 / 10 ^ 6) (1 / 10 ^ 8) 0 fuel).map fun r => r.map fun dn =>
        ((unravelSol (solShapes P.fes) (List.ofFn dn.1)).getD 0 [], dn.2)

end JaxFem.HyperBench
