import Verif.Model.Elastic
import Verif.Model.PlasticDrivers
import Verif.Model.UserBC
import Verif.Model.Newton

/-!
# The linear elasticity benchmarks

`tests/benchmarks/linear_elasticity_cube/test_linear_elasticity_cube.py:15-73` and
`tests/benchmarks/linear_elasticity_cylinder/test_linear_elasticity_cylinder.py:15-113`: class `LinearElasticity`, boundary
conditions, `solver(problem)`.

Simplifications: exact real arithmetic; the mesh, which the tests read from a file, is any points and cells; the tangent and the
linear solver are parameters; writing the solution and the comparison with the stored file are left out (`compute_surface_area` of
the second test is in `Model/Benchmarks`).
-/

namespace JaxFem.ElasticBench

variable {nq nfq nn : Nat}

/-- What the two tests do not share: `mass_map`, `surface_map` (which ignore their argument `u`), the location functions of the
Dirichlet conditions and of the loaded faces, and `dirichlet_val`. -/
structure Bench where
  massMap : (Fin 3 → ℝ) → Fin 3 → ℝ
  surfaceMap : (Fin 3 → ℝ) → Fin 3 → ℝ
  fixed : LocFn (Fin 3 → ℝ)
  loaded : LocFn (Fin 3 → ℝ)
  dirichletVal : ℝ

/-- `test_linear_elasticity_cube.py`: `mass_map` (28-31), `surface_map` (34-36), `left` (56-57), `right` (59-60) with `L = 1.`,
`dirichlet_val` (62-63). -/
noncomputable def cube : Bench where
  massMap := fun _ i => -(![0, 10, 10] : Fin 3 → ℝ) i
  surfaceMap := fun _ i => -(![10, 0, 0] : Fin 3 → ℝ) i
  fixed := .one fun p => decide (FinitePlasticity.isclose (p 0) 0)
  loaded := .one fun p => decide (FinitePlasticity.isclose (p 0) 1)
  dirichletVal := 1

/-- `test_linear_elasticity_cylinder.py`: `mass_map` (28-31), `surface_map` (34-37), `bottom` (100-101), `top` (97-98) with `H = 10.`,
`dirichlet_val` (103-104). -/
noncomputable def cylinder : Bench where
  massMap := fun x i => -(![1000 * x 0, 2000 * x 1, 3000 * x 2] : Fin 3 → ℝ) i
  surfaceMap := fun x i => -(![1000 * x 0 ^ 2 + 1000 * x 1 ^ 2, 0, 0] : Fin 3 → ℝ) i
  fixed := .one fun p => decide (FinitePlasticity.isclose (p 2) 0)
  loaded := .one fun p => decide (FinitePlasticity.isclose (p 2) 10)
  dirichletVal := 0

/-- The class `LinearElasticity` (`test_linear_elasticity_cube.py:15-37`, `test_linear_elasticity_cylinder.py:15-37`) with
`vec=3, dim=3`; `inds` is `boundary_inds_list[0]`. -/
noncomputable def problem (B : Bench) (numTotalNodes : Nat) (points : List (Fin 3 → ℝ)) (cells : List (List Nat))
    (el : RefElement ℝ nq nn 3) (fc : RefFaces ℝ nfq nn 3) (inds : List (Nat × Nat)) : Problem1 Unit nq nfq nn 3 3 where
  numTotalNodes := numTotalNodes
  points := points
  cells := cells.map fun c => ⟨c, fun _ => ()⟩
  el := el
  fc := fc
  tensorMap := fun _ => Elastic.stress 70000 0.3
  massMap := some fun _ _ x => B.massMap x
  surfaces := [⟨fun _ _ x => B.surfaceMap x, inds.map fun a => ⟨a.1, a.2, fun _ => ()⟩⟩]

/-- `dirichlet_bc_info` (`test_linear_elasticity_cube.py:65-68`, `test_linear_elasticity_cylinder.py:106-109`). -/
def info (B : Bench) : UserBC.Info (Fin 3 → ℝ) ℝ :=
  some ([B.fixed, B.fixed, B.fixed], [0, 1, 2], [fun _ => B.dirichletVal, fun _ => B.dirichletVal, fun _ => B.dirichletVal])

/-- Residual vector (`problem.py:462-475`, `solver.py:1300-1305`); the residual of a well-formed problem does not raise (C72). -/
noncomputable def residualVec (P : Problem1 Unit nq nfq nn 3 3) (u : Fin (totalDofs P.fes) → ℝ) : Fin (totalDofs P.fes) → ℝ :=
  fun k =>
    match P.residual (unravelSol (solShapes P.fes) (List.ofFn u)) with
    | .ok R => (ravelSol R).getD k 0
    | .error _ => 0

/-- Tangent and linear solver. -/
structure Numerics (N : Nat) where
  tan : (Fin N → ℝ) → Matrix (Fin N) (Fin N) ℝ
  solve : Matrix (Fin N) (Fin N) ℝ → (Fin N → ℝ) → (Fin N → ℝ) → Except Err (Fin N → ℝ)

/-- Construction of the problem (boundary conditions `fe.py:209-253`, loaded faces `problem.py:80`) and `solver(problem)`
(`test_linear_elasticity_cube.py:71-73`, `test_linear_elasticity_cylinder.py:111-113`) with its default options: zero initial
guess, no line search, `tol = 1e-6`, `rel_tol = 1e-8` (`solver.py:1285-1337`). `num` may depend on the problem. The result is
`sol_list[0]`, the number of Newton steps and the loaded faces. -/
noncomputable def run (B : Bench) (numTotalNodes : Nat) (points : List (Fin 3 → ℝ)) (cells faceInds : List (List Nat))
    (el : RefElement ℝ nq nn 3) (fc : RefFaces ℝ nfq nn 3)
    (num : (P : Problem1 Unit nq nfq nn 3 3) → Numerics (totalDofs P.fes)) (fuel : Nat) :
    Option (Except Err (List (List ℝ) × Nat × List (Nat × Nat))) :=
  match dirichletBC points (info B) with
  | .error e => some (.error e)
  | .ok b =>
    match boundaryInds points cells faceInds (some [B.loaded]) with
    | .error e => some (.error e)
    | .ok bs =>
      let inds := bs.headD []
      let P := problem B numTotalNodes points cells el fc inds
      let bcs := [UserBC.entries b]
      (newtonSolve (newtonUpdate P.fes bcs (residualVec P) (num P).tan) (fun rA => .fin (FinitePlasticity.norm2 rA.1))
        (newtonStep P.fes bcs (fun r => .fin (FinitePlasticity.norm2 r)) (residualVec P) (num P).solve false) (fun _ => true)
        (1 / 10 ^ 6) (1 / 10 ^ 8) 0 fuel).map fun r => r.map fun dn =>
          ((unravelSol (solShapes P.fes) (List.ofFn dn.1)).getD 0 [], dn.2, inds)

end JaxFem.ElasticBench
