import Verif.Model.Plasticity
import Verif.Model.PlasticDrivers

/-!
# Benchmarks: load steps of the plasticity test and post-processing

* `tests/benchmarks/plasticity/test_plasticity.py:16-160`: class `Plasticity`, boundary conditions, load steps,
  `compute_avg_stress`;
* `tests/benchmarks/hyperelasticity/test_hyper_elasticity.py:36-70`: `surface_integral`, `compute_traction`;
* `tests/benchmarks/linear_elasticity_cylinder/test_linear_elasticity_cylinder.py:39-75`: the same `surface_integral`,
  `compute_surface_area`.

Simplifications: exact real arithmetic; the meshes, which the tests read from files, are any points and cells; the tangent and
the linear solver are parameters; the comparison with stored files is left out.
-/

namespace JaxFem.Benchmarks

open scoped BigOperators

open Plasticity (PState)

variable {IV : Type} {nq nfq nn vec : Nat}

/-! ### Plasticity test -/

/-- `sigmas_old` and `epsilons_old` at all quadrature points of `C` cells. -/
abbrev Vars (C nq : Nat) := Fin C → Fin nq → PState 3

/-- The class `Plasticity` (`test_plasticity.py:16-64`) with its constants; no surface maps. -/
noncomputable def plastic (numTotalNodes : Nat) (points : List (Fin 3 → ℝ)) (cells : List (List Nat))
    (el : RefElement ℝ nq nn 3) (fc : RefFaces ℝ nfq nn 3) : Problem1 (PState 3) nq nfq nn 3 3 where
  numTotalNodes := numTotalNodes
  points := points
  cells := cells.map fun c => ⟨c, fun _ => Plasticity.pInit 3⟩
  el := el
  fc := fc
  tensorMap := fun s uGrad => Plasticity.stressReturnMap 70000 0.3 250 (Matrix.of uGrad) s.sig s.eps
  massMap := none
  surfaces := []

/-- `self.internal_vars = [self.sigmas_old, self.epsilons_old]` (`test_plasticity.py:24,78`). -/
def setVars (P : Problem1 (PState 3) nq nfq nn 3 3) (vars : Vars P.cells.length nq) : Problem1 (PState 3) nq nfq nn 3 3 :=
  P.atIv fun c q => if h : c < P.cells.length then vars ⟨c, h⟩ q else Plasticity.pInit 3

/-- `custom_init` (`test_plasticity.py:17-24`). -/
def initVars (C : Nat) : Vars C nq := fun _ _ => Plasticity.pInit 3

/-- `update_stress_strain` (`test_plasticity.py:73-78`). -/
noncomputable def updateStressStrain (P : Problem1 (PState 3) nq nfq nn 3 3) (sol : List (List ℝ))
    (vars : Vars P.cells.length nq) : Vars P.cells.length nq :=
  fun c q => Plasticity.pUpdate 70000 0.3 250 (vars c q) (Matrix.of (solToGrad P.el 3 P.points sol (P.cells[c]).nodes q))

/-- `self.fe.JxW` (`fe.py:135-140`). -/
noncomputable def jxw (P : Problem1 IV nq nfq nn vec 3) (c : Fin P.cells.length) (q : Fin nq) : ℝ :=
  cellJxW (physicalCoos nn P.points (P.cells[c]).nodes) (P.el.shapeGradsRef q) (P.el.quadWeights q)

/-- `compute_avg_stress` (`test_plasticity.py:80-88`). -/
noncomputable def computeAvgStress (P : Problem1 (PState 3) nq nfq nn 3 3) (vars : Vars P.cells.length nq) :
    Matrix (Fin 3) (Fin 3) ℝ :=
  let sigma : Matrix (Fin 3) (Fin 3) ℝ := fun i j => ∑ c, ∑ q, (vars c q).sig i j * jxw P c q
  let vol := ∑ c, ∑ q, jxw P c q
  fun i j => sigma i j / vol

/-- `top` (`test_plasticity.py:107-108`), `H = 10.`. -/
noncomputable def top : LocFn (Fin 3 → ℝ) := .one fun p => decide (FinitePlasticity.isclose (p 2) 10)

/-- `bottom` (`test_plasticity.py:110-111`). -/
noncomputable def bottom : LocFn (Fin 3 → ℝ) := .one fun p => decide (FinitePlasticity.isclose (p 2) 0)

/-- `dirichlet_bc_info` (`test_plasticity.py:113-128`) after `dirichlet_bc_info[-1][-1] = get_dirichlet_top(disp)` (135). -/
noncomputable def info (disp : ℝ) : UserBC.Info (Fin 3 → ℝ) ℝ :=
  some ([bottom, bottom, bottom, top, top, top], [0, 1, 2, 0, 1, 2],
    [fun _ => 0, fun _ => 0, fun _ => 0, fun _ => 0, fun _ => 0, fun _ => disp])

/-- `sol_list[0]` as an array. -/
noncomputable def solOf (P : Problem1 (PState 3) nq nfq nn 3 3) (u : Fin (totalDofs P.fes) → ℝ) : List (List ℝ) :=
  (unravelSol (solShapes P.fes) (List.ofFn u)).getD 0 []

/-- Residual vector of the problem with the stored variables (`problem.py:462-475`, `solver.py:1300-1305`); the residual of a
well-formed problem does not raise (C72). -/
noncomputable def residualVec (P : Problem1 (PState 3) nq nfq nn 3 3) (vars : Vars P.cells.length nq)
    (u : Fin (totalDofs P.fes) → ℝ) : Fin (totalDofs P.fes) → ℝ := fun k =>
  match (setVars P vars).residual (unravelSol (solShapes P.fes) (List.ofFn u)) with
  | .ok R => (ravelSol R).getD k 0
  | .error _ => 0

/-- Tangent and linear solver. -/
structure Numerics (C nq N : Nat) where
  tan : Vars C nq → (Fin N → ℝ) → Matrix (Fin N) (Fin N) ℝ
  solve : Matrix (Fin N) (Fin N) ℝ → (Fin N → ℝ) → (Fin N → ℝ) → Except Err (Fin N → ℝ)

/-- What a load step leaves: solution, stored variables, reported average stress. -/
structure Step (C nq N : Nat) where
  sol : Fin N → ℝ
  vars : Vars C nq
  avg : Matrix (Fin 3) (Fin 3) ℝ

/-- One pass of the loop (`test_plasticity.py:133-141`): new boundary values, `solver(problem)` with its default options (zero
initial guess, no line search, `tol = 1e-6`, `rel_tol = 1e-8`; `solver.py:1285-1296`), update, average stress. -/
noncomputable def loadStep (P : Problem1 (PState 3) nq nfq nn 3 3) (num : Numerics P.cells.length nq (totalDofs P.fes))
    (fuel : Nat) (vars : Vars P.cells.length nq) (disp : ℝ) :
    Option (Except Err (Step P.cells.length nq (totalDofs P.fes))) :=
  match dirichletBC P.points (info disp) with
  | .error e => some (.error e)
  | .ok b =>
    let bcs := [UserBC.entries b]
    (newtonSolve (newtonUpdate P.fes bcs (residualVec P vars) (num.tan vars)) (fun rA => .fin (FinitePlasticity.norm2 rA.1))
      (newtonStep P.fes bcs (fun r => .fin (FinitePlasticity.norm2 r)) (residualVec P vars) num.solve false) (fun _ => true)
      (1 / 10 ^ 6) (1 / 10 ^ 8) 0 fuel).map fun r => r.map fun dn =>
        let vars' := updateStressStrain P (solOf P dn.1) vars
        ⟨dn.1, vars', computeAvgStress P vars'⟩

/-- The loop over `disps` (`test_plasticity.py:133-141`). -/
noncomputable def run (P : Problem1 (PState 3) nq nfq nn 3 3) (num : Numerics P.cells.length nq (totalDofs P.fes)) (fuel : Nat) :
    List ℝ → Vars P.cells.length nq → Option (Except Err (List (Step P.cells.length nq (totalDofs P.fes))))
  | [], _ => some (.ok [])
  | disp :: rest, vars =>
    match loadStep P num fuel vars disp with
    | none => none
    | some (.error e) => some (.error e)
    | some (.ok st) =>
      match run P num fuel rest st.vars with
      | none => none
      | some (.error e) => some (.error e)
      | some (.ok l) => some (.ok (st :: l))

/-! ### Integrals over selected faces -/

/-- Gradient of `sol` at a face quadrature point: `sol[cells][boundary_inds[:, 0]] * face_shape_grads_physical`, summed over the
nodes (`test_hyper_elasticity.py:40-41`). -/
noncomputable def faceGrad (P : Problem1 IV nq nfq nn vec 3) (sol : List (List ℝ)) (f : Nat × Nat) (q : Fin nfq) :
    Fin vec → Fin 3 → ℝ := fun i j =>
  ∑ a : Fin nn, (sol.getD ((P.conn.getD f.1 []).getD a 0) []).getD i 0 *
    shapeGradsPhysical (physicalCoos nn P.points (P.conn.getD f.1 [])) (P.fc.shapeGradsRef f.2 q) a j

/-- `surface_integral` (`test_hyper_elasticity.py:36-45`, `test_linear_elasticity_cylinder.py:39-65`); `surfaceFn` is applied
point by point. -/
noncomputable def surfaceIntegral (P : Problem1 IV nq nfq nn vec 3) (faceInds : List (List Nat)) (loc : LocFn (Fin 3 → ℝ))
    (surfaceFn : (Fin vec → Fin 3 → ℝ) → Fin vec → ℝ) (sol : List (List ℝ)) : Except Err (Fin vec → ℝ) :=
  (boundaryInds P.points P.conn faceInds (some [loc])).bind fun inds =>
    match inds with
    | [] => .error .index
    | b :: _ => .ok fun i => (b.map fun f => ∑ q, surfaceFn (faceGrad P sol f q) i *
        nansonScale (physicalCoos nn P.points (P.conn.getD f.1 [])) (P.fc.shapeGradsRef f.2 q) (P.fc.normals f.2)
          (P.fc.quadWeights f.2 q)).sum

/-- `compute_surface_area` (`test_linear_elasticity_cylinder.py:67-75`). -/
noncomputable def computeSurfaceArea (P : Problem1 IV nq nfq nn vec 3) (faceInds : List (List Nat)) (loc : LocFn (Fin 3 → ℝ))
    (sol : List (List ℝ)) : Except Err (Fin vec → ℝ) :=
  surfaceIntegral P faceInds loc (fun _ _ => 1) sol

/-- `compute_traction` (`test_hyper_elasticity.py:48-70`): `stress` is the tensor map, the normal is always `[0., 0., 1.]`. -/
noncomputable def computeTraction (P : Problem1 IV nq nfq nn vec 3) (faceInds : List (List Nat))
    (stress : (Fin vec → Fin 3 → ℝ) → Fin vec → Fin 3 → ℝ) (loc : LocFn (Fin 3 → ℝ)) (sol : List (List ℝ)) :
    Except Err (Fin vec → ℝ) :=
  surfaceIntegral P faceInds loc (fun uGrad i => ∑ j, stress uGrad i j * (![0, 0, 1] : Fin 3 → ℝ) j) sol

end JaxFem.Benchmarks
