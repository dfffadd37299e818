import Verif.Model.FinitePlasticity
import Verif.Model.TopOpt
import Verif.Model.UserBC
import Verif.Model.Newton
import Verif.Spec.Dofs

/-!
# Drivers of the finite-strain plasticity example

`applications/finite_plasticity/single_cell.py` and `thin_plate.py` with the methods `update_int_vars_gp` and
`compute_stress` of `model.py:101-118`.

Simplifications: exact real arithmetic; `np.linalg.inv`, powers and divisions as in `Verif.Model.FinitePlasticity`; the mesh
generator is external (any points and cells); the Jacobian of the residual and the linear solver are parameters; printing
and writing of files is left out.  The finiteness assertions of the solver always hold in exact arithmetic.
-/

namespace JaxFem.FinitePlasticity

open scoped BigOperators

variable {nq nfq nn : Nat}

/-! ### Problem (`model.py`) -/

/-- Values of the internal variables at all quadrature points of `C` cells. -/
abbrev Vars (C nq : Nat) := Fin C → Fin nq → FState

/-- The class `Plasticity` (`model.py:7-19,86-88`): internal variables of `custom_init`, no surface maps. -/
noncomputable def problem (m : Mat) (numTotalNodes : Nat) (points : List (Fin 3 → ℝ)) (cells : List (List Nat))
    (el : RefElement ℝ nq nn 3) (fc : RefFaces ℝ nfq nn 3) : Problem1 FState nq nfq nn 3 3 where
  numTotalNodes := numTotalNodes
  points := points
  cells := cells.map fun c => ⟨c, fun _ => fInit⟩
  el := el
  fc := fc
  tensorMap := fun iv uGrad => firstPK m iv (Matrix.of uGrad)
  massMap := none
  surfaces := []

/-- `self.internal_vars = int_vars` in `set_params` (`single_cell.py:21`, `thin_plate.py:25`). -/
def setVars (P : Problem1 FState nq nfq nn 3 3) (vars : Vars P.cells.length nq) : Problem1 FState nq nfq nn 3 3 :=
  P.atIv fun c q => if h : c < P.cells.length then vars ⟨c, h⟩ q else fInit

/-- `problem.internal_vars` after the constructor (`model.py:12-15`). -/
def initVars (C : Nat) : Vars C nq := fun _ _ => fInit

/-- `update_int_vars_gp` (`model.py:101-108`). -/
noncomputable def updateIntVarsGp (m : Mat) (P : Problem1 FState nq nfq nn 3 3) (sol : List (List ℝ))
    (vars : Vars P.cells.length nq) : Vars P.cells.length nq :=
  fun c q => updateVars m (vars c q) (Matrix.of (solToGrad P.el 3 P.points sol (P.cells[c]).nodes q))

/-- `compute_stress` (`model.py:110-118`). -/
noncomputable def computeStress (m : Mat) (P : Problem1 FState nq nfq nn 3 3) (sol : List (List ℝ))
    (vars : Vars P.cells.length nq) : Fin P.cells.length → Fin nq → M3 :=
  fun c q => cauchy m (vars c q) (Matrix.of (solToGrad P.el 3 P.points sol (P.cells[c]).nodes q))

/-- `.mean(axis=1)` (`single_cell.py:76`, `thin_plate.py:86`). -/
noncomputable def meanAxis1 {C : Nat} (s : Fin C → Fin nq → M3) : Fin C → M3 := fun c => (1 / (nq : ℝ)) • ∑ q, s c q

/-! ### Boundary conditions -/

/-- `np.isclose(a, b, atol=1e-5)`: the relative tolerance has its default value `1e-5`. -/
def isclose (a b : ℝ) : Prop := |a - b| ≤ 1 / 10 ^ 5 + 1 / 10 ^ 5 * |b|

noncomputable instance (a b : ℝ) : Decidable (isclose a b) := Classical.dec _

namespace SingleCell

/-- `top` (`single_cell.py:38-39`), `Lz = 1.`. -/
noncomputable def top : LocFn (Fin 3 → ℝ) := .one fun p => decide (isclose (p 2) 1)

/-- `bottom` (`single_cell.py:41-42`). -/
noncomputable def bottom : LocFn (Fin 3 → ℝ) := .one fun p => decide (isclose (p 2) 0)

/-- `origin` (`single_cell.py:44-45`). -/
noncomputable def origin : LocFn (Fin 3 → ℝ) := .one fun p => decide (∀ i, isclose (p i) 0)

/-- `x_corner` (`single_cell.py:47-49`), `Lx = 1.`. -/
noncomputable def xCorner : LocFn (Fin 3 → ℝ) := .one fun p => decide (∀ i, isclose (p i) ((![1, 0, 0] : Fin 3 → ℝ) i))

/-- `get_dirichlet_top(scale)` (`single_cell.py:51-55`). -/
def dirichletTop (scale : ℝ) : (Fin 3 → ℝ) → ℝ := fun _ => scale * 1

/-- `dirichlet_bc_info` (`single_cell.py:57-58,64-67`) with the last value function replaced by `set_params` (22). -/
noncomputable def info (scale : ℝ) : UserBC.Info (Fin 3 → ℝ) ℝ :=
  some ([origin, origin, xCorner, bottom, top], [0, 1, 1, 2, 2],
    [fun _ => 0, fun _ => 0, fun _ => 0, fun _ => 0, dirichletTop scale])

end SingleCell

namespace ThinPlate

/-- `walls` (`thin_plate.py:42-47`), `Lx = Ly = 10.`. -/
noncomputable def walls : LocFn (Fin 3 → ℝ) :=
  .one fun p => decide (isclose (p 0) 0 ∨ isclose (p 0) 10 ∨ isclose (p 1) 0 ∨ isclose (p 1) 10)

/-- `top` (`thin_plate.py:49-50`), `Lz = 0.25`. -/
noncomputable def top : LocFn (Fin 3 → ℝ) := .one fun p => decide (isclose (p 2) 0.25)

/-- `get_dirichlet_top(scale)` (`thin_plate.py:55-63`). -/
noncomputable def dirichletTop (scale : ℝ) : (Fin 3 → ℝ) → ℝ := fun p =>
  let x := p 0
  let y := p 1
  let sdf := min (min |x| |10 - x|) (min |y| |10 - y|)
  let scaledSdf := sdf / (0.5 * min 10 10)
  let EPS := 1 / 10 ^ 10
  let zDisp := -scale * 10 * (1 / (1 + (1 / (scaledSdf + EPS) - 1)))
  zDisp

/-- `dirichlet_bc_info` (`thin_plate.py:52-53,67-70`) with the last value function replaced by `set_params` (26). -/
noncomputable def info (scale : ℝ) : UserBC.Info (Fin 3 → ℝ) ℝ :=
  some ([walls, walls, walls, top], [0, 1, 2, 2], [fun _ => 0, fun _ => 0, fun _ => 0, dirichletTop scale])

end ThinPlate

/-! ### Load steps -/

/-- `np.linspace(a, b, k)` for `k ≥ 2`. -/
noncomputable def linspaceAB (a b : ℝ) (k : Nat) : List ℝ := (List.range k).map fun i : Nat => a + i * ((b - a) / (k - 1))

/-- `scales` (`single_cell.py:60`: `amplitude = 0.01`, `k = 11`; `thin_plate.py:65`: `0.2`, `5`). -/
noncomputable def scales (amplitude : ℝ) (k : Nat) : List ℝ :=
  (linspaceAB 0 1 k ++ linspaceAB 1 0 k).map fun s => amplitude * s

/-- `np.linalg.norm` of a vector. -/
noncomputable def norm2 {N : Nat} (x : Fin N → ℝ) : ℝ := Real.sqrt (∑ k, x k ^ 2)

/-- What the solver is given: Jacobian of the residual, linear solver, options. -/
structure Numerics (C nq N : Nat) where
  tan : Vars C nq → (Fin N → ℝ) → Matrix (Fin N) (Fin N) ℝ
  solve : Matrix (Fin N) (Fin N) ℝ → (Fin N → ℝ) → (Fin N → ℝ) → Except Err (Fin N → ℝ)
  lineSearch : Bool
  tol : ℝ
  relTol : ℝ

/-- `sol_list[0]` as an array (`unflatten_fn_sol_list(dofs)[0]`). -/
noncomputable def solOf (P : Problem1 FState nq nfq nn 3 3) (u : Fin (totalDofs P.fes) → ℝ) : List (List ℝ) :=
  (unravelSol (solShapes P.fes) (List.ofFn u)).getD 0 []

/-- Residual vector of the problem after `set_params` (`problem.py:462-475`, `solver.py:1300-1305`); the residual of a
well-formed problem does not raise (C72). -/
noncomputable def residualVec (P : Problem1 FState nq nfq nn 3 3) (vars : Vars P.cells.length nq)
    (u : Fin (totalDofs P.fes) → ℝ) : Fin (totalDofs P.fes) → ℝ := fun k =>
  match (setVars P vars).residual (unravelSol (solShapes P.fes) (List.ofFn u)) with
  | .ok R => (ravelSol R).getD k 0
  | .error _ => 0

/-- What a load step leaves: solution, number of Newton iterations, new internal variables, printed stresses. -/
structure Step (C nq N : Nat) where
  sol : Fin N → ℝ
  iters : Nat
  vars : Vars C nq
  sigmas : Fin C → M3

/-- One pass of the loop (`single_cell.py:71-80`, `thin_plate.py:77-90`): `set_params`, `solver` with the previous solution as
initial guess, update of the internal variables, stresses from the copy of the old ones. -/
noncomputable def loadStep (m : Mat) (P : Problem1 FState nq nfq nn 3 3) (info : ℝ → UserBC.Info (Fin 3 → ℝ) ℝ)
    (num : Numerics P.cells.length nq (totalDofs P.fes)) (fuel : Nat) (u : Fin (totalDofs P.fes) → ℝ)
    (vars : Vars P.cells.length nq) (scale : ℝ) :
    Option (Except Err (Step P.cells.length nq (totalDofs P.fes))) :=
  match dirichletBC P.points (info scale) with
  | .error e => some (.error e)
  | .ok b =>
    let bcs := [UserBC.entries b]
    (newtonSolve (newtonUpdate P.fes bcs (residualVec P vars) (num.tan vars)) (fun rA => .fin (norm2 rA.1))
      (newtonStep P.fes bcs (fun r => .fin (norm2 r)) (residualVec P vars) num.solve num.lineSearch) (fun _ => true)
      num.tol num.relTol u fuel).map fun r => r.map fun dn =>
        let intVarsCopy := vars
        let intVars := updateIntVarsGp m P (solOf P dn.1) vars
        let sigmas := meanAxis1 (computeStress m P (solOf P dn.1) intVarsCopy)
        ⟨dn.1, dn.2, intVars, sigmas⟩

/-- The loop over the load steps. -/
noncomputable def simulate (m : Mat) (P : Problem1 FState nq nfq nn 3 3) (info : ℝ → UserBC.Info (Fin 3 → ℝ) ℝ)
    (num : Numerics P.cells.length nq (totalDofs P.fes)) (fuel : Nat) :
    List ℝ → (Fin (totalDofs P.fes) → ℝ) → Vars P.cells.length nq →
      Option (Except Err (List (Step P.cells.length nq (totalDofs P.fes))))
  | [], _, _ => some (.ok [])
  | scale :: rest, u, vars =>
    match loadStep m P info num fuel u vars scale with
    | none => none
    | some (.error e) => some (.error e)
    | some (.ok st) =>
      match simulate m P info num fuel rest st.sol st.vars with
      | none => none
      | some (.error e) => some (.error e)
      | some (.ok l) => some (.ok (st :: l))

/-- `simulation()` of `single_cell.py:60-80`. -/
noncomputable def SingleCell.simulation (m : Mat) (P : Problem1 FState nq nfq nn 3 3)
    (num : Numerics P.cells.length nq (totalDofs P.fes)) (fuel : Nat) :=
  simulate m P SingleCell.info { num with lineSearch := false } fuel (scales 0.01 11) 0 (initVars P.cells.length)

/-- `simulation()` of `thin_plate.py:65-90`; `'line_search_flag': True`. -/
noncomputable def ThinPlate.simulation (m : Mat) (P : Problem1 FState nq nfq nn 3 3)
    (num : Numerics P.cells.length nq (totalDofs P.fes)) (fuel : Nat) :=
  simulate m P ThinPlate.info { num with lineSearch := true } fuel (scales 0.2 5) 0 (initVars P.cells.length)

end JaxFem.FinitePlasticity
