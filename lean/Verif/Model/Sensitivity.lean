import Verif.Model.Crystal
import Verif.Model.Inverse
import Verif.Model.PlasticDrivers

/-!
# Sensitivity scripts of the crystal-plasticity example

`applications/crystal_plasticity/volume_sensitivity.py` and `stress_sensitivity.py` with the methods `update_int_vars_gp`
and `compute_avg_stress` of `models.py`.

Simplifications: exact real arithmetic; the mesh generator is external (any points and cells); `newton_solver` of
`models.py:176-221` is a function `root` of the residual function `S ↦ implicit_residual(x, S)` (the iteration itself is in
`Verif.Model.Crystal`); the tangent of the residual and the linear solvers are parameters; printing and writing of files is
left out.  `jax.grad` is the chain rule in reverse; the attributes of the problem object that are not part of the
parameters (`dt`, in `stress_sensitivity.py` also the boundary values) have their last values while it runs.
-/

namespace JaxFem.Sensitivity

open scoped BigOperators
open Crystal (M3 Internal implicitResidual piola update fcc initial getRotMat defGrad pToSigma cellAverage)

/-! ### A loop of differentiable solves around a problem object with attributes -/

/-- The scripts: for given attributes `z` of the problem object, what `ad_wrapper(problem)` sees, the parameters that are
handed to it, the data after the step, and the number computed from solution and data. -/
structure Script (Z E B : Type) (fes : List FE) (N : Nat) where
  setup : Z → Inverse.Setup E fes N
  par : Z → B → E
  update : Z → (Fin N → ℝ) → B → B
  objective : Z → (Fin N → ℝ) → B → ℝ

variable {Z E B Θ : Type} {fes : List FE} {N : Nat}

/-- The loop of `simulation` (`volume_sensitivity.py:91-96`, `stress_sensitivity.py:79-90`): attributes, `fwd_pred`, update;
the solutions of all steps. -/
noncomputable def Script.run (S : Script Z E B fes N) (fuel : Nat) : List Z → B → Option (Except Err (List (Fin N → ℝ)))
  | [], _ => some (.ok [])
  | z :: zs, b =>
    match (S.setup z).fwdPred fuel (S.par z b) with
    | none => none
    | some (.error e) => some (.error e)
    | some (.ok u) => (S.run fuel zs (S.update z u b)).map fun r => r.map fun us => u :: us

/-- The returned value (`volume_sensitivity.py:97,103`, `stress_sensitivity.py:88,112`): computed in every step from the
solution and the data before the update, the last one is returned; without steps the name is unbound. -/
noncomputable def Script.last (S : Script Z E B fes N) : List Z → List (Fin N → ℝ) → B → Except Err ℝ
  | [z], [u], b => .ok (S.objective z u b)
  | z :: zs, u :: us, b => S.last zs us (S.update z u b)
  | _, _, _ => .error .runtime

/-- `simulation(theta)`. -/
noncomputable def Script.simulation (S : Script Z E B fes N) (init : Θ → B) (fuel : Nat) (zs : List Z) (theta : Θ) :
    Option (Except Err ℝ) :=
  (S.run fuel zs (init theta)).map fun r => r.bind fun us => S.last zs us (init theta)

variable [NormedAddCommGroup E] [NormedSpace ℝ E] [NormedAddCommGroup B] [NormedSpace ℝ B] [NormedAddCommGroup Θ]
  [NormedSpace ℝ Θ]

/-- Reverse sweep: cotangent of the data that enter a step.  The backward pass of `fwd_pred` (`solver.py:1444-1451`) runs after
the loop, with `Sl`, what the problem object then is; updates and objective were traced in the loop. -/
noncomputable def Script.sweep (S : Script Z E B fes N) (Sl : Inverse.Setup E fes N) :
    List Z → List (Fin N → ℝ) → B → Except Err (B →L[ℝ] ℝ)
  | [z], [u], b => do
    let D := fderiv ℝ (fun x : (Fin N → ℝ) × B => S.objective z x.1 x.2) (u, b)
    let solBar := D.comp (ContinuousLinearMap.inl ℝ _ _)
    let g ← implicitVjp fes Sl.bcs Sl.res Sl.tan none Sl.adjointSolve u (S.par z b) fun k => solBar (Pi.single k 1)
    pure (D.comp (ContinuousLinearMap.inr ℝ _ _) + g.comp (fderiv ℝ (S.par z) b))
  | z :: zs, u :: us, b => do
    let bar ← S.sweep Sl zs us (S.update z u b)
    let D := fderiv ℝ (fun x : (Fin N → ℝ) × B => S.update z x.1 x.2) (u, b)
    let solBar := bar.comp (D.comp (ContinuousLinearMap.inl ℝ _ _))
    let g ← implicitVjp fes Sl.bcs Sl.res Sl.tan none Sl.adjointSolve u (S.par z b) fun k => solBar (Pi.single k 1)
    pure (bar.comp (D.comp (ContinuousLinearMap.inr ℝ _ _)) + g.comp (fderiv ℝ (S.par z) b))
  | _, _, _ => .error .runtime

/-- `jax.grad(simulation)(theta)` (`volume_sensitivity.py:107`, `stress_sensitivity.py:123`). -/
noncomputable def Script.grad (S : Script Z E B fes N) (init : Θ → B) (fuel : Nat) (zs : List Z) (theta : Θ) :
    Option (Except Err (Θ →L[ℝ] ℝ)) :=
  (S.run fuel zs (init theta)).map fun r => r.bind fun us =>
    match zs.getLast? with
    | none => .error .runtime
    | some zl => do
      let bar ← S.sweep (S.setup zl) zs us (init theta)
      pure (bar.comp (fderiv ℝ init theta))

/-! ### Problem -/

variable {nq nfq nn : Nat}

/-- `Fp_inv, slip_resistance, slip, rot_mat` at one quadrature point (`models.py:117`). -/
abbrev Pt := M3 × (Fin 12 → ℝ) × (Fin 12 → ℝ) × M3

/-- The same as a record. -/
def Pt.internal (p : Pt) : Internal 12 := ⟨p.1, p.2.1, p.2.2.1, p.2.2.2⟩

/-- And back. -/
def Pt.of (iv : Internal 12) : Pt := (iv.FpInv, iv.resistance, iv.slip, iv.rot)

/-- Internal variables of `C` cells. -/
abbrev Vars (C nq : Nat) := Fin C → Fin nq → Pt

/-- `tensor_map` (`models.py:134-141,235-237`) with the time increment `dt`. -/
noncomputable def tensorMap (root : (M3 → M3) → M3) (dt : ℝ) (iv : Pt) (uGrad : M3) : M3 := fun i j =>
  piola fcc dt iv.internal uGrad (root (implicitResidual fcc dt iv.internal uGrad)) i j

/-- Initial internal variables at a quadrature point (`models.py:71-76`), with `quat = [[1, 0, 0, 0]]`
(`volume_sensitivity.py:82-83`, `stress_sensitivity.py:67-68`). -/
noncomputable def initPt : Pt := Pt.of (initial 12 (getRotMat ![1, 0, 0, 0]))

/-- The problem object (`volume_sensitivity.py:84-85`, `stress_sensitivity.py:69-70`) with attribute `dt`. -/
noncomputable def problem (root : (M3 → M3) → M3) (dt : ℝ) (numTotalNodes : Nat) (points : List (Fin 3 → ℝ))
    (cells : List (List Nat)) (el : RefElement ℝ nq nn 3) (fc : RefFaces ℝ nfq nn 3) : Problem1 Pt nq nfq nn 3 3 where
  numTotalNodes := numTotalNodes
  points := points
  cells := cells.map fun c => ⟨c, fun _ => initPt⟩
  el := el
  fc := fc
  tensorMap := tensorMap root dt
  massMap := none
  surfaces := []

/-- `self.internal_vars = params` (`models.py:256-257`, `volume_sensitivity.py:24`). -/
noncomputable def setVars (P : Problem1 Pt nq nfq nn 3 3) (vars : Vars P.cells.length nq) : Problem1 Pt nq nfq nn 3 3 :=
  P.atIv fun c q => if h : c < P.cells.length then vars ⟨c, h⟩ q else initPt

/-- `problem.internal_vars` after the constructor (`models.py:117`). -/
noncomputable def initVars (C : Nat) : Vars C nq := fun _ _ => initPt

/-- `sol_list[0]` as an array. -/
noncomputable def solOf (P : Problem1 Pt nq nfq nn 3 3) (u : Fin (totalDofs P.fes) → ℝ) : List (List ℝ) :=
  (unravelSol (solShapes P.fes) (List.ofFn u)).getD 0 []

/-- `update_int_vars_gp` (`models.py:245-254`). -/
noncomputable def updateIntVarsGp (root : (M3 → M3) → M3) (dt : ℝ) (P : Problem1 Pt nq nfq nn 3 3) (sol : List (List ℝ))
    (vars : Vars P.cells.length nq) : Vars P.cells.length nq := fun c q =>
  let iv := (vars c q).internal
  let uGrad := solToGrad P.el 3 P.points sol (P.cells[c]).nodes q
  Pt.of (update fcc dt iv (root (implicitResidual fcc dt iv uGrad)))

/-- `compute_avg_stress` (`models.py:269-291`): average of the Cauchy stress over the quadrature points of each cell. -/
noncomputable def computeAvgStress (root : (M3 → M3) → M3) (dt : ℝ) (P : Problem1 Pt nq nfq nn 3 3) (sol : List (List ℝ))
    (vars : Vars P.cells.length nq) (c : Fin P.cells.length) : Matrix (Fin 3) (Fin 3) ℝ :=
  let uGrad := fun q => solToGrad P.el 3 P.points sol (P.cells[c]).nodes q
  let sigma := fun q => pToSigma (Matrix.of (tensorMap root dt (vars c q) (uGrad q))) (defGrad (uGrad q))
  cellAverage (cellData P.el P.points (P.cells[c]).nodes (P.cells[c]).iv).JxW sigma

/-- `crt_volume` (`volume_sensitivity.py:30-36`). -/
noncomputable def crtVolume (P : Problem1 Pt nq nfq nn 3 3) (sol : List (List ℝ)) : ℝ :=
  (P.cells.map fun cell => ∑ q, (Matrix.of (solToGrad P.el 3 P.points sol cell.nodes q) + 1).det
    * (cellData P.el P.points cell.nodes cell.iv).JxW q).sum

/-- `target_value` (`volume_sensitivity.py:28-40`). -/
noncomputable def targetValue (P : Problem1 Pt nq nfq nn 3 3) (sol : List (List ℝ)) : ℝ := (crtVolume P sol - 1.01) ^ 2

/-! ### Boundary conditions and steps -/

open FinitePlasticity (isclose)

/-- `corner` (`volume_sensitivity.py:58-62`, `stress_sensitivity.py:43-47`). -/
noncomputable def corner : LocFn (Fin 3 → ℝ) := .one fun p => decide (isclose (p 0) 0 ∧ isclose (p 1) 0 ∧ isclose (p 2) 0)

/-- `bottom` (`volume_sensitivity.py:64-65`, `stress_sensitivity.py:49-50`). -/
noncomputable def bottom : LocFn (Fin 3 → ℝ) := .one fun p => decide (isclose (p 2) 0)

/-- `top` (`volume_sensitivity.py:67-68`, `stress_sensitivity.py:52-53`), `Lz = 1.`. -/
noncomputable def top : LocFn (Fin 3 → ℝ) := .one fun p => decide (isclose (p 2) 1)

/-- `dirichlet_bc_info` with `get_dirichlet_top(disp)` (`volume_sensitivity.py:70-80`, `stress_sensitivity.py:55-65`). -/
noncomputable def info (disp : ℝ) : UserBC.Info (Fin 3 → ℝ) ℝ :=
  some ([corner, corner, bottom, top], [0, 1, 2, 2], [fun _ => 0, fun _ => 0, fun _ => 0, fun _ => disp])

/-- Prescribed displacement and time increment of a step. -/
structure Env where
  disp : ℝ
  dt : ℝ

/-- `disps[i + 1]` and `ts[i + 1] - ts[i]` for `np.linspace(0., dmax, n + 1)` and `np.linspace(0., tmax, n + 1)`
(`volume_sensitivity.py:54-56,93-94`, `stress_sensitivity.py:39-41,80-83`). -/
noncomputable def steps (dmax tmax : ℝ) (n : Nat) : List Env :=
  let disps := FinitePlasticity.linspaceAB 0 dmax (n + 1)
  let ts := FinitePlasticity.linspaceAB 0 tmax (n + 1)
  (List.range n).map fun i => ⟨disps.getD (i + 1) 0, ts.getD (i + 1) 0 - ts.getD i 0⟩

/-- Derivative of the residual, options of the solvers. -/
structure Numerics (C nq N : Nat) where
  tan : ℝ → Vars C nq → (Fin N → ℝ) → Matrix (Fin N) (Fin N) ℝ
  solve : Matrix (Fin N) (Fin N) ℝ → (Fin N → ℝ) → (Fin N → ℝ) → Except Err (Fin N → ℝ)
  tol : ℝ
  relTol : ℝ
  adjointSolve : (n : Nat) → Matrix (Fin n) (Fin n) ℝ → (Fin n → ℝ) → Except Err (Fin n → ℝ)

/-- Boundary rows for the top displacement `disp` (`fe.py:131-181`); the lists of the scripts are readable, so that nothing is
raised. -/
noncomputable def bcsOf (points : List (Fin 3 → ℝ)) (disp : ℝ) : List (List (BCEntry ℝ)) :=
  match dirichletBC points (info disp) with
  | .ok b => [UserBC.entries b]
  | .error _ => []

/-- `problem.dt = dt` (`volume_sensitivity.py:93`, `stress_sensitivity.py:80`); `tensor_map` reads the attribute. -/
noncomputable def withDt (root : (M3 → M3) → M3) (dt : ℝ) (P : Problem1 Pt nq nfq nn 3 3) : Problem1 Pt nq nfq nn 3 3 :=
  { P with tensorMap := tensorMap root dt }

/-- Residual vector (`problem.py:462-475`) after `set_params`. -/
noncomputable def residualVec (root : (M3 → M3) → M3) (dt : ℝ) (P : Problem1 Pt nq nfq nn 3 3)
    (vars : Vars P.cells.length nq) (u : Fin (totalDofs P.fes) → ℝ) : Fin (totalDofs P.fes) → ℝ := fun k =>
  match (setVars (withDt root dt P) vars).residual (unravelSol (solShapes P.fes) (List.ofFn u)) with
  | .ok R => (ravelSol R).getD k 0
  | .error _ => 0

section

variable (root : (M3 → M3) → M3) (P : Problem1 Pt nq nfq nn 3 3)

/-- `ad_wrapper(problem)` of `stress_sensitivity.py:72`: the parameters are the internal variables, the boundary values are an
attribute (`stress_sensitivity.py:82-83`). The initial guess is zero. -/
noncomputable def Stress.setup (num : Numerics P.cells.length nq (totalDofs P.fes)) (z : Env) :
    Inverse.Setup (Vars P.cells.length nq) P.fes (totalDofs P.fes) where
  bcs := fun _ => bcsOf P.points z.disp
  res := residualVec root z.dt P
  tan := num.tan z.dt
  norm := FinitePlasticity.norm2
  solve := num.solve
  lineSearch := false
  tol := num.tol
  relTol := num.relTol
  guess := 0
  adjointSolve := num.adjointSolve

/-- `simulation` of `stress_sensitivity.py:74-112`; the value is `compute_avg_stress(sol, params)[0, 2, 2]`. -/
noncomputable def Stress.script (hc : 0 < P.cells.length) (num : Numerics P.cells.length nq (totalDofs P.fes)) :
    Script Env (Vars P.cells.length nq) (Vars P.cells.length nq) P.fes (totalDofs P.fes) where
  setup := Stress.setup root P num
  par := fun _ vars => vars
  update := fun z u vars => updateIntVarsGp root z.dt P (solOf P u) vars
  objective := fun z u vars => computeAvgStress root z.dt P (solOf P u) vars ⟨0, hc⟩ 2 2

/-- `params = list(initial_params); params[1] = alpha*initial_params[1]` (`stress_sensitivity.py:75-76`). -/
noncomputable def Stress.init (C : Nat) (alpha : ℝ) : Vars C nq := fun c q =>
  ((initVars (nq := nq) C c q).1, alpha • (initVars (nq := nq) C c q).2.1, (initVars (nq := nq) C c q).2.2)

/-- The steps of `stress_sensitivity.py:39-41`. -/
noncomputable def Stress.envs : List Env := steps 0.005 0.5 10

/-- `ad_wrapper(problem)` of `volume_sensitivity.py:87`: the parameters are the top displacement and the internal variables
(`volume_sensitivity.py:22-26`). -/
noncomputable def Volume.setup (num : Numerics P.cells.length nq (totalDofs P.fes)) (z : Env) :
    Inverse.Setup (ℝ × Vars P.cells.length nq) P.fes (totalDofs P.fes) where
  bcs := fun p => bcsOf P.points p.1
  res := fun p => residualVec root z.dt P p.2
  tan := fun p => num.tan z.dt p.2
  norm := FinitePlasticity.norm2
  solve := num.solve
  lineSearch := false
  tol := num.tol
  relTol := num.relTol
  guess := 0
  adjointSolve := num.adjointSolve

/-- `simulation` of `volume_sensitivity.py:89-103`; data are the argument `displacement_scale` and `params`. -/
noncomputable def Volume.script (num : Numerics P.cells.length nq (totalDofs P.fes)) :
    Script Env (ℝ × Vars P.cells.length nq) (ℝ × Vars P.cells.length nq) P.fes (totalDofs P.fes) where
  setup := Volume.setup root P num
  par := fun z b => (b.1 * z.disp, b.2)
  update := fun z u b => (b.1, updateIntVarsGp root z.dt P (solOf P u) b.2)
  objective := fun _ u _ => targetValue P (solOf P u)

/-- `params = initial_params` (`volume_sensitivity.py:90`). -/
noncomputable def Volume.init (C : Nat) (scale : ℝ) : ℝ × Vars C nq := (scale, initVars C)

/-- The steps of `volume_sensitivity.py:54-56`. -/
noncomputable def Volume.envs : List Env := steps 0.001 0.1 2

end

end JaxFem.Sensitivity
