import Verif.Model.Inverse
import Verif.Model.Plasticity

/-!
# Structure and material co-design

`docs/source/learn/structure_material_co_design/example.ipynb` (code cells are counted from 1): elastic-plastic structure
loaded in several steps, two design variables per cell (density and yield stress), reverse-mode derivative of the
compliance after the last step.

A body parameter array of `C` cells with `nq` quadrature points is a function; the internal variables of a cell and of a
face are one type here, the cells use the first component and the faces the second.  `theta1**3.` is a power with a
natural exponent (equal for `theta1 ≥ 0`).  `jax.grad` is the chain rule through the loop of `fwd_pred_seq`, every
`fwd_pred` being differentiated by `implicit_vjp`; exact real arithmetic.
-/

namespace JaxFem.CoDesign

open scoped BigOperators

abbrev Tensor := Fin 3 → Fin 3 → ℝ

/-- `sigma_old, epsilon_old, f_yield_old, theta1, theta2` at one quadrature point. -/
abbrev Body := Tensor × Tensor × ℝ × ℝ × ℝ

/-! ### Material (cell 4) -/

/-- `E = Emin + (Emax - Emin)*theta1**penal`. -/
noncomputable def young (theta1 : ℝ) : ℝ :=
  let Emax := 70000
  let Emin := 70
  Emin + (Emax - Emin) * theta1 ^ 3

/-- `sig0 = 250. + theta2*100`. -/
noncomputable def yieldStress (theta2 : ℝ) : ℝ := 250 + theta2 * 100

/-- `stress_return_map_helper`: stress and yield function. The maps `strain`, `stress`, `safe_sqrt`, `safe_divide` and the
return mapping are those of the plasticity benchmark with `nu = 0.3`. `f_yield_old` is not used. -/
noncomputable def returnMapHelper (uGrad : Tensor) (b : Body) : Tensor × ℝ :=
  let E := young b.2.2.2.1
  let sig0 := yieldStress b.2.2.2.2
  let sigmaTrial := Plasticity.sigmaTrial E 0.3 uGrad b.1 b.2.1
  let sDev := Plasticity.sDev sigmaTrial
  let sNorm := Plasticity.sNorm sDev
  let fYield := sNorm - sig0
  (Plasticity.radialReturn sig0 sigmaTrial, fYield)

/-- `update_stress_strain` (cell 5) at one quadrature point: everything is computed from the old values. -/
noncomputable def updatePoint (uGrad : Tensor) (b : Body) : Body :=
  ((returnMapHelper uGrad b).1, Plasticity.strain uGrad, (returnMapHelper uGrad b).2, b.2.2.2)

/-! ### Problem (cells 2-9) -/

variable {nq nfq nn : Nat}

/-- The class `Plasticity`: `get_surface_maps` (cell 3) and `get_tensor_map` (cell 4); the internal variables before the
first `set_params` are zero here. -/
noncomputable def problem (numTotalNodes : Nat) (points : List (Fin 3 → ℝ)) (cells : List (List Nat))
    (el : RefElement ℝ nq nn 3) (fc : RefFaces ℝ nfq nn 3) (faces : List (Nat × Nat)) :
    Problem1 (Body × ℝ) nq nfq nn 3 3 where
  numTotalNodes := numTotalNodes
  points := points
  cells := cells.map fun c => ⟨c, fun _ => 0⟩
  el := el
  fc := fc
  tensorMap := fun iv uGrad => (returnMapHelper uGrad iv.1).1
  massMap := none
  surfaces := [⟨fun iv _ _ => ![0, iv.2, 0], faces.map fun f => ⟨f.1, f.2, fun _ => 0⟩⟩]

/-- `set_params` (cell 6) with a surface array `load_value*np.ones(...)` (cell 14). -/
def setParams (P : Problem1 (Body × ℝ) nq nfq nn 3 3) (body : Fin P.cells.length → Fin nq → Body) (load : ℝ) :
    Problem1 (Body × ℝ) nq nfq nn 3 3 :=
  { P.atIv fun c q => (if h : c < P.cells.length then body ⟨c, h⟩ q else 0, 0) with
    surfaces := P.surfaces.map fun s => { s with faces := s.faces.map fun f => { f with iv := fun _ => (0, load) } } }

/-- `init_params` (cell 7) with `flex_inds = np.arange(num_cells)` (cell 2): zero stress, strain and yield function, the
row of `theta` at every quadrature point of the cell. -/
def initParams {C : Nat} (theta : Fin C → Fin 2 → ℝ) : Fin C → Fin nq → Body :=
  fun c _ => (0, 0, 0, theta c 0, theta c 1)

/-- `update_stress_strain` (cell 5). -/
noncomputable def updateStressStrain (P : Problem1 (Body × ℝ) nq nfq nn 3 3) (sol : List (List ℝ))
    (body : Fin P.cells.length → Fin nq → Body) : Fin P.cells.length → Fin nq → Body :=
  fun c q => updatePoint (solToGrad P.el 3 P.points sol (P.cells[c]).nodes q) (body c q)

/-- `inspect` (cell 8): mean over the quadrature points of `internal_vars[2]`. -/
noncomputable def inspect {C : Nat} (internalVars : Fin C → Fin nq → Body) (c : Fin C) : ℝ :=
  (∑ q, (internalVars c q).2.2.1) / nq

/-- `compute_compliance(load_value, sol)` (cell 9): integral of `-surface_map(u, x, load_value) · u` over the first
boundary subset. -/
noncomputable def computeCompliance (P : Problem1 (Body × ℝ) nq nfq nn 3 3) (load : ℝ) (sol : List (List ℝ)) :
    Except Err ℝ :=
  match P.surfaces with
  | [] => .error .index
  | s :: _ => .ok (s.faces.map fun f =>
      let u := convertFromDofToFaceQuad P.fc 3 sol P.conn (f.cell, f.face)
      let d := faceData P.fc P.points P.conn (f.cell, f.face) f.iv
      let traction := fun q i => -s.map (0, load) (u q) (d.quadPoints q) i
      ∑ q, ∑ i, traction q i * u q i * d.nanson q).sum

/-- `computeGlobalVolumeConstraint` (cell 18). -/
noncomputable def constraints {C : Nat} (vf vy : ℝ) (rho : Fin C → Fin 2 → ℝ) : Fin 2 → ℝ :=
  ![(∑ c, rho c 0) / C / vf - 1, (∑ c, rho c 1) / C / vy - 1]

/-! ### Load steps (cells 14, 15) -/

/-- `rs[i]*max_load` with `rs = np.linspace(0.2, 1., 5)`, `max_load = 4e2`. -/
noncomputable def loads : List ℝ := (List.range 5).map fun i => (0.2 + i * ((1 - 0.2) / (5 - 1))) * 400

variable {E B T Θ : Type} {fes : List FE} {N : Nat}

/-- The loop of `fwd_pred_seq` (cell 14): all solutions, from the first step to the last.  `par b t` are the parameters
`[body_params, surface_params]`, the previous solution is the initial guess, `update` is `update_stress_strain`. -/
noncomputable def fwdPredSeq (S : Inverse.Setup E fes N) (par : B → T → E) (update : (Fin N → ℝ) → B → B) (fuel : Nat) :
    List T → (Fin N → ℝ) → B → Option (Except Err (List (Fin N → ℝ)))
  | [], _, _ => some (.ok [])
  | t :: ts, guess, b =>
    match ({ S with guess := guess } : Inverse.Setup E fes N).fwdPred fuel (par b t) with
    | none => none
    | some (.error e) => some (.error e)
    | some (.ok u) => (fwdPredSeq S par update fuel ts u (update u b)).map fun r => r.map fun us => u :: us

/-- The body parameters that the steps leave behind (cell 14). -/
def bodyAfter (update : (Fin N → ℝ) → B → B) (us : List (Fin N → ℝ)) (b : B) : B := us.foldl (fun b u => update u b) b

/-- `self.internal_vars` after the loop (cells 6, 14): `set_params` of the last step, whose body parameters are those
before the last update. -/
def internalVarsAfter (update : (Fin N → ℝ) → B → B) (us : List (Fin N → ℝ)) (b : B) : B :=
  bodyAfter update us.dropLast b

variable [NormedAddCommGroup E] [NormedSpace ℝ E] [NormedAddCommGroup B] [NormedSpace ℝ B] [NormedAddCommGroup Θ]
  [NormedSpace ℝ Θ]

/-- Reverse sweep over the loop: cotangents of the solution that enters a step (as initial guess, through
`jax.lax.stop_gradient`, hence zero) and of the body parameters that enter it.  After the last step the objective `f` of
the last solution is differentiated. -/
noncomputable def sweep (S : Inverse.Setup E fes N) (par : B → T → E) (update : (Fin N → ℝ) → B → B)
    (f : (Fin N → ℝ) → ℝ) :
    List T → List (Fin N → ℝ) → (Fin N → ℝ) → B → Except Err (((Fin N → ℝ) →L[ℝ] ℝ) × (B →L[ℝ] ℝ))
  | t :: ts, u :: us, _, b => do
    let bars ← sweep S par update f ts us u (update u b)
    let D := fderiv ℝ (fun x : (Fin N → ℝ) × B => update x.1 x.2) (u, b)
    let solBar := bars.1 + bars.2.comp (D.comp (ContinuousLinearMap.inl ℝ _ _))
    let g ← implicitVjp fes S.bcs S.res S.tan none S.adjointSolve u (par b t) fun k => solBar (Pi.single k 1)
    pure (0, bars.2.comp (D.comp (ContinuousLinearMap.inr ℝ _ _)) + g.comp (fderiv ℝ (fun b => par b t) b))
  | _, _, uPrev, _ => pure (fderiv ℝ f uPrev, 0)

/-- `J_total(theta)` (cell 15): `none` if a Newton loop does not end, an exception if a solve fails; `fwd_pred_seq`
returns the last solution. -/
noncomputable def objective (S : Inverse.Setup E fes N) (par : B → T → E) (update : (Fin N → ℝ) → B → B)
    (init : Θ → B) (f : (Fin N → ℝ) → ℝ) (fuel : Nat) (ts : List T) (guess : Fin N → ℝ) (theta : Θ) :
    Option (Except Err ℝ) :=
  (fwdPredSeq S par update fuel ts guess (init theta)).map fun r => r.map fun us => f (us.getLastD guess)

/-- `jax.grad(J_total)(theta)` (cells 17, 18). -/
noncomputable def grad (S : Inverse.Setup E fes N) (par : B → T → E) (update : (Fin N → ℝ) → B → B)
    (init : Θ → B) (f : (Fin N → ℝ) → ℝ) (fuel : Nat) (ts : List T) (guess : Fin N → ℝ) (theta : Θ) :
    Option (Except Err (Θ →L[ℝ] ℝ)) :=
  (fwdPredSeq S par update fuel ts guess (init theta)).map fun r => r.bind fun us => do
    let bars ← sweep S par update f ts us guess (init theta)
    pure (bars.2.comp (fderiv ℝ init theta))

end JaxFem.CoDesign
