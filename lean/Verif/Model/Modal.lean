import Verif.Model.TopOpt
import Verif.Model.BC
import Mathlib.Analysis.Calculus.FDeriv.Basic
import Mathlib.Analysis.SpecialFunctions.Log.Basic

/-!
# Topology optimisation with a constraint on the eigenfrequencies

`applications/outdated/top_opt/eigen.py`: the stiffness and mass problems, the eigenvalue analysis with the
sensitivities of the eigenvalues, and the two constraints handed to the optimiser.  The script is written against an
older interface (`FEM` instead of `Problem`, `jax_fem.core`, `get_A_fn(problem, use_petsc)`); the parts of the library
that it uses are modelled by their present counterparts.

The eigensolver (SLEPc, shift and invert around `10`) is not modelled: what it returns is an input, and the theorems
state what they assume about it.  The derivatives of `jax.grad` are Fréchet derivatives.  `theta[0]**penal` is a power
with a natural exponent as in `Verif.Model.TopOpt`.
-/

namespace JaxFem.Modal

open scoped BigOperators

variable {nq nfq nn N : Nat}

/-- `stress` of `Stiffness` (`eigen.py:28-46`): `Emax = 70.e9`, `Emin = 1e-3*Emax`, `nu = 0.3`, `penal = 5.`. -/
noncomputable def stress (theta : List ℝ) (uGrad : Fin 2 → Fin 2 → ℝ) : Fin 2 → Fin 2 → ℝ :=
  let Emax := 70000000000
  let Emin := 0.001 * Emax
  TopOpt.planeStress (TopOpt.young Emax Emin 5 theta) 0.3 uGrad

/-- `mass_map` of `Mass` (`eigen.py:55-58`): `theta[0]*density*u` with `density = 2.7e3`. -/
noncomputable def massMap (theta : List ℝ) (u _x : Fin 2 → ℝ) : Fin 2 → ℝ :=
  fun i => theta.getD 0 0 * 2700 * u i

/-- `problem_K` (`eigen.py:100`) on the mesh of `B`: no boundary conditions, no loads. -/
noncomputable def problemK (B : Problem1 (List ℝ) nq nfq nn 2 2) : Problem1 (List ℝ) nq nfq nn 2 2 :=
  { B with tensorMap := stress, massMap := none, surfaces := [] }

/-- `problem_M` (`eigen.py:101`) on the mesh of `B`.  `Mass` has no `get_tensor_map`, so that no such term is
assembled; here it is zero. -/
noncomputable def problemM (B : Problem1 (List ℝ) nq nfq nn 2 2) : Problem1 (List ℝ) nq nfq nn 2 2 :=
  { B with tensorMap := fun _ _ _ _ => 0, massMap := some massMap, surfaces := [] }

/-- `set_params` of both classes (`eigen.py:48-50`, `60-62`): `np.repeat(params[:, None, :], num_quads, axis=1)`. -/
def setParams (P : Problem1 (List ℝ) nq nfq nn 2 2) (params : List (List ℝ)) : Problem1 (List ℝ) nq nfq nn 2 2 :=
  P.atIv fun c _ => params.getD c []

/-- The flattened residual (`get_flatten_fn(problem.compute_residual, problem)`, `solver.py:369-376`) after
`set_params`, as a function of the vector of degrees of freedom. -/
noncomputable def residual (P : Problem1 (List ℝ) nq nfq nn 2 2) (params : List (List ℝ)) (v : Fin N → ℝ) :
    Fin N → ℝ := fun k =>
  match (setParams P params).residual (unravelSol (solShapes P.fes) (List.ofFn v)) with
  | .ok R => (ravelSol R).getD k 0
  | .error _ => 0

/-- `vAv_fn` (`eigen.py:107-114`): `np.sum(v*res_fn(v.reshape(-1)))`, where `res_fn` is the flattened residual after
`apply_bc` with `dirichlet_bc_info=None` (one variable without entries). -/
noncomputable def vAv (P : Problem1 (List ℝ) nq nfq nn 2 2) (params : List (List ℝ))
    (v : Fin N → ℝ) : ℝ :=
  ∑ k, v k * applyBcV P.fes [[]] 1 (residual P params v) v k

/-- Design variables as an array of shape `(num_cells, 1)`. -/
def column {n : Nat} (rho : Fin n → ℝ) : List (List ℝ) := List.ofFn fun i => [rho i]

/-- `d_eigen_val = (jax.grad(vKv_fn)(params, eigen_vec) - eigen_val*jax.grad(vMv_fn)(params, eigen_vec))`
`/vMv_fn(params, eigen_vec)` (`eigen.py:185`). -/
noncomputable def dEigenVal {n : Nat} (PK PM : Problem1 (List ℝ) nq nfq nn 2 2) (rho : Fin n → ℝ) (eigenVal : ℝ)
    (v : Fin N → ℝ) : (Fin n → ℝ) →L[ℝ] ℝ :=
  (1 / vAv PM (column rho) v) • (fderiv ℝ (fun r => vAv PK (column r) v) rho
    - eigenVal • fderiv ℝ (fun r => vAv PM (column r) v) rho)

/-- The loop of `eigen_analysis` (`eigen.py:160-195`) over what the eigensolver returned: `nconv` converged pairs,
pair `i` being `pair i`.  `getEigenpair(i)` raises for `i ≥ nconv`; without any pair the lists stay empty and
`np.stack` raises.  Only the pairs 3, 4 and 5 are kept. -/
noncomputable def eigenAnalysis {n : Nat} (B : Problem1 (List ℝ) nq nfq nn 2 2) (rho : Fin n → ℝ) (nconv : Nat)
    (pair : Nat → ℝ × (Fin N → ℝ)) : Except Err (List ℝ × List ((Fin n → ℝ) →L[ℝ] ℝ)) :=
  let nRequested := 10
  if nconv = 0 then .error .value
  else if nconv < nRequested then .error .runtime
  else
    let kept := (List.range nRequested).filter fun i => decide (i > 2 ∧ i < 6)
    .ok (kept.map fun i => (pair i).1,
      kept.map fun i => dEigenVal (problemK B) (problemM B) rho (pair i).1 (pair i).2)

/-- `min_eigen_vals_cstr` (`eigen.py:247-250`): `g2 = -1./alpha*logsumexp(-alpha*eigen_vals)`, `1. - g2/min_freq`. -/
noncomputable def minEigenValsCstr (alpha minFreq : ℝ) {m : Nat} (eigenVals : Fin m → ℝ) : ℝ :=
  let g2 := -1 / alpha * Real.log (∑ i, Real.exp (-alpha * eigenVals i))
  1 - g2 / minFreq

/-- `gradc2` (`eigen.py:259`): `np.einsum('ij,jkl->ikl', grad(min_eigen_vals_cstr)(eigen_vals)[None, :], d_eigen_vals)`. -/
noncomputable def gradC2 {n : Nat} (alpha minFreq : ℝ) {m : Nat} (eigenVals : Fin m → ℝ)
    (dEigenVals : Fin m → (Fin n → ℝ) →L[ℝ] ℝ) : (Fin n → ℝ) →L[ℝ] ℝ :=
  ∑ j, fderiv ℝ (minEigenValsCstr alpha minFreq) eigenVals (Pi.single j 1) • dEigenVals j

/-- `computeConstraints` (`eigen.py:239-265`): the volume constraint and the eigenvalue constraint with their
gradients; `vf = 0.5`, `min_freq = 1e6`, `alpha = 10.`. -/
noncomputable def computeConstraints {n : Nat} (B : Problem1 (List ℝ) nq nfq nn 2 2) (rho : Fin n → ℝ) (nconv : Nat)
    (pair : Nat → ℝ × (Fin N → ℝ)) : Except Err (List (ℝ × ((Fin n → ℝ) →L[ℝ] ℝ))) :=
  match eigenAnalysis B rho nconv pair with
  | .error e => .error e
  | .ok (vals, grads) =>
    let c1 := (TopOpt.volumeConstraint 0.5 rho, fderiv ℝ (TopOpt.volumeConstraint 0.5) rho)
    let l := fun i : Fin vals.length => vals[i]
    let c2 := (minEigenValsCstr 10 1000000 l, gradC2 10 1000000 l fun i => grads.getD i 0)
    .ok [c1, c2]

end JaxFem.Modal
