import Verif.Model.Kernel
import Verif.Model.Elastic

/-!
# Topology optimisation

The problem class, the objective and the constraint of `docs/source/learn/topology_optimization/example.ipynb`
(code cells are counted from 1) and the material laws of `applications/outdated/top_opt/fem_model.py`.  The optimiser
(`jax_fem/mma.py`) is modelled in `Verif.Model.MMA` and `Verif.Model.Filter`, the differentiable solver in
`Verif.Model.AdWrapper` and `Verif.Model.Adjoint`.

`theta[0]**penal` with the floating-point exponents `3.` and `5.` is a power with a natural exponent here; the two
agree for `theta[0] ≥ 0`, which `optimize` guarantees (C47).
-/

namespace JaxFem

open scoped BigOperators

variable {IV : Type} {nq nfq nn vec dim : Nat}

/-- The problem after `self.internal_vars = [ivs]`: entry `(c, q)` of the array goes to quadrature point `q` of
cell `c` (`problem.py:367`, where `internal_vars` is zipped with the cells). -/
def Problem1.atIv (P : Problem1 IV nq nfq nn vec dim) (iv : Nat → Fin nq → IV) : Problem1 IV nq nfq nn vec dim :=
  { P with cells := P.cells.mapIdx fun c cell => { cell with iv := iv c } }

namespace TopOpt

/-- `E = Emin + (Emax - Emin)*theta[0]**penal` (notebook, cell 2; `fem_model.py:39`, `65`, `79`). -/
noncomputable def young (Emax Emin : ℝ) (penal : Nat) (theta : List ℝ) : ℝ :=
  Emin + (Emax - Emin) * theta.getD 0 0 ^ penal

/-- The plane-stress law (notebook, cell 2; `fem_model.py:40-50`). -/
noncomputable def planeStress (E nu : ℝ) (uGrad : Fin 2 → Fin 2 → ℝ) : Fin 2 → Fin 2 → ℝ :=
  let epsilon := fun i j => 0.5 * (uGrad i j + uGrad j i)
  let eps11 := epsilon 0 0
  let eps22 := epsilon 1 1
  let eps12 := epsilon 0 1
  let sig11 := E / (1 + nu) / (1 - nu) * (eps11 + nu * eps22)
  let sig22 := E / (1 + nu) / (1 - nu) * (nu * eps11 + eps22)
  let sig12 := E / (1 + nu) * eps12
  ![![sig11, sig12], ![sig12, sig22]]

/-- `stress` of the notebook (cell 2): `Emax = 70.e3`, `Emin = 1e-3*Emax`, `nu = 0.3`, `penal = 3.`.
`fem_model.py:29-52` is the same with `Emax = 70.e9` and `penal` 3 or 5. -/
noncomputable def stress (theta : List ℝ) (uGrad : Fin 2 → Fin 2 → ℝ) : Fin 2 → Fin 2 → ℝ :=
  let Emax := 70000
  let Emin := 0.001 * Emax
  planeStress (young Emax Emin 3 theta) 0.3 uGrad

/-- `get_tensor_map_freecad` and `get_tensor_map_box` (`fem_model.py:54-84`): `Emin = 70.`, `nu = 0.3`,
`penal = 3.`, `Emax = 70.e3` and `70.e9`. -/
noncomputable def solidStress (Emax : ℝ) (theta : List ℝ) (uGrad : Fin 3 → Fin 3 → ℝ) : Fin 3 → Fin 3 → ℝ :=
  Elastic.stress (young Emax 70 3 theta) 0.3 uGrad

/-- `E = Emin + theta1**penal*(theta2**penal*E1 + (1 - theta2**penal)*E2)` (`fem_model.py:93-97`). -/
noncomputable def young2 (Emin E1 E2 : ℝ) (penal : Nat) (theta : List ℝ) : ℝ :=
  let theta1 := theta.getD 0 0
  let theta2 := theta.getD 1 0
  Emin + theta1 ^ penal * (theta2 ^ penal * E1 + (1 - theta2 ^ penal) * E2)

/-- `get_tensor_map_multi_material` (`fem_model.py:86-104`). -/
noncomputable def multiMaterialStress (theta : List ℝ) (uGrad : Fin 3 → Fin 3 → ℝ) : Fin 3 → Fin 3 → ℝ :=
  let Emax := 70000
  let Emin := 70
  Elastic.stress (young2 Emin Emax (0.2 * Emax) 3 theta) 0.3 uGrad

/-- `surface_map` (notebook, cell 2): `np.array([0., 100.])`. -/
def surfaceMap : List ℝ → (Fin 2 → ℝ) → (Fin 2 → ℝ) → Fin 2 → ℝ := fun _ _ _ => ![0, 100]

/-- `full_params` in `set_params` (notebook, cell 2): rows of ones, `.at[flex_inds].set(params)`.  Indices out of
range are dropped by JAX. -/
def fullParams (numCells : Nat) (flexInds : List Nat) (params : List (List ℝ)) : List (List ℝ) :=
  let k := (params.getD 0 []).length
  (flexInds.zip params).foldl (fun full p => full.set p.1 p.2) (List.replicate numCells (List.replicate k 1))

/-- `thetas = np.repeat(full_params[:, None, :], num_quads, axis=1)` in `set_params` (notebook, cell 2): every
quadrature point of a cell gets the cell's row. -/
def thetas (numCells : Nat) (flexInds : List Nat) (params : List (List ℝ)) : Nat → Fin nq → List ℝ :=
  fun c _ => (fullParams numCells flexInds params).getD c []

/-- `set_params` (notebook, cell 2). -/
def setParams (P : Problem1 (List ℝ) nq nfq nn vec dim) (flexInds : List Nat) (params : List (List ℝ)) :
    Problem1 (List ℝ) nq nfq nn vec dim :=
  P.atIv (thetas P.cells.length flexInds params)

/-- `compute_compliance` (notebook, cell 2): the integral of `-surface_map(u, x) · u` over the first boundary
subset.  Without any, `self.boundary_inds_list[0]` raises `IndexError`. -/
noncomputable def computeCompliance (P : Problem1 IV nq nfq nn vec dim) (sol : List (List ℝ)) : Except Err ℝ :=
  match P.surfaces with
  | [] => .error .index
  | s :: _ => .ok (s.faces.map fun f =>
      let u := convertFromDofToFaceQuad P.fc vec sol P.conn (f.cell, f.face)
      let d := faceData P.fc P.points P.conn (f.cell, f.face) f.iv
      let traction := fun q i => -s.map (f.iv q) (u q) (d.quadPoints q) i
      ∑ q, ∑ i, traction q i * u q i * d.nanson q).sum

/-- `computeGlobalVolumeConstraint` (notebook, cell 7): `np.mean(rho)/vf - 1.`. -/
noncomputable def volumeConstraint {n : Nat} (vf : ℝ) (rho : Fin n → ℝ) : ℝ := (∑ i, rho i) / n / vf - 1

end TopOpt

end JaxFem
