import Verif.Model.PlasticDrivers
import Verif.Model.UserBC
import Verif.Model.Kernel

/-!
# Poisson's equation with a nonlinear Robin condition

`applications/robin_bc/example.py`: a user-written cell kernel and two user-written surface kernels.

Simplifications: exact real arithmetic; mesh and element tables are parameters (the script reads the mesh from files); solution and
output are left out. `transform_cells` (`stokes/example.py:137-167`) is in `Model/MeshTools`.
-/

namespace JaxFem.Robin

open FinitePlasticity (isclose)

variable {nq nfq nn : Nat}

/-- `body_val` (`example.py:36-38`). -/
noncomputable def bodyVal (x : Fin 2 → ℝ) : ℝ :=
  let dx := x 0 - 0.5
  let dy := x 1 - 0.5
  x 0 * Real.sin (5 * Real.pi * x 1) + 1 * Real.exp (-(dx * dx + dy * dy) / 0.02)

/-- `universal_kernel` (`example.py:22-52`); for one variable `cell_shape_grads[:, :num_nodes, :]` is the whole array. -/
noncomputable def universalKernel (el : RefElement ℝ nq nn 2) (x : List ℝ) (d : CellData ℝ Unit nq nn 2) : List ℝ :=
  let sol := cellSol nn 1 x
  let uGrads : Fin nq → Fin 1 → Fin 2 → ℝ := fun q i j => ∑ a, sol a i * d.shapeGrads q a j
  let val : Fin nn → Fin 1 → ℝ := fun a i => ∑ q, ∑ j, uGrads q i j * d.vGradsJxW q a j
  let body : Fin nn → Fin 1 → ℝ := fun a _ => ∑ q, bodyVal (d.quadPoints q) * el.shapeVals q a * d.JxW q
  ravel2 fun a i => val a i - body a i

/-- `robin_map` (`example.py:65-66`). -/
noncomputable def robinMap (u : Fin 1 → ℝ) : Fin 1 → ℝ := fun i => 5 * u i ^ 2

/-- `robin_kernel` (`example.py:68-87`). -/
noncomputable def robinKernel (x : List ℝ) (d : FaceData ℝ Unit nfq nn 2) : List ℝ :=
  let sol := cellSol nn 1 x
  let u : Fin nfq → Fin 1 → ℝ := fun q i => ∑ a, sol a i * d.shapeVals q a
  let uPhysics := fun q => robinMap (u q)
  ravel2 fun (a : Fin nn) (i : Fin 1) => ∑ q, uPhysics q i * d.shapeVals q a * d.nanson q

/-- `left` (`example.py:104-105`). -/
noncomputable def left : LocFn (Fin 2 → ℝ) := .one fun p => decide (isclose (p 0) 0)

/-- `right` (`example.py:107-108`). -/
noncomputable def right : LocFn (Fin 2 → ℝ) := .one fun p => decide (isclose (p 0) 1)

/-- `bottom` (`example.py:110-111`). -/
noncomputable def bottom : LocFn (Fin 2 → ℝ) := .one fun p => decide (isclose (p 1) 0)

/-- `top` (`example.py:113-114`). -/
noncomputable def top : LocFn (Fin 2 → ℝ) := .one fun p => decide (isclose (p 1) 1)

/-- `dirichlet_bc_info` (`example.py:116-121`). -/
noncomputable def info : UserBC.Info (Fin 2 → ℝ) ℝ := some ([bottom, top], List.replicate 2 0, [fun _ => 1, fun _ => 1])

/-- `boundary_inds_list` for `location_fns = [left, right]` (`example.py:123-126`, `problem.py:80`). -/
noncomputable def faces (points : List (Fin 2 → ℝ)) (cells faceInds : List (List Nat)) : Except Err (List (List (Nat × Nat))) :=
  boundaryInds points cells faceInds (some [left, right])

/-- `compute_residual` (`problem.py:462-475`) with the kernels of the class (`problem.py:270-330`), for the selected faces `bs`. -/
noncomputable def residual (points : List (Fin 2 → ℝ)) (cells : List (List Nat)) (el : RefElement ℝ nq nn 2)
    (fc : RefFaces ℝ nfq nn 2) (bs : List (List (Nat × Nat))) (sols : List (List (List ℝ))) : Except Err (List (List (List ℝ))) :=
  computeResidual [⟨points.length, 1, nn, cells⟩] bs (universalKernel el)
    (cells.map fun c => cellData el points c fun _ => ()) [robinKernel, robinKernel]
    (bs.map fun b => b.map fun f => faceData fc points cells f fun _ => ()) sols

/-- The class with the commented-out `get_surface_maps` (`example.py:56-62`); the identity as `get_tensor_map` and `-body_val` as
`get_mass_map` are not in the script, they are what the cell kernel would be written as with the library's kernels. -/
noncomputable def alternative (points : List (Fin 2 → ℝ)) (cells : List (List Nat)) (el : RefElement ℝ nq nn 2)
    (fc : RefFaces ℝ nfq nn 2) (bs : List (List (Nat × Nat))) : Problem1 Unit nq nfq nn 1 2 where
  numTotalNodes := points.length
  points := points
  cells := cells.map fun c => ⟨c, fun _ => ()⟩
  el := el
  fc := fc
  tensorMap := fun _ g => g
  massMap := some fun _ _ x _ => -bodyVal x
  surfaces := bs.map fun b => ⟨fun _ u _ i => 5 * u i ^ 2, b.map fun f => ⟨f.1, f.2, fun _ => ()⟩⟩

end JaxFem.Robin
