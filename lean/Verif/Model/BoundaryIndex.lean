import Verif.Model.PlasticDrivers
import Verif.Model.UserBC
import Verif.Model.Elements
import Verif.Model.StructMesh

/-!
# Boundaries given by points or by node numbers

`applications/boundary_index/example.py`: a rectangle mesh with four location functions, two of which look at the node number.

Simplifications: exact real arithmetic; the numbers of cells and the sets of node numbers are parameters (`script` has the script's
values); only what the script prints is modelled (the script does not solve the problem).
-/

namespace JaxFem.BoundaryIndex

open FinitePlasticity (isclose)

/-- `mesh` (`example.py:27-31`), of `Nx` by `Ny` cells: points and cells. -/
noncomputable def mesh (Nx Ny : Nat) : List (Fin 2 → ℝ) × List (List Nat) := rectangleMesh Nx Ny 1 1

/-- `left` (`example.py:58-62`). -/
noncomputable def left : LocFn (Fin 2 → ℝ) := .one fun p => decide (isclose (p 0) 0)

/-- `right` (`example.py:64-68`) with `ind_set_right`. -/
def right (indSet : List Nat) : LocFn (Fin 2 → ℝ) := .two fun _ ind => indSet.contains ind

/-- `bottom` (`example.py:70-71`). -/
noncomputable def bottom : LocFn (Fin 2 → ℝ) := .one fun p => decide (isclose (p 1) 0)

/-- `top` (`example.py:73-74`) with `ind_set_top`. -/
def top (indSet : List Nat) : LocFn (Fin 2 → ℝ) := .two fun _ ind => indSet.contains ind

/-- `dirichlet_bc_info` (`example.py:76-85`). -/
noncomputable def info (indSet : List Nat) : UserBC.Info (Fin 2 → ℝ) ℝ :=
  some ([left, right indSet], [0, 0], [fun _ => 0, fun _ => 0])

/-- `problem.fes[0].node_inds_list` (`example.py:91`, `fe.py:220-258`). -/
noncomputable def nodeIndsList (Nx Ny : Nat) (indSet : List Nat) : Except Err (List (List Nat)) :=
  (dirichletBC (mesh Nx Ny).1 (info indSet)).map fun b => b.1

/-- `problem.boundary_inds_list` (`example.py:94`, `problem.py:80`, `fe.py:271-322`) for `location_fns2`. -/
noncomputable def boundaryIndsList (Nx Ny : Nat) (indSet : List Nat) : Except Err (List (List (Nat × Nat))) := do
  let e ← getElements "QUAD4"
  let faceInds ← elementFaceInds e
  boundaryInds (mesh Nx Ny).1 (mesh Nx Ny).2 faceInds (some [bottom, top indSet])

/-- The two printed lists (`example.py:30`, `53-54`, `89-96`). -/
noncomputable def script : Except Err (List (List Nat) × List (List (Nat × Nat))) := do
  let nodes ← nodeIndsList 2 2 [6, 7, 8]
  let faces ← boundaryIndsList 2 2 [2, 5, 8]
  pure (nodes, faces)

end JaxFem.BoundaryIndex
