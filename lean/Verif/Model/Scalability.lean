import Verif.Model.Hyper
import Verif.Model.StructMesh
import Verif.Model.PlasticDrivers
import Verif.Model.UserBC

/-!
# The scalability example

`applications/scalability/hyperelastic3d_common.py:9-141`, `example_forward.py:24-29`, `example_inverse_timing.py:30-53`: two
neo-Hookean problems on a cube, one of them with a density that scales the modulus.

Simplifications: exact real arithmetic; the element tables and the faces of the reference cell are parameters; the densities come as
one list entry per cell (the code has an array of shape `(num_cells, num_quads)`; with another number of cells `vmap` raises, here
the shorter list decides); output and timing are left out. Energies and stresses are those of `Model/Hyper`.
-/

namespace JaxFem.Scalability

variable {nq nfq nn : Nat}

/-- `surface_map` of both classes (`hyperelastic3d_common.py:38-40`, `73-75`) with `T_LATERAL = 1.0e-3`. -/
noncomputable def surfaceMap : Fin 3 → ℝ := ![0, 1 / 1000, 0]

/-- `left` (`hyperelastic3d_common.py:84-85`). -/
noncomputable def left : LocFn (Fin 3 → ℝ) := .one fun p => decide (FinitePlasticity.isclose (p 0) 0)

/-- `right` (`hyperelastic3d_common.py:87-88`) with `Lx = 1.0`. -/
noncomputable def right : LocFn (Fin 3 → ℝ) := .one fun p => decide (FinitePlasticity.isclose (p 0) 1)

/-- `_y_max` (`hyperelastic3d_common.py:106-107`) with `Ly = 1.0`. -/
noncomputable def yMax : LocFn (Fin 3 → ℝ) := .one fun p => decide (FinitePlasticity.isclose (p 1) 1)

/-- `_uniaxial_dirichlet_bc_info` (`hyperelastic3d_common.py:83-103`) with `STRETCH = 0.02`. -/
noncomputable def info : UserBC.Info (Fin 3 → ℝ) ℝ :=
  some ([left, left, left, right, right, right], [0, 1, 2, 0, 1, 2],
    [fun _ => 0, fun _ => 0, fun _ => 0, fun _ => 2 / 100, fun _ => 0, fun _ => 0])

/-- `HyperElasticityClassic` (`hyperelastic3d_common.py:15-42`) with `E_BASE = 10.0`, `nu = 0.3`. -/
noncomputable def classic (points : List (Fin 3 → ℝ)) (cells : List (List Nat)) (el : RefElement ℝ nq nn 3)
    (fc : RefFaces ℝ nfq nn 3) (inds : List (Nat × Nat)) : Problem1 Unit nq nfq nn 3 3 where
  numTotalNodes := points.length
  points := points
  cells := cells.map fun c => ⟨c, fun _ => ()⟩
  el := el
  fc := fc
  tensorMap := fun _ => Hyper.firstPK (Hyper.psi 3 (Hyper.muOf 10 0.3) (Hyper.kappaOf 10 0.3))
  massMap := none
  surfaces := [⟨fun _ _ _ => surfaceMap, inds.map fun a => ⟨a.1, a.2, fun _ => ()⟩⟩]

/-- `HyperElasticityInverse` (`hyperelastic3d_common.py:45-80`) after `set_params(rho)`: the densities are the internal variables of
the cells; the surface map has none. -/
noncomputable def inverse (points : List (Fin 3 → ℝ)) (cells : List (List Nat)) (el : RefElement ℝ nq nn 3)
    (fc : RefFaces ℝ nfq nn 3) (inds : List (Nat × Nat)) (rho : List (Fin nq → ℝ)) : Problem1 ℝ nq nfq nn 3 3 where
  numTotalNodes := points.length
  points := points
  cells := (cells.zip rho).map fun cr => ⟨cr.1, cr.2⟩
  el := el
  fc := fc
  tensorMap := fun r => Hyper.firstPK (Hyper.psiInverse 10 0.3 r)
  massMap := none
  surfaces := [⟨fun _ _ _ => surfaceMap, inds.map fun a => ⟨a.1, a.2, fun _ => 0⟩⟩]

/-- Mesh, boundary entries and loaded faces of `build_hyperelastic3d_problem_classic` and `build_hyperelastic3d_problem_inverse`
(`hyperelastic3d_common.py:110-124`, `127-141`) with `Lx = Ly = Lz = 1.0`. -/
noncomputable def build (Nx Ny Nz : Nat) (faceInds : List (List Nat)) :
    Except Err ((List (Fin 3 → ℝ) × List (List Nat)) × List (BCEntry ℝ) × List (Nat × Nat)) :=
  let mesh := boxMesh Nx Ny Nz (1 : ℝ) 1 1
  match dirichletBC mesh.1 info with
  | .error e => .error e
  | .ok b =>
    match boundaryInds mesh.1 mesh.2 faceInds (some [yMax]) with
    | .error e => .error e
    | .ok bs => .ok (mesh, UserBC.entries b, bs.headD [])

/-- `rho = RHO * np.ones((fe.num_cells, fe.num_quads))` (`example_inverse_timing.py:32`) with `RHO = 0.5`. -/
noncomputable def rhoHalf (cells : List (List Nat)) : List (Fin nq → ℝ) := cells.map fun _ _ => 1 / 2 * 1

/-- `objective` (`example_inverse_timing.py:51-53`) of the solution. -/
def objective (sol : List (List ℝ)) : ℝ := (sol.map fun row => (row.map fun x => x ^ 2).sum).sum

end JaxFem.Scalability
