import Verif.Model.Inverse
import Verif.Model.Hyper

/-!
# Traction force identification

`docs/source/learn/traction_force_identification/example.ipynb` (code cells are counted from 1): a neo-Hookean plate, the
design variable is the traction on the top faces, given at their quadrature points.  `compute_l2_error`, `J`, `jax.grad` and
the finite differences (cells 8 and 9) are those of `Inverse`.

Exact real arithmetic; the mesh of cell 3 and the location functions of cell 4 enter as data.
-/

namespace JaxFem.Traction

open scoped BigOperators

variable {nq nfq nn : Nat}

/-- `psi` (cell 2) with `E = 1e6` and `nu = 0.3`. -/
noncomputable def energy (F : Fin 3 → Fin 3 → ℝ) : ℝ :=
  Hyper.psi 3 (Hyper.muOf (10 ^ 6) (3 / 10)) (Hyper.kappaOf (10 ^ 6) (3 / 10)) F

/-- `surface_map` (cell 2). -/
def surfaceMap (loadValue : ℝ) (_u _x : Fin 3 → ℝ) : Fin 3 → ℝ := ![0, -loadValue, 0]

/-- The class `HyperElasticity` (cell 2) on a mesh; `faces` are the selected pairs of cell and local face
(`boundary_inds_list[0]`).  Before `set_params` the loads are zero here; there are no internal variables in the cells. -/
noncomputable def problem (numTotalNodes : Nat) (points : List (Fin 3 → ℝ)) (cells : List (List Nat))
    (el : RefElement ℝ nq nn 3) (fc : RefFaces ℝ nfq nn 3) (faces : List (Nat × Nat)) : Problem1 ℝ nq nfq nn 3 3 where
  numTotalNodes := numTotalNodes
  points := points
  cells := cells.map fun c => ⟨c, fun _ => 0⟩
  el := el
  fc := fc
  tensorMap := fun _ uGrad => Hyper.firstPK energy uGrad
  massMap := none
  surfaces := [⟨surfaceMap, faces.map fun f => ⟨f.1, f.2, fun _ => 0⟩⟩]

/-- `set_params` (cell 2): `self.internal_vars_surfaces = [[surface_params]]` for an array of shape
`(num_selected_faces, num_face_quads)`. -/
def setParams {F : Nat} (P : Problem1 ℝ nq nfq nn 3 3) (θ : Fin F → Fin nfq → ℝ) : Problem1 ℝ nq nfq nn 3 3 :=
  { P with surfaces := P.surfaces.map fun s => { s with faces := s.faces.mapIdx fun i f =>
      { f with iv := fun q => if h : i < F then θ ⟨i, h⟩ q else f.iv q } } }

/-- `problem.physical_surface_quad_points[0]` (cell 7; `problem.py:178-179`). -/
noncomputable def surfaceQuadPoints (P : Problem1 ℝ nq nfq nn 3 3) (f : Nat × Nat) (q : Fin nfq) : Fin 3 → ℝ :=
  (faceData P.fc P.points P.conn f fun _ => (0 : ℝ)).quadPoints q

/-- `traction_true` (cell 7). -/
noncomputable def tractionTrue (P : Problem1 ℝ nq nfq nn 3 3) (faces : List (Nat × Nat)) (Lx : ℝ) :
    Fin faces.length → Fin nfq → ℝ :=
  fun i q => 10 ^ 5 * Real.exp (-(surfaceQuadPoints P faces[i] q 0 - Lx / 2) ^ 2 / (2 * (Lx / 5) ^ 2))

/-- `traction_ini` (cell 9). -/
def tractionIni {F : Nat} : Fin F → Fin nfq → ℝ := fun _ _ => 10 ^ 5

end JaxFem.Traction
