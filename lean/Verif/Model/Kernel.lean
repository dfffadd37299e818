import Mathlib.LinearAlgebra.Matrix.NonsingularInverse
import Mathlib.Analysis.SpecialFunctions.Pow.Real
import Verif.Model.Assembly

/-!
# Element kernels and geometric quantities

Model of `jax_fem/fe.py`, lines 112-218 and 324-382, and of `jax_fem/problem.py`, lines 130-296.

Arrays of a single cell are functions on `Fin n` (`nq` quadrature points, `nn` nodes per cell,
`vec` components, `dim` space dimensions, `nfq` face quadrature points).  Leading cell and face
axes are lists.  The kernels below are the "legacy" kernels of the code, which look at the first
variable only; they are modelled for problems with one variable.
-/

namespace JaxFem

open scoped BigOperators

variable {K : Type} [Field K] {IV : Type} {nq nfq nn vec dim : Nat}

/-- Tabulated reference element: results of `get_shape_vals_and_grads` (`basis.py:141-175`,
`fe.py:87-91`). -/
structure RefElement (K : Type) (nq nn dim : Nat) where
  shapeVals : Fin nq → Fin nn → K
  shapeGradsRef : Fin nq → Fin nn → Fin dim → K
  quadWeights : Fin nq → K

/-- Tabulated reference faces: results of `get_face_shape_vals_and_grads` (`basis.py:178-250`,
`fe.py:92-97`); the first argument is the local face number. -/
structure RefFaces (K : Type) (nfq nn dim : Nat) where
  shapeVals : Nat → Fin nfq → Fin nn → K
  shapeGradsRef : Nat → Fin nfq → Fin nn → Fin dim → K
  quadWeights : Nat → Fin nfq → K
  normals : Nat → Fin dim → K

/-- One cell of `physical_coos = np.take(points, cells, axis=0)` (`fe.py:131`). -/
def physicalCoos (nn : Nat) (points : List (Fin dim → K)) (cell : List Nat) :
    Fin nn → Fin dim → K :=
  fun a => points.getD (cell.getD a 0) 0

/-- `jacobian_dx_deta` at one quadrature point (`fe.py:133-134`, `fe.py:171`):
entry `(i, j)` is `sum_a X[a, i] * grad_ref[a, j]`. -/
def jacobianDxDeta (X : Fin nn → Fin dim → K) (g : Fin nn → Fin dim → K) :
    Matrix (Fin dim) (Fin dim) K :=
  Matrix.of fun i j => ∑ a, X a i * g a j

/-- `shape_grads_physical` at one quadrature point (`fe.py:136-140`, `fe.py:173-177`):
`shape_grads_ref @ inv(jacobian_dx_deta)`. The inverse of a singular matrix is not specified by the
code; here it is Mathlib's (zero). -/
noncomputable def shapeGradsPhysical (X : Fin nn → Fin dim → K) (g : Fin nn → Fin dim → K) :
    Fin nn → Fin dim → K :=
  fun a j => ∑ k, g a k * (jacobianDxDeta X g)⁻¹ k j

/-- `JxW` at one quadrature point (`fe.py:135`, `fe.py:140`). -/
def cellJxW (X : Fin nn → Fin dim → K) (g : Fin nn → Fin dim → K) (w : K) : K :=
  (jacobianDxDeta X g).det * w

/-- `nanson_scale` at one face quadrature point (`fe.py:179-182`): norm of `normal @ inv(J)`, times
`det J`, times the weight. -/
noncomputable def nansonScale (X : Fin nn → Fin dim → ℝ) (g : Fin nn → Fin dim → ℝ)
    (normal : Fin dim → ℝ) (w : ℝ) : ℝ :=
  Real.sqrt (∑ j, (∑ k, normal k * (jacobianDxDeta X g)⁻¹ k j) ^ 2) * (jacobianDxDeta X g).det * w

/-- `face_weights` in 2-D (`basis.py:231-236`): the reference weight times the length of the edge
vector (the single column of basix's facet Jacobian). -/
noncomputable def faceWeight2 (w : ℝ) (jac : Fin 2 → ℝ) : ℝ :=
  w * Real.sqrt (jac 0 ^ 2 + jac 1 ^ 2)

/-- `face_weights` in 3-D (`basis.py:231-236`): the reference weight times the norm of the cross
product of the two columns of basix's facet Jacobian. -/
noncomputable def faceWeight3 (w : ℝ) (j0 j1 : Fin 3 → ℝ) : ℝ :=
  w * Real.sqrt ((j0 1 * j1 2 - j0 2 * j1 1) ^ 2 + (j0 2 * j1 0 - j0 0 * j1 2) ^ 2
    + (j0 0 * j1 1 - j0 1 * j1 0) ^ 2)

/-- A physical quadrature point (`fe.py:196`, `fe.py:217`). -/
def physicalPoint (N : Fin nn → K) (X : Fin nn → Fin dim → K) : Fin dim → K :=
  fun i => ∑ a, N a * X a i

/-- What one cell contributes to `input_collection` besides the solution (`problem.py:367`). -/
structure CellData (K IV : Type) (nq nn dim : Nat) where
  quadPoints : Fin nq → Fin dim → K
  shapeGrads : Fin nq → Fin nn → Fin dim → K
  JxW : Fin nq → K
  vGradsJxW : Fin nq → Fin nn → Fin dim → K
  internalVars : Fin nq → IV

/-- Geometric quantities of one cell (`problem.py:135-153`). -/
noncomputable def cellData (el : RefElement K nq nn dim) (points : List (Fin dim → K))
    (cell : List Nat) (iv : Fin nq → IV) : CellData K IV nq nn dim :=
  let X := physicalCoos nn points cell
  { quadPoints := fun q => physicalPoint (el.shapeVals q) X
    shapeGrads := fun q => shapeGradsPhysical X (el.shapeGradsRef q)
    JxW := fun q => cellJxW X (el.shapeGradsRef q) (el.quadWeights q)
    vGradsJxW := fun q a j => shapeGradsPhysical X (el.shapeGradsRef q) a j *
      cellJxW X (el.shapeGradsRef q) (el.quadWeights q)
    internalVars := iv }

/-- What one selected face contributes to `input_collection` (`problem.py:408-409`). -/
structure FaceData (K IV : Type) (nfq nn dim : Nat) where
  quadPoints : Fin nfq → Fin dim → K
  shapeVals : Fin nfq → Fin nn → K
  shapeGrads : Fin nfq → Fin nn → Fin dim → K
  nanson : Fin nfq → K
  internalVars : Fin nfq → IV

/-- Geometric quantities of the selected face `(cell number, local face)` (`problem.py:159-182`). -/
noncomputable def faceData (fc : RefFaces ℝ nfq nn dim) (points : List (Fin dim → ℝ))
    (cells : List (List Nat)) (p : Nat × Nat) (iv : Fin nfq → IV) : FaceData ℝ IV nfq nn dim :=
  let X := physicalCoos nn points (cells.getD p.1 [])
  { quadPoints := fun q => physicalPoint (fc.shapeVals p.2 q) X
    shapeVals := fc.shapeVals p.2
    shapeGrads := fun q => shapeGradsPhysical X (fc.shapeGradsRef p.2 q)
    nanson := fun q => nansonScale X (fc.shapeGradsRef p.2 q) (fc.normals p.2)
      (fc.quadWeights p.2 q)
    internalVars := iv }

/-- `unflatten_fn_dof(cell_sol_flat)[0]` as a function of local node and component
(`problem.py:198-200`, `225-226`, `247-248`). -/
def cellSol (nn vec : Nat) (x : List K) : Fin nn → Fin vec → K :=
  fun a c => (((unravelSol [(nn, vec)] x).getD 0 []).getD a []).getD c 0

/-- `ravel_pytree(val)[0]` of an array of shape `(num_nodes, vec)` (`problem.py:211`). -/
def ravel2 (val : Fin nn → Fin vec → K) : List K :=
  ravelSol [List.ofFn fun a => List.ofFn fun c => val a c]

/-- `laplace_kernel` (`problem.py:189-214`). `tensorMap iv u_grad` is `tensor_map(u_grad, *iv)`. -/
def laplaceKernel (tensorMap : IV → (Fin vec → Fin dim → K) → Fin vec → Fin dim → K)
    (x : List K) (d : CellData K IV nq nn dim) : List K :=
  let sol := cellSol nn vec x
  let uGrads : Fin nq → Fin vec → Fin dim → K := fun q i j => ∑ a, sol a i * d.shapeGrads q a j
  let uPhysics := fun q => tensorMap (d.internalVars q) (uGrads q)
  ravel2 fun (a : Fin nn) (i : Fin vec) => ∑ q, ∑ j, uPhysics q i j * d.vGradsJxW q a j

/-- `mass_kernel` (`problem.py:216-236`). -/
def massKernel (el : RefElement K nq nn dim)
    (massMap : IV → (Fin vec → K) → (Fin dim → K) → Fin vec → K)
    (x : List K) (d : CellData K IV nq nn dim) : List K :=
  let sol := cellSol nn vec x
  let u : Fin nq → Fin vec → K := fun q i => ∑ a, sol a i * el.shapeVals q a
  let uPhysics := fun q => massMap (d.internalVars q) (u q) (d.quadPoints q)
  ravel2 fun (a : Fin nn) (i : Fin vec) => ∑ q, uPhysics q i * el.shapeVals q a * d.JxW q

/-- `surface_kernel` (`problem.py:238-259`). -/
def surfaceKernel (surfaceMap : IV → (Fin vec → K) → (Fin dim → K) → Fin vec → K)
    (x : List K) (d : FaceData K IV nfq nn dim) : List K :=
  let sol := cellSol nn vec x
  let u : Fin nfq → Fin vec → K := fun q i => ∑ a, sol a i * d.shapeVals q a
  let uPhysics := fun q => surfaceMap (d.internalVars q) (u q) (d.quadPoints q)
  ravel2 fun (a : Fin nn) (i : Fin vec) => ∑ q, uPhysics q i * d.shapeVals q a * d.nanson q

/-- Vector addition of NumPy arrays of equal length. -/
def vadd (a b : List K) : List K := List.zipWith (· + ·) a b

/-- The cell kernel (`problem.py:270-296`) for a problem that defines a tensor map and possibly a
mass map; an absent map contributes `0.`. The universal kernel is user code and is left out here
(the assembly theorems cover arbitrary kernels). -/
def cellKernel (el : RefElement K nq nn dim)
    (tensorMap : IV → (Fin vec → Fin dim → K) → Fin vec → Fin dim → K)
    (massMap : Option (IV → (Fin vec → K) → (Fin dim → K) → Fin vec → K))
    (x : List K) (d : CellData K IV nq nn dim) : List K :=
  match massMap with
  | none => laplaceKernel tensorMap x d
  | some m => vadd (laplaceKernel tensorMap x d) (massKernel el m x d)

/-- `convert_from_dof_to_quad` (`fe.py:324-341`), one cell. -/
def convertFromDofToQuad (el : RefElement K nq nn dim) (vec : Nat) (sol : List (List K))
    (cell : List Nat) : Fin nq → Fin vec → K :=
  fun q i => ∑ a : Fin nn, ((sol.getD (cell.getD a 0) []).getD i 0) * el.shapeVals q a

/-- `convert_from_dof_to_face_quad` (`fe.py:343-364`), one selected face. -/
def convertFromDofToFaceQuad (fc : RefFaces K nfq nn dim) (vec : Nat) (sol : List (List K))
    (cells : List (List Nat)) (p : Nat × Nat) : Fin nfq → Fin vec → K :=
  fun q i => ∑ a : Fin nn,
    ((sol.getD ((cells.getD p.1 []).getD a 0) []).getD i 0) * fc.shapeVals p.2 q a

/-- `sol_to_grad` (`fe.py:366-382`), one cell. -/
noncomputable def solToGrad (el : RefElement K nq nn dim) (vec : Nat) (points : List (Fin dim → K))
    (sol : List (List K)) (cell : List Nat) : Fin nq → Fin vec → Fin dim → K :=
  fun q i j => ∑ a : Fin nn, ((sol.getD (cell.getD a 0) []).getD i 0) *
    shapeGradsPhysical (physicalCoos nn points cell) (el.shapeGradsRef q) a j

/-! ### A problem with one variable that uses the legacy maps -/

/-- One cell: its row of `cells` and its slice of the internal variables. -/
structure CellSpec (IV : Type) (nq : Nat) where
  nodes : List Nat
  iv : Fin nq → IV

/-- One selected face: a row of `boundary_inds` and its slice of the surface internal variables. -/
structure FaceSpec (IV : Type) (nfq : Nat) where
  cell : Nat
  face : Nat
  iv : Fin nfq → IV

/-- One boundary subset with its surface map (`get_surface_maps()[ind]`, `problem.py:312-315`). -/
structure Surface (K IV : Type) (nfq vec dim : Nat) where
  map : IV → (Fin vec → K) → (Fin dim → K) → Fin vec → K
  faces : List (FaceSpec IV nfq)

/-- A `Problem` with a single variable and user maps `get_tensor_map`, optionally `get_mass_map`,
and `get_surface_maps`. -/
structure Problem1 (IV : Type) (nq nfq nn vec dim : Nat) where
  numTotalNodes : Nat
  points : List (Fin dim → ℝ)
  cells : List (CellSpec IV nq)
  el : RefElement ℝ nq nn dim
  fc : RefFaces ℝ nfq nn dim
  tensorMap : IV → (Fin vec → Fin dim → ℝ) → Fin vec → Fin dim → ℝ
  massMap : Option (IV → (Fin vec → ℝ) → (Fin dim → ℝ) → Fin vec → ℝ)
  surfaces : List (Surface ℝ IV nfq vec dim)

namespace Problem1

variable (P : Problem1 IV nq nfq nn vec dim)

/-- Connectivity. -/
def conn : List (List Nat) := P.cells.map CellSpec.nodes

/-- The finite-element data of the variable. -/
def fes : List FE := [⟨P.numTotalNodes, vec, nn, P.conn⟩]

/-- `boundary_inds_list`. -/
def bs : List BoundaryInds := P.surfaces.map fun s => s.faces.map fun f => (f.cell, f.face)

/-- `compute_residual` (`problem.py:462-475`) of this problem. -/
noncomputable def residual (sols : List (List (List ℝ))) : Except Err (List (List (List ℝ))) :=
  computeResidual P.fes P.bs (cellKernel P.el P.tensorMap P.massMap)
    (P.cells.map fun c => cellData P.el P.points c.nodes c.iv)
    (P.surfaces.map fun s => surfaceKernel s.map)
    (P.surfaces.map fun s => s.faces.map fun f =>
      faceData P.fc P.points P.conn (f.cell, f.face) f.iv) sols

end Problem1

end JaxFem
