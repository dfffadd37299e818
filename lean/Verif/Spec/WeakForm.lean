import Mathlib.LinearAlgebra.Matrix.NonsingularInverse
import Verif.Model.Kernel
import Verif.Spec.Assembly

/-!
Independent description of isoparametric elements and weak forms: the map from the reference cell
to a physical cell, interpolation and quadrature.
-/

namespace JaxFem

variable {K : Type} [Field K] {nq nfq nn vec dim : Nat}

/-- Shape functions sum to one. -/
def SumsToOne (N : Fin nn → K) : Prop := ∑ a, N a = 1

/-- Shape function gradients sum to zero. -/
def GradSumsToZero (g : Fin nn → Fin dim → K) : Prop := ∀ j, ∑ a, g a j = 0

/-- The tabulated element is a partition of unity at every quadrature point (true for every
Lagrange element). -/
def RefElement.Unity (el : RefElement K nq nn dim) : Prop :=
  ∀ q, SumsToOne (el.shapeVals q) ∧ GradSumsToZero (el.shapeGradsRef q)

/-- Same on the faces. -/
def RefFaces.Unity (fc : RefFaces K nfq nn dim) : Prop :=
  ∀ f q, SumsToOne (fc.shapeVals f q) ∧ GradSumsToZero (fc.shapeGradsRef f q)

/-- Coordinates of the nodes of a cell as a matrix (node × direction). -/
def coords (nn : Nat) (points : List (Fin dim → K)) (cell : List Nat) :
    Matrix (Fin nn) (Fin dim) K :=
  Matrix.of fun a i => points.getD (cell.getD a 0) 0 i

/-- Jacobian matrix of the map from the reference cell, `Xᵀ G`. -/
def mapJacobian (X G : Matrix (Fin nn) (Fin dim) K) : Matrix (Fin dim) (Fin dim) K :=
  X.transpose * G

/-- Every cell is mapped with an invertible Jacobian at every quadrature point. -/
def RefElement.Regular (el : RefElement K nq nn dim) (points : List (Fin dim → K))
    (cells : List (List Nat)) : Prop :=
  ∀ cell ∈ cells, ∀ q,
    (mapJacobian (coords nn points cell) (Matrix.of (el.shapeGradsRef q))).det ≠ 0

/-- Interpolated nodal vector at a point with shape function values `N`. -/
def interp (N : Fin nn → K) (U : Fin nn → Fin vec → K) : Fin vec → K :=
  fun c => ∑ a, N a * U a c

/-- Nodal values of a solution array at the nodes of a cell. -/
def nodalValues (nn vec : Nat) (sol : List (List K)) (cell : List Nat) : Fin nn → Fin vec → K :=
  fun a c => (sol.getD (cell.getD a 0) []).getD c 0

/-- Quadrature of a function over a cell. -/
def cellIntegral (el : RefElement K nq nn dim) (points : List (Fin dim → K)) (cell : List Nat)
    (f : Fin nq → K) : K :=
  ∑ q, f q * ((mapJacobian (coords nn points cell) (Matrix.of (el.shapeGradsRef q))).det
    * el.quadWeights q)

/-- Array shapes and index ranges of a problem: rectangular connectivity with valid node numbers, one
point per node, at least one cell, faces of existing cells. -/
structure Problem1.WF {IV : Type} (P : Problem1 IV nq nfq nn vec dim) : Prop where
  nonempty : P.cells ≠ []
  points : P.points.length = P.numTotalNodes
  cell_length : ∀ c ∈ P.cells, c.nodes.length = nn
  cell_lt : ∀ c ∈ P.cells, ∀ n ∈ c.nodes, n < P.numTotalNodes
  face_lt : ∀ s ∈ P.surfaces, ∀ f ∈ s.faces, f.cell < P.cells.length

/-- Physical position of a point with shape function values `N` in a cell. -/
def positionIn (N : Fin nn → K) (X : Matrix (Fin nn) (Fin dim) K) : Fin dim → K :=
  Matrix.vecMul N X

/-- Integral over the whole mesh of component `c` of a source `m(u, x)`. -/
noncomputable def Problem1.massIntegral {IV : Type} (P : Problem1 IV nq nfq nn vec dim)
    (m : IV → (Fin vec → ℝ) → (Fin dim → ℝ) → Fin vec → ℝ) (sol : List (List ℝ)) (c : Fin vec) : ℝ :=
  (P.cells.map fun cell => cellIntegral P.el P.points cell.nodes fun q =>
    m (cell.iv q) (interp (P.el.shapeVals q) (nodalValues nn vec sol cell.nodes))
      (positionIn (P.el.shapeVals q) (coords nn P.points cell.nodes)) c).sum

/-- Integral over all boundary subsets of component `c` of the surface maps; the measure of a face
point is the Nanson factor, which C12 identifies with the surface measure. -/
noncomputable def Problem1.surfaceIntegral {IV : Type} (P : Problem1 IV nq nfq nn vec dim)
    (sol : List (List ℝ)) (c : Fin vec) : ℝ :=
  (P.surfaces.map fun s => (s.faces.map fun f => ∑ q,
    s.map (f.iv q)
      (interp (P.fc.shapeVals f.face q) (nodalValues nn vec sol (P.conn.getD f.cell [])))
      (positionIn (P.fc.shapeVals f.face q) (coords nn P.points (P.conn.getD f.cell []))) c
    * nansonScale (coords nn P.points (P.conn.getD f.cell [])) (P.fc.shapeGradsRef f.face q)
        (P.fc.normals f.face) (P.fc.quadWeights f.face q)).sum).sum

end JaxFem
