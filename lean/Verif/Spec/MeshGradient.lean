import Verif.Spec.Variational
import Mathlib.Analysis.Calculus.ContDiff.Operations

/-!
# Specification for C84 (part 2): problems as functions of the node coordinates
-/

namespace JaxFem

variable {IV : Type} {nq nfq nn vec dim : Nat}

/-- The problem on the mesh with node coordinates `x`: same cells, boundary faces and maps. -/
def Problem1.atPoints (P : Problem1 IV nq nfq nn vec dim) (x : Fin P.numTotalNodes → Fin dim → ℝ) :
    Problem1 IV nq nfq nn vec dim := { P with points := List.ofFn x }

/-- The user's maps are continuously differentiable, jointly in the solution and the position. -/
structure Problem1.SmoothMaps (P : Problem1 IV nq nfq nn vec dim) : Prop where
  tensor : ∀ iv, ContDiff ℝ 1 (P.tensorMap iv)
  mass : ∀ m, P.massMap = some m → ∀ iv,
    ContDiff ℝ 1 fun z : (Fin vec → ℝ) × (Fin dim → ℝ) => m iv z.1 z.2
  surface : ∀ s ∈ P.surfaces, ∀ iv,
    ContDiff ℝ 1 fun z : (Fin vec → ℝ) × (Fin dim → ℝ) => s.map iv z.1 z.2

/-- No cell is degenerate at its quadrature points, nor at the points of the selected faces; the
reference normals are not zero. -/
structure Problem1.NonDegenerate (P : Problem1 IV nq nfq nn vec dim) : Prop where
  cells : ∀ cell ∈ P.cells, ∀ q,
    (mapJacobian (coords nn P.points cell.nodes) (Matrix.of (P.el.shapeGradsRef q))).det ≠ 0
  faces : ∀ s ∈ P.surfaces, ∀ f ∈ s.faces, ∀ q, P.fc.normals f.face ≠ 0 ∧
    (mapJacobian (coords nn P.points (P.conn.getD f.cell []))
      (Matrix.of (P.fc.shapeGradsRef f.face q))).det ≠ 0

end JaxFem
