import Verif.Model.Dofs

/-! Well-formedness of the finite-element data: what the array shapes guarantee. -/

namespace JaxFem

/-- All variables have the same number of cells (the comment at `problem.py:78`), every cell lists
`num_nodes` nodes (the array is rectangular), and every node index is valid. -/
def WFMesh (fes : List FE) : Prop :=
  ∀ fe ∈ fes, fe.cells.length = numCells fes ∧
    ∀ cell ∈ fe.cells, cell.length = fe.numNodes ∧ ∀ n ∈ cell, n < fe.numTotalNodes

instance (fes : List FE) : Decidable (WFMesh fes) := by unfold WFMesh; infer_instance

/-- Boundary subsets refer to existing cells (they are produced by `argwhere` over the cells,
`fe.py:319`). -/
def WFBoundary (fes : List FE) (bs : List BoundaryInds) : Prop :=
  ∀ b ∈ bs, ∀ p ∈ b, p.1 < numCells fes

instance (fes : List FE) (bs : List BoundaryInds) : Decidable (WFBoundary fes bs) := by
  unfold WFBoundary; infer_instance

end JaxFem
