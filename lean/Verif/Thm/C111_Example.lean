import Verif.Thm.C111_Conditions
import Verif.Thm.C103_Example

/-!
# C111: a concrete case for the load steps
-/

namespace JaxFem
namespace FinitePlasticity

open CoDesign (tetPts tetEl tetFc)

/-- One tetrahedron of the material of the repository. -/
noncomputable def tetProblem := problem repoMat 4 tetPts [[0, 1, 2, 3]] tetEl tetFc

theorem tetProblem_wf : tetProblem.WF where
  nonempty := by simp [tetProblem, problem]
  points := by simp [tetProblem, problem, tetPts]
  cell_length := by simp [tetProblem, problem]
  cell_lt := by simp [tetProblem, problem]
  face_lt := by simp [tetProblem, problem]

/-- The first step of the single-cell driver on this mesh, and its repetition, for every linear solver. -/
example (num : Numerics tetProblem.cells.length 1 (totalDofs tetProblem.fes)) (h0 : 0 ≤ num.tol) :
    loadStep repoMat tetProblem SingleCell.info num 7 0 (initVars _) 0 = some (.ok ⟨0, 0, initVars _, 0⟩) ∧
    loadStep repoMat tetProblem SingleCell.info num 3 0 (initVars _) 0 = some (.ok ⟨0, 0, initVars _, 0⟩) := by
  have hz : ∀ it ∈ UserBC.conds (SingleCell.info 0), ∀ p, it.2.2 p = 0 := by
    intro it hit p
    simp [UserBC.conds, SingleCell.info] at hit
    rcases hit with rfl | rfl | rfl | rfl | rfl <;> simp [SingleCell.dirichletTop]
  exact ⟨C111_start repoMat 4 tetPts [[0, 1, 2, 3]] tetEl tetFc tetProblem_wf repoMat_ok SingleCell.info 0 (single_proper 0)
    hz num h0 6, C111_start repoMat 4 tetPts [[0, 1, 2, 3]] tetEl tetFc tetProblem_wf repoMat_ok SingleCell.info 0
    (single_proper 0) hz num h0 2⟩

end FinitePlasticity
end JaxFem
