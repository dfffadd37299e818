import Verif.Spec.TopOpt
import Mathlib.LinearAlgebra.Matrix.ToLin

/-!
Independent notions for eigenfrequency analysis: generalised eigenpairs of two matrices, simple eigenvalues, what is
expected of an eigensolver that is asked for the eigenvalues next to a target, rigid motions of a mesh.
-/

namespace JaxFem.Modal

variable {N : Nat}

/-- `v` is an eigenvector of the pencil `K - lam M`. -/
def IsEigenpair (K M : Matrix (Fin N) (Fin N) ℝ) (lam : ℝ) (v : Fin N → ℝ) : Prop :=
  v ≠ 0 ∧ K.mulVec v = lam • M.mulVec v

/-- The eigenvectors of `lam` are the multiples of one vector. -/
def IsSimple (K M : Matrix (Fin N) (Fin N) ℝ) (lam : ℝ) : Prop :=
  ∀ v w, IsEigenpair K M lam v → IsEigenpair K M lam w → ∃ a : ℝ, w = a • v

/-- What an eigensolver for symmetric pencils with target `tau` returns: `m` eigenpairs with `M`-orthonormal vectors,
ordered by the distance of the eigenvalue from the target, and no eigenpair besides them is closer to the target. -/
structure Nearest (K M : Matrix (Fin N) (Fin N) ℝ) (tau : ℝ) (m : Nat) (pair : Nat → ℝ × (Fin N → ℝ)) : Prop where
  eigen : ∀ i < m, IsEigenpair K M (pair i).1 (pair i).2
  orthonormal : ∀ i < m, ∀ j < m, dotProduct (pair i).2 (M.mulVec (pair j).2) = if i = j then 1 else 0
  ordered : ∀ i < m, ∀ j < m, i ≤ j → |(pair i).1 - tau| ≤ |(pair j).1 - tau|
  complete : ∀ mu w, IsEigenpair K M mu w → (∀ i < m, dotProduct w (M.mulVec (pair i).2) = 0) →
    ∀ i < m, |(pair i).1 - tau| ≤ |mu - tau|

/-- Nodal values of an infinitesimal rigid motion of the plane. -/
def rigidVec (points : List (Fin 2 → ℝ)) (b : Fin 2 → ℝ) (omega : ℝ) : Nat → Fin 2 → ℝ := fun n =>
  let x := points.getD n 0
  ![b 0 - omega * x 1, b 1 + omega * x 0]

variable {nq nfq nn : Nat}

/-- Squared length of the displacement at quadrature point `q` of cell `c`, times the measure of the point. -/
noncomputable def squareAt (P : Problem1 (List ℝ) nq nfq nn 2 2) (u : Nat → Fin 2 → ℝ) (c : Fin P.cells.length)
    (q : Fin nq) : ℝ :=
  (∑ k, interp (P.el.shapeVals q) (restrict nn u (P.cells[c]).nodes) k ^ 2) * P.measureAt c q

/-- A mesh of an unsupported body on which the quadrature sees every deformation and every motion: positive measure,
shape functions that are a partition of unity, no zero-strain modes besides rigid motions, values at the quadrature
points that determine the nodal values, every node belongs to a cell, and from one cell all others are reached through
cells with enough common nodes to pass on a rigid motion. -/
structure FreeBody (B : Problem1 (List ℝ) nq nfq nn 2 2) : Prop where
  wf : B.WF
  quad : 0 < nq
  positive : B.PositiveMeasure
  unity : B.el.Unity
  strain : ∀ cell ∈ B.cells, B.el.StrainDetermines (coords nn B.points cell.nodes)
  value : ∀ U : Fin nn → ℝ, (∀ q, ∑ a, U a * B.el.shapeVals q a = 0) → U = 0
  covered : ∀ n < B.numTotalNodes, ∃ cell ∈ B.conn, n ∈ cell
  connected : ∃ cell ∈ B.conn, ∀ n < B.numTotalNodes, B.Held (fun m _ => m ∉ cell) n

end JaxFem.Modal
