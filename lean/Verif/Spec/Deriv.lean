import Mathlib.Analysis.Calculus.FDeriv.Basic
import Mathlib.Topology.Algebra.Module.FiniteDimension
import Mathlib.LinearAlgebra.Matrix.ToLin

/-! "The matrix `A` is the derivative of `f` at `x`". -/

namespace JaxFem

/-- The continuous linear map given by a matrix. -/
noncomputable def matCLM {m n : Type*} [Fintype m] [Fintype n] (A : Matrix m n ℝ) :
    (n → ℝ) →L[ℝ] (m → ℝ) :=
  LinearMap.toContinuousLinearMap (Matrix.mulVecLin A)

/-- `A` is the Jacobian matrix of `f` at `x` (Fréchet derivative, rows = outputs). -/
def HasJacobianAt {m n : Type*} [Fintype m] [Fintype n] (f : (n → ℝ) → (m → ℝ))
    (A : Matrix m n ℝ) (x : n → ℝ) : Prop := HasFDerivAt f (matCLM A) x

end JaxFem
