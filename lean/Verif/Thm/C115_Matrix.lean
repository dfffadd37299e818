import Verif.Model.DebugInfo
import Verif.Thm.C90_Local
import Mathlib.Analysis.Calculus.FDeriv.Linear
import Mathlib.Analysis.Calculus.FDeriv.Add
import Mathlib.Analysis.Calculus.FDeriv.Comp
import Mathlib.Analysis.Calculus.FDeriv.Prod
import Mathlib.Analysis.Calculus.Deriv.Comp
import Mathlib.Analysis.Calculus.Deriv.Pow
import Mathlib.LinearAlgebra.Matrix.ToLin
import Mathlib.Topology.Algebra.Module.FiniteDimension
import Mathlib.Tactic.NormNum
import Mathlib.Tactic.Ring

/-!
# C115: the matrix of an operator
-/

namespace JaxFem.Debug

variable {N M : Nat}

/-! ### Helper lemmas -/

theorem matrix_mulVec (f : (Fin N → ℝ) → Fin M → ℝ) (x : Fin N → ℝ) :
    (operatorToMatrix f).mulVec x = fderiv ℝ f 0 x := by
  funext i
  have hx : x = ∑ j, x j • (Pi.single j (1 : ℝ) : Fin N → ℝ) := by
    funext k
    simp [Finset.sum_apply, Pi.single_apply]
  conv_rhs => rw [hx]
  rw [map_sum, Finset.sum_apply]
  simp only [Matrix.mulVec, dotProduct, operatorToMatrix, Matrix.of_apply, map_smul, Pi.smul_apply, smul_eq_mul]
  exact Finset.sum_congr rfl fun j _ => mul_comm _ _

theorem matrix_of_hasFDerivAt (f : (Fin N → ℝ) → Fin M → ℝ) (A : Matrix (Fin M) (Fin N) ℝ)
    (h : HasFDerivAt f (LinearMap.toContinuousLinearMap A.mulVecLin) 0) : operatorToMatrix f = A := by
  ext i j
  simp [operatorToMatrix, h.fderiv]

/-! ### Theorems -/

/-- **C115 (linear operators).** For an operator `x ↦ A x + b` the result is the matrix `A`, whatever `b` is; in particular two
linear operators with the same result are equal. -/
theorem C115_matrix (A : Matrix (Fin M) (Fin N) ℝ) (b : Fin M → ℝ) :
    operatorToMatrix (fun x => A.mulVec x + b) = A := by
  refine matrix_of_hasFDerivAt _ _ ?_
  exact (LinearMap.toContinuousLinearMap A.mulVecLin).hasFDerivAt.add_const b

/-- **C115 (differentiable operators).** For any operator that is differentiable at the origin the matrix times a direction is
the derivative of the operator along the line through the origin in this direction. -/
theorem C115_tangent (f : (Fin N → ℝ) → Fin M → ℝ) (hf : DifferentiableAt ℝ f 0) (x : Fin N → ℝ) :
    HasDerivAt (fun t : ℝ => f (t • x)) ((operatorToMatrix f).mulVec x) 0 := by
  rw [matrix_mulVec]
  have h1 : HasDerivAt (fun t : ℝ => t • x) x 0 := by
    simpa using (hasDerivAt_id (0 : ℝ)).smul_const x
  have h2 : HasFDerivAt f (fderiv ℝ f 0) ((fun t : ℝ => t • x) 0) := by
    simpa using hf.hasFDerivAt
  exact h2.comp_hasDerivAt 0 h1

/-- **C115 (only the origin).** Operators that agree near the origin have the same matrix, however they differ elsewhere. -/
theorem C115_origin (f g : (Fin N → ℝ) → Fin M → ℝ) (h : f =ᶠ[nhds 0] g) : operatorToMatrix f = operatorToMatrix g := by
  ext i j
  simp only [operatorToMatrix, Matrix.of_apply, h.fderiv_eq]

/-- **C115 (boundary conditions).** Applied to the residual with boundary conditions the function returns the matrix of the
residual at the origin with the rows of the prescribed degrees of freedom replaced by unit rows, which is the matrix of the
first Newton step of the solver from zero. -/
theorem C115_constrained (fes : List FE) (bcs : List (List (BCEntry ℝ))) (wf : WFBC fes bcs) (scale : ℝ)
    (r : (Fin (totalDofs fes) → ℝ) → Fin (totalDofs fes) → ℝ) (hr : DifferentiableAt ℝ r 0) :
    operatorToMatrix (fun u => applyBcV fes bcs scale (r u) u) = elimRows fes bcs (operatorToMatrix r) := by
  set B := elimRows fes bcs (operatorToMatrix r) with hB
  refine matrix_of_hasFDerivAt _ B ?_
  rw [hasFDerivAt_pi']
  intro k
  rcases prescribed_or wf k with hk | ⟨v, hk⟩
  · have e1 : (fun u => applyBcV fes bcs scale (r u) u k) = fun u => r u k := by
      funext u
      exact (applyBcV_spec fes bcs wf scale (r u) u k).1 hk
    rw [e1]
    refine (hasFDerivAt_pi'.1 hr.hasFDerivAt k).congr_fderiv ?_
    ext x
    change fderiv ℝ r 0 x k = B.mulVec x k
    rw [← matrix_mulVec]
    simp only [Matrix.mulVec, dotProduct]
    exact Finset.sum_congr rfl fun l _ => by rw [hB, (elimRows_spec fes bcs wf _ k l).1 hk]
  · have e1 : (fun u => applyBcV fes bcs scale (r u) u k) = fun u => u k - v * scale := by
      funext u
      exact (applyBcV_spec fes bcs wf scale (r u) u k).2 v hk
    rw [e1]
    refine ((ContinuousLinearMap.proj (R := ℝ) (φ := fun _ : Fin (totalDofs fes) => ℝ) k).hasFDerivAt.sub_const
      (v * scale)).congr_fderiv ?_
    ext x
    change x k = B.mulVec x k
    simp only [Matrix.mulVec, dotProduct]
    have : ∀ l, B k l * x l = if k = l then x l else 0 := fun l => by
      rw [hB, (elimRows_spec fes bcs wf _ k l).2 v hk]
      split <;> simp
    simp [this]

/-- **C115 (nonlinear operators).** The result does not determine a nonlinear operator, and it is not its derivative elsewhere:
`x ↦ x²` has the zero matrix although its derivative at one is two. -/
theorem C115_nonlinear : operatorToMatrix (fun x : Fin 1 → ℝ => fun _ : Fin 1 => x 0 ^ 2) = 0 ∧
    HasDerivAt (fun t : ℝ => t ^ 2) 2 1 := by
  constructor
  · refine matrix_of_hasFDerivAt _ 0 ?_
    rw [hasFDerivAt_pi']
    intro k
    have h := (ContinuousLinearMap.proj (R := ℝ) (φ := fun _ : Fin 1 => ℝ) 0).hasFDerivAt (x := 0) |>.pow 2
    refine h.congr_fderiv ?_
    ext x
    simp
  · simpa using hasDerivAt_pow 2 (1 : ℝ)

/-! ### Instances -/

example : operatorToMatrix (fun x : Fin 2 → ℝ => !![1, 2; 3, 4].mulVec x + ![5, 6]) = !![1, 2; 3, 4] := C115_matrix _ _

/-- Two degrees of freedom, the first fixed to three. -/
example : WFBC [(⟨2, 1, 1, [[0, 1]]⟩ : FE)] [[(⟨[0], [0], [3]⟩ : BCEntry ℝ)]] := by
  refine ⟨rfl, by simp, by simp, by simp, ?_⟩
  intro i fe es h1 h2
  match i with
  | 0 =>
    simp only [List.getElem?_cons_zero, Option.some.injEq] at h1 h2
    subst h1 h2
    simp
  | i + 1 => simp at h1

end JaxFem.Debug
