import Verif.Thm.C38_Adjoint
import Verif.Spec.Newton
import Mathlib.Analysis.Calculus.ImplicitFunction.ProdDomain
import Mathlib.Analysis.Calculus.ContDiff.RCLike
import Mathlib.Analysis.Calculus.ContDiff.Operations

/-!
# C38 (part 2): the solution branch through a regular solution
-/

namespace JaxFem

open scoped Topology

variable {E : Type} [NormedAddCommGroup E] [NormedSpace ℝ E] [CompleteSpace E]

/-! ### Helper lemmas -/

theorem constraint_zero_iff {E : Type} (fes : List FE) (bcs : E → List (List (BCEntry ℝ)))
    (res : E → (Fin (totalDofs fes) → ℝ) → Fin (totalDofs fes) → ℝ) (p : E) (hb : WFBC fes (bcs p))
    (u : Fin (totalDofs fes) → ℝ) :
    constraintFn fes bcs res u p = 0 ↔ SolvesBVP fes (bcs p) (res p) u := by
  constructor
  · intro hz
    refine ⟨fun k v hp => ?_, fun k hp => ?_⟩
    · have := congrFun hz k
      simp only [constraintFn] at this
      rw [(applyBcV_spec fes (bcs p) hb 1 _ _ k).2 v hp, mul_one, Pi.zero_apply] at this
      exact sub_eq_zero.1 this
    · have := congrFun hz k
      simp only [constraintFn] at this
      rwa [(applyBcV_spec fes (bcs p) hb 1 _ _ k).1 hp] at this
  · rintro ⟨h1, h2⟩
    funext k
    simp only [constraintFn]
    obtain ⟨o, ho⟩ := prescribed_exists fes (bcs p) hb k k.2
    cases o with
    | none => rw [(applyBcV_spec fes (bcs p) hb 1 _ _ k).1 ho, h2 k ho]; rfl
    | some v =>
      rw [(applyBcV_spec fes (bcs p) hb 1 _ _ k).2 v ho, h1 k v ho, mul_one, sub_self]; rfl

/-- Implicit functions for an equation whose partial derivative is an invertible matrix. -/
theorem exists_branch {n : Nat} (G : (Fin n → ℝ) × E → Fin n → ℝ) (u0 : Fin n → ℝ) (p0 : E)
    (hG : ContDiffAt ℝ 1 G (u0, p0)) (A : Matrix (Fin n) (Fin n) ℝ)
    (hA : HasFDerivAt (fun u => G (u, p0)) (matCLM A) u0) (hdet : A.det ≠ 0) (hz : G (u0, p0) = 0) :
    ∃ u : E → Fin n → ℝ, u p0 = u0 ∧ ContinuousAt u p0 ∧
      (∀ᶠ pw in 𝓝 (p0, u0), G (pw.2, pw.1) = 0 ↔ u pw.1 = pw.2) ∧ ∀ᶠ p in 𝓝 p0, G (u p, p) = 0 := by
  set F : E × (Fin n → ℝ) → Fin n → ℝ := fun pw => G (pw.2, pw.1) with hF
  have hsw : ContDiffAt ℝ 1 (fun pw : E × (Fin n → ℝ) => (pw.2, pw.1)) (p0, u0) :=
    contDiffAt_snd.prodMk contDiffAt_fst
  have hFc : ContDiffAt ℝ 1 F (p0, u0) := ContDiffAt.comp (g := G) (p0, u0) hG hsw
  have hFs : HasStrictFDerivAt F (fderiv ℝ F (p0, u0)) (p0, u0) := hFc.hasStrictFDerivAt one_ne_zero
  have hpart : (fderiv ℝ F (p0, u0)).comp (ContinuousLinearMap.inr ℝ _ _) = matCLM A := by
    have h1 : HasFDerivAt (fun w => F (p0, w))
        ((fderiv ℝ F (p0, u0)).comp (ContinuousLinearMap.inr ℝ _ _)) u0 :=
      HasFDerivAt.comp (g := F) (f := fun w => (p0, w)) u0 hFs.hasFDerivAt (hasFDerivAt_prodMk_right p0 u0)
    exact h1.unique hA
  have hinv : ((fderiv ℝ F (p0, u0)).comp (ContinuousLinearMap.inr ℝ _ _)).IsInvertible := by
    rw [hpart]
    have hu : IsUnit A.det := isUnit_iff_ne_zero.2 hdet
    refine ⟨ContinuousLinearEquiv.equivOfInverse (matCLM A) (matCLM A⁻¹) ?_ ?_, rfl⟩
    · intro w
      show A⁻¹.mulVec (A.mulVec w) = w
      rw [Matrix.mulVec_mulVec, Matrix.nonsing_inv_mul _ hu, Matrix.one_mulVec]
    · intro w
      show A.mulVec (A⁻¹.mulVec w) = w
      rw [Matrix.mulVec_mulVec, Matrix.mul_nonsing_inv _ hu, Matrix.one_mulVec]
  have hF0 : F (p0, u0) = 0 := hz
  have e1 := hFs.eventually_apply_eq_iff_implicitFunctionOfProdDomain hinv
  have e2 := hFs.eventually_apply_implicitFunctionOfProdDomain hinv
  have e3 : hFs.implicitFunctionOfProdDomain hinv p0 = u0 := e1.self_of_nhds.1 rfl
  have e4 : ContinuousAt (hFs.implicitFunctionOfProdDomain hinv) p0 :=
    (hFs.hasStrictFDerivAt_implicitFunctionOfProdDomain hinv).continuousAt
  rw [hF0] at e1 e2
  exact ⟨_, e3, e4, e1, e2⟩

/-! ### Property theorem -/

/-- **C38 (solution branch).** Through a solution `u0` of the constrained equations for the parameter
`p0` at which the constraint function is continuously differentiable and the eliminated tangent is invertible there passes
exactly one branch `u(p)` of solutions, and what the backward pass returns is the derivative of
`p ↦ ⟨v, u(p)⟩`.  (In C38_adjoint the branch is an assumption.) -/
theorem C38_branch (fes : List FE) (bcs : E → List (List (BCEntry ℝ)))
    (res : E → (Fin (totalDofs fes) → ℝ) → Fin (totalDofs fes) → ℝ)
    (tan : E → (Fin (totalDofs fes) → ℝ) → Matrix (Fin (totalDofs fes)) (Fin (totalDofs fes)) ℝ)
    (solve : (n : Nat) → Matrix (Fin n) (Fin n) ℝ → (Fin n → ℝ) → Except Err (Fin n → ℝ))
    (hs : ExactAdjointSolver solve) (p0 : E) (u0 : Fin (totalDofs fes) → ℝ)
    (h : ∀ p, WFBC fes (bcs p)) (ht : HasJacobianAt (res p0) (tan p0 u0) u0)
    (hc : ContDiffAt ℝ 1 (fun up : (Fin (totalDofs fes) → ℝ) × E =>
      constraintFn fes bcs res up.1 up.2) (u0, p0))
    (hdet : (elimRows fes (bcs p0) (tan p0 u0)).det ≠ 0) (hz : SolvesBVP fes (bcs p0) (res p0) u0)
    (v : Fin (totalDofs fes) → ℝ) (g : E →L[ℝ] ℝ)
    (hg : implicitVjp fes bcs res tan none solve u0 p0 v = .ok g) :
    ∃ u : E → Fin (totalDofs fes) → ℝ, u p0 = u0 ∧
      (∀ᶠ pw in 𝓝 (p0, u0), SolvesBVP fes (bcs pw.1) (res pw.1) pw.2 ↔ u pw.1 = pw.2) ∧
      (∀ᶠ p in 𝓝 p0, SolvesBVP fes (bcs p) (res p) (u p)) ∧
      HasFDerivAt (fun p => dotProduct v (u p)) g p0 := by
  obtain ⟨u, e3, e4, e1, e2⟩ := exists_branch _ u0 p0 hc _
    (C17_derivative fes (bcs p0) (h p0) 1 (res p0) _ _ ht) hdet
    ((constraint_zero_iff fes bcs res p0 (h p0) u0).2 hz)
  refine ⟨u, e3, ?_, ?_, ?_⟩
  · filter_upwards [e1] with pw hpw
    rw [← constraint_zero_iff fes bcs res pw.1 (h pw.1)]
    exact hpw
  · filter_upwards [e2] with p hp
    exact (constraint_zero_iff fes bcs res p (h p) _).1 hp
  · subst e3
    exact C38_adjoint fes bcs res tan solve hs p0 u (h p0) ht (hc.differentiableAt one_ne_zero)
      (isUnit_iff_ne_zero.2 hdet) e4 e2 v g hg

/-- The example of `C38_adjoint` meets the hypotheses. -/
example (p0 : ℝ) (v : Fin 2 → ℝ) : ∃ g, implicitVjp (N := 2) mpcExFes adjExBcs adjExRes adjExTan none
      adjExSolve (adjExSol p0) p0 v = .ok g ∧
    ∃ u : ℝ → Fin 2 → ℝ, u p0 = adjExSol p0 ∧
      (∀ᶠ p in 𝓝 p0, SolvesBVP mpcExFes (adjExBcs p) (adjExRes p) (u p)) ∧
      HasFDerivAt (fun p => dotProduct v (u p)) g p0 := by
  have hdet : (elimRows (N := 2) mpcExFes (adjExBcs p0) (adjExTan p0 (adjExSol p0))).det ≠ 0 := by
    rw [adjEx_matrix, Matrix.det_fin_two]; simp
  have hdetT : IsUnit (elimRows (N := 2) mpcExFes (adjExBcs p0)
      (adjExTan p0 (adjExSol p0))).transpose.det := by
    rw [Matrix.det_transpose]; exact isUnit_iff_ne_zero.2 hdet
  obtain ⟨g, hg⟩ : ∃ g, implicitVjp (N := 2) mpcExFes adjExBcs adjExRes adjExTan none adjExSolve
      (adjExSol p0) p0 v = .ok g := by
    rw [implicitVjp, adjExSolve, if_pos hdetT]
    exact ⟨_, rfl⟩
  refine ⟨g, hg, ?_⟩
  have hcd : ContDiffAt ℝ 1 (fun up : (Fin 2 → ℝ) × ℝ => constraintFn (N := 2) mpcExFes adjExBcs adjExRes
      up.1 up.2) (adjExSol p0, p0) := by
    have e : (fun up : (Fin 2 → ℝ) × ℝ => constraintFn (N := 2) mpcExFes adjExBcs adjExRes up.1 up.2) =
        fun up => ![up.1 0 - 1, up.1 1 - up.2 * up.1 0] := funext fun up => adjEx_constraint _ _
    rw [e]
    refine contDiffAt_pi.2 fun i => ?_
    match i with
    | 0 => simp only [Matrix.cons_val_zero]; fun_prop
    | 1 =>
      show ContDiffAt ℝ 1 (fun up : (Fin 2 → ℝ) × ℝ => up.1 1 - up.2 * up.1 0) _
      fun_prop
  obtain ⟨u, h1, -, h2, h3⟩ := C38_branch mpcExFes adjExBcs adjExRes adjExTan adjExSolve adjExSolve_exact p0
    (adjExSol p0) adjEx_wf (adjEx_jacobian p0 _) hcd hdet
    ((constraint_zero_iff mpcExFes adjExBcs adjExRes p0 (adjEx_wf p0) _).1 (adjEx_zero p0)) v g hg
  exact ⟨u, h1, h2, h3⟩

end JaxFem
