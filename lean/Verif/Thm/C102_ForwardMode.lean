import Verif.Spec.ForwardMode
import Verif.Thm.C38_Branch

/-!
# C102: forward-mode differentiation of the solution
-/

namespace JaxFem
namespace ForwardMode

open scoped Topology

variable {E : Type} [NormedAddCommGroup E] [NormedSpace ℝ E]

/-! ### Helper lemmas -/

theorem matvec_eq (fes : List FE) (bcs : E → List (List (BCEntry ℝ)))
    (res : E → (Fin (totalDofs fes) → ℝ) → Fin (totalDofs fes) → ℝ)
    (A : Matrix (Fin (totalDofs fes)) (Fin (totalDofs fes)) ℝ) (p : E) (u : Fin (totalDofs fes) → ℝ)
    (h : WFBC fes (bcs p)) (ht : HasJacobianAt (res p) A u) :
    matvec fes bcs res u p = (elimRows fes (bcs p) A).mulVec := by
  funext x
  have h1 : HasFDerivAt (fun u => constraintFn fes bcs res u p) (matCLM (elimRows fes (bcs p) A)) u :=
    C17_derivative fes (bcs p) h 1 (res p) _ _ ht
  rw [matvec, h1.fderiv]
  rfl

theorem transposed_mulVec {N : Nat} (A : Matrix (Fin N) (Fin N) ℝ) :
    transposed A.mulVec = A.transpose.mulVec := by
  funext w i
  rw [transposed, Matrix.mulVec_single_one, Matrix.mulVec, dotProduct_comm]
  rfl

theorem mulVec_inv_mulVec {N : Nat} (A : Matrix (Fin N) (Fin N) ℝ) (h : A.det ≠ 0) (b : Fin N → ℝ) :
    A.mulVec (A⁻¹.mulVec b) = b := by
  rw [Matrix.mulVec_mulVec, Matrix.mul_nonsing_inv _ (isUnit_iff_ne_zero.2 h), Matrix.one_mulVec]

/-! ### Property theorems -/

/-- **C102 (forward mode).** Let `u0`, returned by the forward solver for the parameter `p0`, solve the
constrained equations, the constraint function be continuously differentiable there and the eliminated
tangent be invertible. Then exactly one branch `u(p)` of solutions passes through `u0`; it has a derivative
`X` at `p0`; the custom rule returns `u0` and the directional derivative `X ṗ` for every direction `ṗ`; and
the rule transposed by reverse mode returns the derivative of `p ↦ ⟨v, u(p)⟩` for every cotangent `v`. -/
theorem C102_jvp [CompleteSpace E] (fes : List FE) (bcs : E → List (List (BCEntry ℝ)))
    (res : E → (Fin (totalDofs fes) → ℝ) → Fin (totalDofs fes) → ℝ)
    (tan : E → (Fin (totalDofs fes) → ℝ) → Matrix (Fin (totalDofs fes)) (Fin (totalDofs fes)) ℝ)
    (solve : ((Fin (totalDofs fes) → ℝ) → Fin (totalDofs fes) → ℝ) → (Fin (totalDofs fes) → ℝ) →
      Except Err (Fin (totalDofs fes) → ℝ)) (hs : ExactOperatorSolver solve)
    (primal : E → Except Err (Fin (totalDofs fes) → ℝ)) (p0 : E) (u0 : Fin (totalDofs fes) → ℝ)
    (hp : primal p0 = .ok u0) (h : ∀ p, WFBC fes (bcs p)) (ht : HasJacobianAt (res p0) (tan p0 u0) u0)
    (hc : ContDiffAt ℝ 1 (fun up : (Fin (totalDofs fes) → ℝ) × E =>
      constraintFn fes bcs res up.1 up.2) (u0, p0))
    (hdet : (elimRows fes (bcs p0) (tan p0 u0)).det ≠ 0) (hz : SolvesBVP fes (bcs p0) (res p0) u0) :
    ∃ u : E → Fin (totalDofs fes) → ℝ, u p0 = u0 ∧
      (∀ᶠ pw in 𝓝 (p0, u0), SolvesBVP fes (bcs pw.1) (res pw.1) pw.2 ↔ u pw.1 = pw.2) ∧
      (∀ᶠ p in 𝓝 p0, SolvesBVP fes (bcs p) (res p) (u p)) ∧
      ∃ X : E →L[ℝ] (Fin (totalDofs fes) → ℝ), HasFDerivAt u X p0 ∧
        (∀ pDot r, forwardSolveJvp fes bcs res solve primal p0 pDot = .ok r → r = (u0, X pDot)) ∧
        ∀ v g, implicitJvpT fes bcs res solve u0 p0 v = .ok g →
          HasFDerivAt (fun p => dotProduct v (u p)) g p0 := by
  obtain ⟨u, e3, e4, e1, e2⟩ := exists_branch _ u0 p0 hc _
    (C17_derivative fes (bcs p0) (h p0) 1 (res p0) _ _ ht) hdet
    ((constraint_zero_iff fes bcs res p0 (h p0) u0).2 hz)
  have hu : IsUnit (elimRows fes (bcs p0) (tan p0 u0)).det := isUnit_iff_ne_zero.2 hdet
  refine ⟨u, e3, ?_, ?_, ?_⟩
  · filter_upwards [e1] with pw hpw
    rw [← constraint_zero_iff fes bcs res pw.1 (h pw.1)]
    exact hpw
  · filter_upwards [e2] with p hp
    exact (constraint_zero_iff fes bcs res p (h p) _).1 hp
  · have hd := (hc.differentiableAt one_ne_zero).hasFDerivAt
    obtain ⟨hA, hB⟩ := partials_constraint fes bcs res tan p0 u0 (h p0) ht _ hd
    have hd' : HasFDerivAt (fun up : (Fin (totalDofs fes) → ℝ) × E => constraintFn fes bcs res up.1 up.2)
        (fderiv ℝ (fun up : (Fin (totalDofs fes) → ℝ) × E => constraintFn fes bcs res up.1 up.2) (u0, p0))
        (u p0, p0) := by rw [e3]; exact hd
    obtain ⟨X, hX, hXd⟩ := implicit_hasFDerivAt _ _ u p0 hd' _ hA hu e4 e2
    refine ⟨X, hX, ?_, ?_⟩
    · intro pDot r hr
      simp only [forwardSolveJvp, hp] at hr
      rcases hl : implicitJvp fes bcs res solve u0 p0 pDot with e | d
      · simp only [bind, Except.bind, hl] at hr; cases hr
      simp only [bind, Except.bind, hl, pure, Except.pure] at hr
      cases hr
      have h1 := hs _ _ _ hl
      rw [matvec_eq fes bcs res _ p0 u0 (h p0) ht, hB] at h1
      have h2 := hXd pDot
      have h3 : (elimRows fes (bcs p0) (tan p0 u0)).mulVec d =
          (elimRows fes (bcs p0) (tan p0 u0)).mulVec (X pDot) := by
        rw [h1, eq_neg_of_add_eq_zero_left h2, neg_one_smul]
        rfl
      have h4 := congrArg (elimRows fes (bcs p0) (tan p0 u0))⁻¹.mulVec h3
      rw [Matrix.mulVec_mulVec, Matrix.mulVec_mulVec, Matrix.nonsing_inv_mul _ hu, Matrix.one_mulVec,
        Matrix.one_mulVec] at h4
      rw [h4]
    · intro v g hg
      rw [implicitJvpT] at hg
      rcases hl : solve (transposed (matvec fes bcs res u0 p0)) v with e | l
      · simp only [bind, Except.bind, hl] at hg; cases hg
      simp only [bind, Except.bind, hl, pure, Except.pure] at hg
      cases hg
      have h1 : HasFDerivAt (fun p => dotProduct v (u p)) ((dotCLM v).comp X) p0 :=
        (dotCLM v).hasFDerivAt.comp p0 hX
      refine h1.congr_fderiv ?_
      have h2 := hs _ _ _ hl
      rw [matvec_eq fes bcs res _ p0 u0 (h p0) ht, transposed_mulVec] at h2
      ext d
      rw [jaxVjp, hB]
      show dotProduct v (X d) = dotProduct ((-1 : ℝ) • l) (fderiv ℝ _ (u0, p0) (0, d))
      rw [← h2, Matrix.mulVec_transpose, ← Matrix.dotProduct_mulVec, smul_dotProduct, smul_eq_mul,
        neg_one_mul, eq_neg_iff_add_eq_zero, ← dotProduct_add]
      exact (congrArg _ (hXd d)).trans (dotProduct_zero _)

/-- **C102 (duality).** With exact solvers the tangent of the forward-mode rule and the gradient of the
reverse-mode rule of `solver.py` satisfy `⟨v, u̇⟩ = g ṗ`, and the transposed forward-mode rule returns that same
gradient. (No assumption on the solution.) -/
theorem C102_duality (fes : List FE) (bcs : E → List (List (BCEntry ℝ)))
    (res : E → (Fin (totalDofs fes) → ℝ) → Fin (totalDofs fes) → ℝ)
    (tan : E → (Fin (totalDofs fes) → ℝ) → Matrix (Fin (totalDofs fes)) (Fin (totalDofs fes)) ℝ)
    (solve : ((Fin (totalDofs fes) → ℝ) → Fin (totalDofs fes) → ℝ) → (Fin (totalDofs fes) → ℝ) →
      Except Err (Fin (totalDofs fes) → ℝ)) (hs : ExactOperatorSolver solve)
    (solveA : (n : Nat) → Matrix (Fin n) (Fin n) ℝ → (Fin n → ℝ) → Except Err (Fin n → ℝ))
    (hsA : ExactAdjointSolver solveA) (p : E) (u : Fin (totalDofs fes) → ℝ) (h : WFBC fes (bcs p))
    (ht : HasJacobianAt (res p) (tan p u) u) (v : Fin (totalDofs fes) → ℝ) (g : E →L[ℝ] ℝ)
    (hg : implicitVjp fes bcs res tan none solveA u p v = .ok g) :
    (∀ pDot d, implicitJvp fes bcs res solve u p pDot = .ok d → dotProduct v d = g pDot) ∧
    ((elimRows fes (bcs p) (tan p u)).det ≠ 0 →
      ∀ g', implicitJvpT fes bcs res solve u p v = .ok g' → g' = g) := by
  rw [implicitVjp] at hg
  rcases hl : solveA _ (elimRows fes (bcs p) (tan p u)).transpose v with e | l
  · rw [hl] at hg; cases hg
  rw [hl] at hg
  have hg : -jaxVjp (fun q => constraintFn fes bcs res u q) p l = g := Except.ok.inj hg
  have hl := hsA _ _ _ _ hl
  constructor
  · intro pDot d hd
    have h1 := hs _ _ _ hd
    rw [matvec_eq fes bcs res _ p u h ht] at h1
    rw [← hg, ← hl, Matrix.mulVec_transpose, ← Matrix.dotProduct_mulVec, h1, dotProduct_smul, smul_eq_mul,
      neg_one_mul]
    rfl
  · intro hdet g' hg'
    rw [implicitJvpT] at hg'
    rcases hl' : solve (transposed (matvec fes bcs res u p)) v with e | l'
    · simp only [bind, Except.bind, hl'] at hg'; cases hg'
    simp only [bind, Except.bind, hl', pure, Except.pure] at hg'
    cases hg'
    have h2 := hs _ _ _ hl'
    rw [matvec_eq fes bcs res _ p u h ht, transposed_mulVec] at h2
    have hu : IsUnit (elimRows fes (bcs p) (tan p u)).transpose.det := by
      rw [Matrix.det_transpose]; exact isUnit_iff_ne_zero.2 hdet
    have h4 := congrArg (elimRows fes (bcs p) (tan p u)).transpose⁻¹.mulVec (h2.trans hl.symm)
    rw [Matrix.mulVec_mulVec, Matrix.mulVec_mulVec, Matrix.nonsing_inv_mul _ hu, Matrix.one_mulVec,
      Matrix.one_mulVec] at h4
    rw [← hg, h4]
    ext d
    show dotProduct ((-1 : ℝ) • l) _ = -(dotProduct l _)
    rw [smul_dotProduct, smul_eq_mul, neg_one_mul]

/-! ### A concrete case: the example of `C38_adjoint` -/

open Classical in
/-- An exact solver for operators. -/
noncomputable def exSolveOp {N : Nat} (f : (Fin N → ℝ) → Fin N → ℝ) (b : Fin N → ℝ) :
    Except Err (Fin N → ℝ) := if h : ∃ x, f x = b then .ok h.choose else .error .runtime

theorem exSolveOp_exact {N : Nat} : ExactOperatorSolver (exSolveOp (N := N)) := by
  intro f b x h
  rw [exSolveOp] at h
  split at h
  · rename_i hx
    cases h
    exact hx.choose_spec
  · cases h

theorem exContDiff (x : (Fin 2 → ℝ) × ℝ) : ContDiffAt ℝ 1 (fun up : (Fin 2 → ℝ) × ℝ =>
    constraintFn (N := 2) mpcExFes adjExBcs adjExRes up.1 up.2) x := by
  have e : (fun up : (Fin 2 → ℝ) × ℝ => constraintFn (N := 2) mpcExFes adjExBcs adjExRes up.1 up.2) =
      fun up => ![up.1 0 - 1, up.1 1 - up.2 * up.1 0] := funext fun up => adjEx_constraint _ _
  rw [e]
  refine contDiffAt_pi.2 fun i => ?_
  match i with
  | 0 => simp only [Matrix.cons_val_zero]; fun_prop
  | 1 =>
    show ContDiffAt ℝ 1 (fun up : (Fin 2 → ℝ) × ℝ => up.1 1 - up.2 * up.1 0) _
    fun_prop

/-- The example meets the hypotheses, the rule returns, and returns the derivative of `(1, p)`. -/
example (p0 pDot : ℝ) : forwardSolveJvp (N := 2) mpcExFes adjExBcs adjExRes exSolveOp
    (fun p => .ok (adjExSol p)) p0 pDot = .ok (![1, p0], ![0, pDot]) := by
  have hdet : (elimRows (N := 2) mpcExFes (adjExBcs p0) (adjExTan p0 (adjExSol p0))).det ≠ 0 := by
    rw [adjEx_matrix, Matrix.det_fin_two]; simp
  obtain ⟨(u : ℝ → Fin 2 → ℝ), h1, -, h2, (X : ℝ →L[ℝ] (Fin 2 → ℝ)), hX, hr, -⟩ := C102_jvp mpcExFes adjExBcs adjExRes adjExTan exSolveOp
    exSolveOp_exact (fun p => .ok (adjExSol p)) p0 (adjExSol p0) rfl adjEx_wf (adjEx_jacobian p0 _)
    (exContDiff _) hdet ((constraint_zero_iff mpcExFes adjExBcs adjExRes p0 (adjEx_wf p0) _).1 (adjEx_zero p0))
  have hu : u =ᶠ[𝓝 p0] adjExSol := by
    filter_upwards [h2] with p hp
    have := (constraint_zero_iff mpcExFes adjExBcs adjExRes p (adjEx_wf p) _).2 hp
    have this : ![u p 0 - 1, u p 1 - p * u p 0] = 0 := (adjEx_constraint (u p) p).symm.trans this
    have a0 : u p 0 - 1 = 0 := congrFun this 0
    have a1 : u p 1 - p * u p 0 = 0 := congrFun this 1
    funext i
    have b0 : u p 0 = 1 := by linarith
    match i with
    | 0 => exact b0
    | 1 => rw [b0] at a1; show u p 1 = p; linarith
  have hX' : HasFDerivAt adjExSol X p0 := hX.congr_of_eventuallyEq hu.symm
  have hXe : X pDot = ![0, pDot] := by
    have hXi := hasFDerivAt_pi'.1 hX'
    funext i
    match i with
    | 0 =>
      have := (hXi (0 : Fin 2)).unique (show HasFDerivAt (fun p => adjExSol p 0) (0 : ℝ →L[ℝ] ℝ) p0 from
        hasFDerivAt_const (1 : ℝ) p0)
      exact congrArg (fun T : ℝ →L[ℝ] ℝ => T pDot) this
    | 1 =>
      have := (hXi (1 : Fin 2)).unique (show HasFDerivAt (fun p => adjExSol p 1)
        (ContinuousLinearMap.id ℝ ℝ) p0 from hasFDerivAt_id p0)
      exact congrArg (fun T : ℝ →L[ℝ] ℝ => T pDot) this
  obtain ⟨d, hd⟩ : ∃ d, implicitJvp (N := 2) mpcExFes adjExBcs adjExRes exSolveOp (adjExSol p0) p0 pDot =
      .ok d := by
    rw [implicitJvp, exSolveOp, dif_pos]
    · exact ⟨_, rfl⟩
    · refine ⟨(elimRows (N := 2) mpcExFes (adjExBcs p0) (adjExTan p0 (adjExSol p0)))⁻¹.mulVec ((-1 : ℝ) •
        fderiv ℝ (fun p => constraintFn (N := 2) mpcExFes adjExBcs adjExRes (adjExSol p0) p) p0 pDot), ?_⟩
      rw [show matvec mpcExFes adjExBcs adjExRes (adjExSol p0) p0 = _ from
        matvec_eq mpcExFes adjExBcs adjExRes _ p0 (adjExSol p0) (adjEx_wf p0) (adjEx_jacobian p0 _)]
      exact mulVec_inv_mulVec _ hdet _
  have hf : forwardSolveJvp (N := 2) mpcExFes adjExBcs adjExRes exSolveOp
      (fun p => .ok (adjExSol p)) p0 pDot = .ok (adjExSol p0, d) := by
    simp only [forwardSolveJvp, bind, Except.bind, hd, pure, Except.pure]
  rw [hf]
  have h5 : (adjExSol p0, d) = (adjExSol p0, X pDot) := hr pDot _ hf
  rw [h5, hXe]
  rfl

end ForwardMode
end JaxFem
