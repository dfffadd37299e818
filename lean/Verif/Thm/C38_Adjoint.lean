import Verif.Model.Adjoint
import Verif.Thm.C17_Tangent
import Verif.Thm.C36_Mpc
import Mathlib.Analysis.Calculus.FDeriv.Comp
import Mathlib.Analysis.Calculus.FDeriv.Prod
import Mathlib.Analysis.Calculus.FDeriv.Mul
import Mathlib.LinearAlgebra.Matrix.NonsingularInverse

/-!
# C38: implicit differentiation returns the adjoint gradient
-/

namespace JaxFem

variable {E : Type} [NormedAddCommGroup E] [NormedSpace ℝ E]

/-! ### Helper lemmas -/

theorem dotCLM_apply {n : Nat} (w x : Fin n → ℝ) : dotCLM w x = dotProduct w x := rfl

/-- Differentiability of a continuous implicit function. -/
theorem implicit_hasFDerivAt {n : Nat} (G : (Fin n → ℝ) × E → Fin n → ℝ)
    (L : ((Fin n → ℝ) × E) →L[ℝ] (Fin n → ℝ)) (x : E → Fin n → ℝ) (p0 : E)
    (hG : HasFDerivAt G L (x p0, p0)) (A : Matrix (Fin n) (Fin n) ℝ)
    (hA : ∀ d, L (d, 0) = A.mulVec d) (hdet : IsUnit A.det) (hx : ContinuousAt x p0)
    (hz : ∀ᶠ p in nhds p0, G (x p, p) = 0) :
    ∃ X : E →L[ℝ] (Fin n → ℝ), HasFDerivAt x X p0 ∧
      ∀ d, A.mulVec (X d) + L (0, d) = 0 := by
  set X : E →L[ℝ] (Fin n → ℝ) := -((matCLM A⁻¹).comp (L.comp (ContinuousLinearMap.inr ℝ (Fin n → ℝ) E)))
    with hX
  have hXd : ∀ d, A.mulVec (X d) + L (0, d) = 0 := by
    intro d
    have e : X d = -(A⁻¹.mulVec (L (0, d))) := rfl
    rw [e, Matrix.mulVec_neg, Matrix.mulVec_mulVec, Matrix.mul_nonsing_inv A hdet, Matrix.one_mulVec,
      neg_add_cancel]
  refine ⟨X, ?_, hXd⟩
  -- the remainder of `G` along the curve
  have hcont : Filter.Tendsto (fun p => (x p, p)) (nhds p0) (nhds (x p0, p0)) :=
    hx.prodMk continuousAt_id
  have h1 := (hasFDerivAt_iff_isLittleO.1 hG).comp_tendsto hcont
  have hz0 : G (x p0, p0) = 0 := hz.self_of_nhds
  -- multiply by the inverse
  have h2 : (fun p => x p - x p0 - X (p - p0)) =o[nhds p0] fun p => (x p - x p0, p - p0) := by
    have h3 := (matCLM A⁻¹).isBigO_comp (fun p => G (x p, p) - G (x p0, p0) -
      L ((x p, p) - (x p0, p0))) (nhds p0) |>.trans_isLittleO h1
    refine (h3.neg_left).congr' ?_ (Filter.EventuallyEq.of_eq rfl)
    filter_upwards [hz] with p hp
    have e1 : L ((x p, p) - (x p0, p0)) = A.mulVec (x p - x p0) + L (0, p - p0) := by
      rw [← hA, ← map_add]
      simp
    have e2 : L (0, p - p0) = -(A.mulVec (X (p - p0))) := by
      rw [eq_neg_iff_add_eq_zero, add_comm]; exact hXd _
    show -(A⁻¹.mulVec (G (x p, p) - G (x p0, p0) - L ((x p, p) - (x p0, p0)))) = _
    rw [hp, hz0, e1, e2, sub_self, zero_sub, Matrix.mulVec_neg, neg_neg, ← sub_eq_add_neg,
      ← Matrix.mulVec_sub, Matrix.mulVec_mulVec, Matrix.nonsing_inv_mul A hdet, Matrix.one_mulVec]
  -- `x p - x p0 = O(p - p0)`
  have h4 : (fun p => x p - x p0) =O[nhds p0] fun p => p - p0 := by
    have hb := h2.bound (show (0 : ℝ) < 1 / 2 by norm_num)
    obtain ⟨C, hC⟩ : ∃ C : ℝ, ∀ d, ‖X d‖ ≤ C * ‖d‖ := ⟨‖X‖, fun d => X.le_opNorm d⟩
    refine Asymptotics.IsBigO.of_bound (2 * C + 1) ?_
    filter_upwards [hb] with p hp
    have t1 : ‖x p - x p0‖ ≤ ‖x p - x p0 - X (p - p0)‖ + ‖X (p - p0)‖ := by
      have := norm_add_le (x p - x p0 - X (p - p0)) (X (p - p0))
      rwa [sub_add_cancel] at this
    have t2 := hC (p - p0)
    have t3 : ‖(x p - x p0, p - p0)‖ ≤ ‖x p - x p0‖ + ‖p - p0‖ := by
      rw [Prod.norm_def]
      exact max_le (le_add_of_nonneg_right (norm_nonneg _)) (le_add_of_nonneg_left (norm_nonneg _))
    nlinarith
  refine hasFDerivAt_iff_isLittleO.2 (h2.trans_isBigO ?_)
  exact h4.prod_left (Asymptotics.isBigO_refl _ _)

/-! ### Property theorems -/

section
variable (fes : List FE) (bcs : E → List (List (BCEntry ℝ)))
  (res : E → (Fin (totalDofs fes) → ℝ) → Fin (totalDofs fes) → ℝ)
  (tan : E → (Fin (totalDofs fes) → ℝ) → Matrix (Fin (totalDofs fes)) (Fin (totalDofs fes)) ℝ)
  (solve : (n : Nat) → Matrix (Fin n) (Fin n) ℝ → (Fin n → ℝ) → Except Err (Fin n → ℝ))

/-- The linear solver returns exact solutions (when it returns). -/
def ExactAdjointSolver : Prop := ∀ n A b x, solve n A b = .ok x → A.mulVec x = b

theorem partials_constraint (p0 : E) (u0 : Fin (totalDofs fes) → ℝ) (h : WFBC fes (bcs p0))
    (ht : HasJacobianAt (res p0) (tan p0 u0) u0)
    (L : ((Fin (totalDofs fes) → ℝ) × E) →L[ℝ] (Fin (totalDofs fes) → ℝ))
    (hc : HasFDerivAt (fun up : (Fin (totalDofs fes) → ℝ) × E => constraintFn fes bcs res up.1 up.2) L
      (u0, p0)) :
    (∀ d, L (d, 0) = (elimRows fes (bcs p0) (tan p0 u0)).mulVec d) ∧
    fderiv ℝ (fun p => constraintFn fes bcs res u0 p) p0 = L.comp (ContinuousLinearMap.inr ℝ _ E) := by
  constructor
  · have h1 := C17_derivative fes (bcs p0) h 1 (res p0) _ _ ht
    have h2 : HasFDerivAt (fun u => constraintFn fes bcs res u p0)
        (L.comp (ContinuousLinearMap.inl ℝ (Fin (totalDofs fes) → ℝ) E)) u0 :=
      HasFDerivAt.comp (g := fun up : (Fin (totalDofs fes) → ℝ) × E =>
        constraintFn fes bcs res up.1 up.2) (f := fun u => (u, p0)) u0 hc (hasFDerivAt_prodMk_left u0 p0)
    intro d
    have := congrArg (fun T => T d) (h2.unique h1)
    exact this
  · exact (HasFDerivAt.comp (g := fun up : (Fin (totalDofs fes) → ℝ) × E =>
        constraintFn fes bcs res up.1 up.2) (f := fun p => (u0, p)) p0 hc
        (hasFDerivAt_prodMk_right u0 p0)).fderiv

/-- **C38.** Let `u` be a continuous solution curve of `c(u(p), p) = 0` near `p0`, `c` differentiable at
`(u(p0), p0)` with the assembled tangent as derivative of the residual, and the constrained tangent
invertible. If the adjoint solver is exact, what the backward pass returns is the derivative of
`p ↦ ⟨v, u(p)⟩` at `p0`, for every cotangent `v`. -/
theorem C38_adjoint (hs : ExactAdjointSolver solve) (p0 : E) (u : E → Fin (totalDofs fes) → ℝ)
    (h : WFBC fes (bcs p0)) (ht : HasJacobianAt (res p0) (tan p0 (u p0)) (u p0))
    (hc : DifferentiableAt ℝ (fun up : (Fin (totalDofs fes) → ℝ) × E =>
      constraintFn fes bcs res up.1 up.2) (u p0, p0))
    (hdet : IsUnit (elimRows fes (bcs p0) (tan p0 (u p0))).det) (hu : ContinuousAt u p0)
    (hz : ∀ᶠ p in nhds p0, constraintFn fes bcs res (u p) p = 0)
    (v : Fin (totalDofs fes) → ℝ) (g : E →L[ℝ] ℝ)
    (hg : implicitVjp fes bcs res tan none solve (u p0) p0 v = .ok g) :
    HasFDerivAt (fun p => dotProduct v (u p)) g p0 := by
  obtain ⟨hA, hB⟩ := partials_constraint fes bcs res tan p0 (u p0) h ht _ hc.hasFDerivAt
  obtain ⟨X, hX, hXd⟩ := implicit_hasFDerivAt _ _ u p0 hc.hasFDerivAt _ hA hdet hu hz
  rw [implicitVjp] at hg
  rcases hl : solve _ (elimRows fes (bcs p0) (tan p0 (u p0))).transpose v with e | l
  · rw [hl] at hg; cases hg
  rw [hl] at hg
  have hg : -jaxVjp (fun p => constraintFn fes bcs res (u p0) p) p0 l = g := Except.ok.inj hg
  have h1 : HasFDerivAt (fun p => dotProduct v (u p)) ((dotCLM v).comp X) p0 :=
    (dotCLM v).hasFDerivAt.comp p0 hX
  refine h1.congr_fderiv ?_
  ext d
  rw [← hg, jaxVjp, hB]
  show dotProduct v (X d) = -(dotProduct l (fderiv ℝ _ (u p0, p0) (0, d)))
  rw [← hs _ _ _ _ hl, Matrix.mulVec_transpose, ← Matrix.dotProduct_mulVec, eq_neg_iff_add_eq_zero,
    ← dotProduct_add, hXd, dotProduct_zero]

/-- **C38 (multi-point constraints).** The same with a constraint matrix `P`: the full solution is
`P û(p)` with `û` solving the reduced equations. -/
theorem C38_adjoint_mpc (hs : ExactAdjointSolver solve) {M : Nat}
    (P : Matrix (Fin (totalDofs fes)) (Fin M) ℝ) (p0 : E) (x : E → Fin M → ℝ)
    (h : WFBC fes (bcs p0)) (ht : HasJacobianAt (res p0) (tan p0 (P.mulVec (x p0))) (P.mulVec (x p0)))
    (hc : DifferentiableAt ℝ (fun up : (Fin (totalDofs fes) → ℝ) × E =>
      constraintFn fes bcs res up.1 up.2) (P.mulVec (x p0), p0))
    (hdet : IsUnit (P.transpose * (elimRows fes (bcs p0) (tan p0 (P.mulVec (x p0))) * P)).det)
    (hx : ContinuousAt x p0)
    (hz : ∀ᶠ p in nhds p0, P.transpose.mulVec (constraintFn fes bcs res (P.mulVec (x p)) p) = 0)
    (v : Fin (totalDofs fes) → ℝ) (g : E →L[ℝ] ℝ)
    (hg : implicitVjp fes bcs res tan (some ⟨M, P⟩) solve (P.mulVec (x p0)) p0 v = .ok g) :
    HasFDerivAt (fun p => dotProduct v (P.mulVec (x p))) g p0 := by
  set c := fun up : (Fin (totalDofs fes) → ℝ) × E => constraintFn fes bcs res up.1 up.2 with hcdef
  set L := fderiv ℝ c (P.mulVec (x p0), p0) with hL
  have hcL : HasFDerivAt c L (P.mulVec (x p0), p0) := hc.hasFDerivAt
  obtain ⟨hA, hB⟩ := partials_constraint fes bcs res tan p0 (P.mulVec (x p0)) h ht L hcL
  have hP : HasFDerivAt (fun xp : (Fin M → ℝ) × E => (P.mulVec xp.1, xp.2))
      (((matCLM P).comp (ContinuousLinearMap.fst ℝ (Fin M → ℝ) E)).prod
        (ContinuousLinearMap.snd ℝ (Fin M → ℝ) E)) (x p0, p0) :=
    ContinuousLinearMap.hasFDerivAt (((matCLM P).comp (ContinuousLinearMap.fst ℝ (Fin M → ℝ) E)).prod
        (ContinuousLinearMap.snd ℝ (Fin M → ℝ) E))
  have hG : HasFDerivAt (fun xp : (Fin M → ℝ) × E =>
      P.transpose.mulVec (constraintFn fes bcs res (P.mulVec xp.1) xp.2))
      ((matCLM P.transpose).comp (L.comp (((matCLM P).comp (ContinuousLinearMap.fst ℝ (Fin M → ℝ) E)).prod
        (ContinuousLinearMap.snd ℝ (Fin M → ℝ) E)))) (x p0, p0) := by
    have h5 : HasFDerivAt c L ((fun xp : (Fin M → ℝ) × E => (P.mulVec xp.1, xp.2)) (x p0, p0)) := hcL
    have h6 : HasFDerivAt (fun xp : (Fin M → ℝ) × E => constraintFn fes bcs res (P.mulVec xp.1) xp.2)
        (L.comp (((matCLM P).comp (ContinuousLinearMap.fst ℝ (Fin M → ℝ) E)).prod
        (ContinuousLinearMap.snd ℝ (Fin M → ℝ) E))) (x p0, p0) :=
      HasFDerivAt.comp (g := c) (f := fun xp : (Fin M → ℝ) × E => (P.mulVec xp.1, xp.2)) (x p0, p0) h5 hP
    exact (matCLM P.transpose).hasFDerivAt.comp (x p0, p0) h6
  obtain ⟨X, hX, hXd⟩ := implicit_hasFDerivAt _ _ x p0 hG
    (P.transpose * (elimRows fes (bcs p0) (tan p0 (P.mulVec (x p0))) * P))
    (fun d => by
      show P.transpose.mulVec (L (P.mulVec d, 0)) = _
      rw [hA, Matrix.mulVec_mulVec, Matrix.mulVec_mulVec, Matrix.mul_assoc]) hdet hx hz
  rw [implicitVjp] at hg
  rcases hl : solve M (P.transpose * (elimRows fes (bcs p0) (tan p0 (P.mulVec (x p0))) * P)).transpose
    (P.transpose.mulVec v) with e | l
  · rw [hl] at hg; cases hg
  rw [hl] at hg
  have hg : -jaxVjp (fun p => constraintFn fes bcs res (P.mulVec (x p0)) p) p0 (P.mulVec l) = g :=
    Except.ok.inj hg
  have h1 : HasFDerivAt (fun p => dotProduct v (P.mulVec (x p)))
      ((dotCLM v).comp ((matCLM P).comp X)) p0 :=
    (dotCLM v).hasFDerivAt.comp p0 ((matCLM P).hasFDerivAt.comp p0 hX)
  refine h1.congr_fderiv ?_
  ext d
  rw [← hg, jaxVjp, hB]
  show dotProduct v (P.mulVec (X d)) = -(dotProduct (P.mulVec l) (L (0, d)))
  have e1 : dotProduct (P.mulVec l) (L (0, d)) = dotProduct l (P.transpose.mulVec (L (0, d))) := by
    rw [Matrix.dotProduct_mulVec, Matrix.vecMul_transpose]
  have e2 : dotProduct v (P.mulVec (X d)) = dotProduct (P.transpose.mulVec v) (X d) := by
    rw [Matrix.dotProduct_mulVec, Matrix.mulVec_transpose]
  have e3 : P.transpose.mulVec (L (0, d)) = P.transpose.mulVec (L (P.mulVec 0, d)) := by
    rw [Matrix.mulVec_zero]
  have e4 := hXd d
  rw [e1, e2, ← hs _ _ _ _ hl, Matrix.mulVec_transpose, ← Matrix.dotProduct_mulVec,
    eq_neg_iff_add_eq_zero, e3, ← dotProduct_add]
  refine Eq.trans (congrArg _ e4) (dotProduct_zero _)

end

/-! ### A concrete case

Two degrees of freedom, the first fixed to 1, the second determined by `u₁ = p u₀`; the solution is
`(1, p)`. -/

/-- Example boundary data. -/
def adjExBcs : ℝ → List (List (BCEntry ℝ)) := fun _ => [[⟨[0], [0], [1]⟩]]

/-- Example residual. -/
def adjExRes : ℝ → (Fin 2 → ℝ) → Fin 2 → ℝ := fun p u => ![u 0, u 1 - p * u 0]

/-- Example tangent. -/
def adjExTan : ℝ → (Fin 2 → ℝ) → Matrix (Fin 2) (Fin 2) ℝ := fun p _ => !![1, 0; -p, 1]

/-- Example solution. -/
def adjExSol : ℝ → Fin 2 → ℝ := fun p => ![1, p]

/-- An exact solver. -/
noncomputable def adjExSolve (n : Nat) (A : Matrix (Fin n) (Fin n) ℝ) (b : Fin n → ℝ) :
    Except Err (Fin n → ℝ) :=
  open Classical in if IsUnit A.det then .ok (A⁻¹.mulVec b) else .error .runtime

theorem adjExSolve_exact : ExactAdjointSolver adjExSolve := by
  intro n A b x h
  rw [adjExSolve] at h
  split at h
  · rename_i hd
    cases h
    rw [Matrix.mulVec_mulVec, Matrix.mul_nonsing_inv A hd, Matrix.one_mulVec]
  · cases h

theorem adjEx_wf (p : ℝ) : WFBC mpcExFes (adjExBcs p) := by
  refine ⟨rfl, ?_, ?_, ?_, ?_⟩
  · simp [adjExBcs]
  · simp [adjExBcs]
  · simp [adjExBcs]
  · intro i fe es h1 h2
    cases i with
    | zero => cases h1; cases h2; simp
    | succ i => cases h1

theorem adjEx_fixed (p : ℝ) : Prescribed mpcExFes (adjExBcs p) 0 (some 1) :=
  .fixed 0 0 0 ⟨2, 1, 2, [[0, 1]]⟩ [⟨[0], [0], [1]⟩] _ rfl rfl (by decide) (by decide)
      (by decide) ⟨[], _, [], rfl, ⟨0, rfl, rfl, rfl⟩, fun e he => by cases he⟩

theorem adjEx_free (p : ℝ) : Prescribed mpcExFes (adjExBcs p) 1 none := by
  refine .free 0 1 0 ⟨2, 1, 2, [[0, 1]]⟩ [⟨[0], [0], [1]⟩] rfl rfl (by decide) (by decide) (by decide) ?_
  rintro e he v ⟨k, h1, -⟩
  cases List.mem_singleton.1 he
  cases k <;> simp at h1

theorem adjEx_constraint (u : Fin 2 → ℝ) (p : ℝ) :
    constraintFn (N := 2) mpcExFes adjExBcs adjExRes u p = ![u 0 - 1, u 1 - p * u 0] := by
  funext k
  have h := applyBcV_spec mpcExFes (adjExBcs p) (adjEx_wf p) 1 (adjExRes p u) u
  match k with
  | 0 => exact ((h (0 : Fin 2)).2 1 (adjEx_fixed p)).trans (by simp)
  | 1 => exact ((h (1 : Fin 2)).1 (adjEx_free p)).trans (by simp [adjExRes])

theorem adjEx_matrix (u : Fin 2 → ℝ) (p : ℝ) :
    elimRows (N := 2) mpcExFes (adjExBcs p) (adjExTan p u) = !![1, 0; -p, 1] := by
  have h := elimRows_spec (N := 2) mpcExFes (adjExBcs p) (adjEx_wf p) (adjExTan p u)
  ext i j
  match i with
  | 0 => exact ((h 0 j).2 1 (adjEx_fixed p)).trans (by fin_cases j <;> simp)
  | 1 => exact ((h 1 j).1 (adjEx_free p)).trans (by fin_cases j <;> simp [adjExTan])

theorem adjEx_jacobian (p : ℝ) (u : Fin 2 → ℝ) : HasJacobianAt (adjExRes p) (adjExTan p u) u := by
  have : adjExRes p = fun x => matCLM (adjExTan p u) x := by
    funext x i
    match i with
    | 0 => simp [adjExRes, matCLM, adjExTan, Matrix.vecHead]
    | 1 => simp [adjExRes, matCLM, adjExTan, Matrix.vecHead, Matrix.vecTail]; ring
  rw [HasJacobianAt, this]
  exact (matCLM (adjExTan p u)).hasFDerivAt

theorem adjEx_differentiable (x : (Fin 2 → ℝ) × ℝ) : DifferentiableAt ℝ
    (fun up : (Fin 2 → ℝ) × ℝ => constraintFn (N := 2) mpcExFes adjExBcs adjExRes up.1 up.2) x := by
  have e : (fun up : (Fin 2 → ℝ) × ℝ => constraintFn (N := 2) mpcExFes adjExBcs adjExRes up.1 up.2) =
      fun up => ![up.1 0 - 1, up.1 1 - up.2 * up.1 0] := funext fun up => adjEx_constraint _ _
  rw [e, differentiableAt_pi]
  intro i
  match i with
  | 0 => simp only [Matrix.cons_val_zero]; fun_prop
  | 1 =>
    show DifferentiableAt ℝ (fun up : (Fin 2 → ℝ) × ℝ => up.1 1 - up.2 * up.1 0) x
    fun_prop

theorem adjEx_zero (p : ℝ) : constraintFn (N := 2) mpcExFes adjExBcs adjExRes (adjExSol p) p = 0 := by
  rw [adjEx_constraint]
  funext k
  match k with
  | 0 => simp [adjExSol]
  | 1 => simp [adjExSol]

/-- The example meets the hypotheses of `C38_adjoint`; the derivative in direction 1 is `v₁`. -/
example (p0 : ℝ) (v : Fin 2 → ℝ) : ∃ g,
    implicitVjp (N := 2) mpcExFes adjExBcs adjExRes adjExTan none adjExSolve (adjExSol p0) p0 v = .ok g ∧
    HasFDerivAt (fun p => dotProduct v (adjExSol p)) g p0 ∧ g 1 = v 1 := by
  have hdet : IsUnit (elimRows (N := 2) mpcExFes (adjExBcs p0) (adjExTan p0 (adjExSol p0))).det := by
    rw [adjEx_matrix, Matrix.det_fin_two]; simp
  have hdetT : IsUnit (elimRows (N := 2) mpcExFes (adjExBcs p0)
      (adjExTan p0 (adjExSol p0))).transpose.det := by rwa [Matrix.det_transpose]
  have hsol : Differentiable ℝ adjExSol := by
    rw [differentiable_pi]
    intro i
    fin_cases i
    · exact differentiable_const (1 : ℝ)
    · exact differentiable_id
  obtain ⟨g, hg⟩ : ∃ g, implicitVjp (N := 2) mpcExFes adjExBcs adjExRes adjExTan none adjExSolve
      (adjExSol p0) p0 v = .ok g := by
    rw [implicitVjp, adjExSolve, if_pos hdetT]
    exact ⟨_, rfl⟩
  have h := C38_adjoint (E := ℝ) mpcExFes adjExBcs adjExRes adjExTan adjExSolve adjExSolve_exact p0 adjExSol
    (adjEx_wf p0) ?_ ?_ hdet hsol.continuous.continuousAt ?_ v g hg
  · refine ⟨g, hg, h, ?_⟩
    have h2 : HasFDerivAt (fun p => dotProduct v (adjExSol p))
        ((v 1) • ContinuousLinearMap.id ℝ ℝ) p0 := by
      have e : (fun p => dotProduct v (adjExSol p)) = fun p => v 0 + v 1 * p := by
        funext p; simp [adjExSol, dotProduct, Fin.sum_univ_two]
      rw [e]
      exact ((hasFDerivAt_id p0).const_mul (v 1)).const_add (v 0)
    rw [h.unique h2]
    simp
  · exact adjEx_jacobian p0 _
  · exact adjEx_differentiable _
  · exact Filter.Eventually.of_forall adjEx_zero

end JaxFem
