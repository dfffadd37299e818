import Verif.Spec.Inverse
import Mathlib.Analysis.Calculus.Deriv.Pow
import Verif.Thm.C74_LinearSolve
import Verif.Thm.C38_Branch

/-!
# C100: inverse problems in which state and parameters enter linearly
-/

namespace JaxFem.Inverse

open scoped BigOperators

variable {E : Type} [NormedAddCommGroup E] [NormedSpace ℝ E] {fes : List FE}

/-! ### Helper lemmas -/

section
variable {S : Setup E fes (totalDofs fes)} {T : Matrix (Fin (totalDofs fes)) (Fin (totalDofs fes)) ℝ}
  {load vals : E → Fin (totalDofs fes) → ℝ}

theorem elim_const (hE : Exact S) (hL : LinearModel S T load vals) (p : E) :
    elimRows fes (S.bcs p) T = elimRows fes (S.bcs 0) T := by
  ext i j
  obtain ⟨o, ho⟩ := prescribed_exists fes (S.bcs p) (hE.bcs p) i i.2
  obtain ⟨o', ho'⟩ := prescribed_exists fes (S.bcs 0) (hE.bcs 0) i i.2
  have s1 := elimRows_spec fes (S.bcs p) (hE.bcs p) T i j
  have s2 := elimRows_spec fes (S.bcs 0) (hE.bcs 0) T i j
  cases o with
  | none => rw [s1.1 ho, s2.1 ((hL.free p i).1 ho)]
  | some v =>
    cases o' with
    | none => rw [s1.1 ((hL.free p i).2 ho'), s2.1 ho']
    | some v' => rw [s1.2 v ho, s2.2 v' ho']

theorem tan_const (hE : Exact S) (hL : LinearModel S T load vals) (p : E) : S.tan p = fun _ => T := by
  funext u
  have h1 : HasFDerivAt (S.res p) (matCLM T) u := by
    have : S.res p = fun u => matCLM T u - load p := funext fun u => hL.res p u
    rw [this]
    exact (matCLM T).hasFDerivAt.sub_const _
  exact matCLM_inj ((hE.tangent p u).unique h1)

/-- The constraint function is affine. -/
theorem constraint_affine (hE : Exact S) (hL : LinearModel S T load vals) :
    ∃ c : E → Fin (totalDofs fes) → ℝ, AffineIn c ∧
      ∀ u p, constraintFn fes S.bcs S.res u p = (elimRows fes (S.bcs 0) T).mulVec u - c p := by
  classical
  obtain ⟨L, hl⟩ := hL.load_affine
  obtain ⟨V, hv⟩ := hL.vals_affine
  refine ⟨fun p k => if Prescribed fes (S.bcs 0) k none then load p k else vals p k, ⟨LinearMap.pi fun k =>
    if Prescribed fes (S.bcs 0) k none then (LinearMap.proj k).comp L else (LinearMap.proj k).comp V, fun p => ?_⟩,
    fun u p => ?_⟩
  · funext k
    dsimp only
    rw [hl p, hv p]
    by_cases h : Prescribed fes (S.bcs 0) k none
    · simp [h]
    · simp [h]
  · funext k
    rw [constraintFn, Pi.sub_apply, ← elim_const hE hL p]
    obtain ⟨o, ho⟩ := prescribed_exists fes (S.bcs p) (hE.bcs p) k k.2
    have s1 := applyBcV_spec fes (S.bcs p) (hE.bcs p) 1 (S.res p u) u k
    have s2 := mulVec_elim fes (S.bcs p) (hE.bcs p) T u k
    cases o with
    | none =>
      dsimp only
      rw [s1.1 ho, s2.1 ho, hL.res, if_pos ((hL.free p k).1 ho), Pi.sub_apply]
    | some v =>
      have hn : ¬ Prescribed fes (S.bcs 0) k none := by
        intro hn
        have h0 := (hL.free p k).2 hn
        have := prescribed_unique fes (S.bcs p) (hE.bcs p) k _ _ h0 ho
        cases this
      dsimp only
      rw [s1.2 v ho, s2.2 v ho, if_neg hn, ← hL.fixed p k v ho, mul_one]

/-- The solver returns the solution of the linear system. -/
theorem fwd_of_solution (hE : Exact S) (hL : LinearModel S T load vals) (p : E) (u : Fin (totalDofs fes) → ℝ)
    (hu : ∀ w, SolvesBVP fes (S.bcs p) (S.res p) w → w = u) (fuel : Nat) :
    S.fwdPred (fuel + 2) p = some (.ok u) := by
  have hres : S.res p = fun u => T.mulVec u - load p := funext fun u => hL.res p u
  have hreg : (elimRows fes (S.bcs p) T).det ≠ 0 := by rw [elim_const hE hL]; exact hL.regular
  obtain ⟨w, n, h1, h2⟩ := C21_linear fes (S.bcs p) (hE.bcs p) T (load p) hreg S.norm hE.norm_nonneg hE.norm_zero S.solve
    hE.solve hE.solve_total S.lineSearch 0 S.relTol le_rfl S.guess fuel
  have hw : w = u := by
    refine hu w ?_
    rcases h2 with ⟨-, rfl, h2 | h2⟩ | ⟨-, h2, -⟩
    · have hz := (hE.norm_zero _).1 (le_antisymm h2 (hE.norm_nonneg _))
      refine (constraint_zero_iff fes S.bcs S.res p (hE.bcs p) _).1 ?_
      rw [constraintFn, hres]
      exact hz
    · exact absurd hE.relTol (not_lt.2 h2)
    · rw [hres]; exact h2
  rw [Setup.fwdPred, tan_const hE hL p, hres, hE.tol, h1, hw]
  rfl

end

variable [FiniteDimensional ℝ E]

theorem fderiv_quadratic {n : Nat} {f : (Fin n → ℝ) → ℝ} {B : (Fin n → ℝ) →ₗ[ℝ] (Fin n → ℝ) →ₗ[ℝ] ℝ}
    {l : (Fin n → ℝ) →ₗ[ℝ] ℝ} {c : ℝ} (hf : QuadraticFn f B l c) (x d : Fin n → ℝ) :
    (∑ k, fderiv ℝ f x (Pi.single k 1) * d k) = 2 * B x d + l d := by
  have h1 : ∀ d, HasDerivAt (fun t : ℝ => f (x + t • d)) (2 * B x d + l d) 0 := by
    intro d
    have e : (fun t : ℝ => f (x + t • d)) = fun t => f x + t * (2 * B x d + l d) + t ^ 2 * B d d := by
      funext t
      rw [hf.eq, hf.eq]
      simp only [map_add, map_smul, LinearMap.add_apply, LinearMap.smul_apply, smul_eq_mul, hf.symm d x]
      ring
    rw [e]
    have := (((hasDerivAt_id (0 : ℝ)).mul_const (2 * B x d + l d)).const_add (f x)).add
      ((hasDerivAt_pow 2 (0 : ℝ)).mul_const (B d d))
    refine this.congr_deriv ?_
    simp
  have hdiff : DifferentiableAt ℝ f x := by
    have e : f = fun x => B x x + l x + c := funext hf.eq
    rw [e]
    have hB : DifferentiableAt ℝ (fun x => B x x) x := by
      have e2 : (fun x => B x x) = fun x : Fin n → ℝ => ∑ k, x k * B (Pi.single k 1) x := by
        funext y
        have h := congrArg (fun z => B z y) (pi_eq_sum_univ' y)
        refine h.trans ?_
        simp only [map_sum, map_smul, LinearMap.sum_apply, LinearMap.smul_apply, smul_eq_mul]
      rw [e2]
      refine DifferentiableAt.fun_sum fun k _ => ?_
      exact (differentiableAt_pi.1 differentiableAt_id k).mul
        (LinearMap.toContinuousLinearMap (B (Pi.single k 1))).differentiableAt
    exact (hB.add (LinearMap.toContinuousLinearMap l).differentiableAt).add_const _
  have h2 : ∀ d, fderiv ℝ f x d = 2 * B x d + l d := by
    intro d
    have h3 : HasFDerivAt f (fderiv ℝ f x) (x + (0 : ℝ) • d) := by
      rw [zero_smul, add_zero]; exact hdiff.hasFDerivAt
    have h4 : HasDerivAt (fun t : ℝ => x + t • d) d 0 := by
      simpa using ((hasDerivAt_id (0 : ℝ)).smul_const d).const_add x
    exact (h3.comp_hasDerivAt 0 h4).unique (h1 d)
  rw [← h2 d]
  conv_rhs => rw [pi_eq_sum_univ' d]
  rw [map_sum]
  refine Finset.sum_congr rfl fun k _ => ?_
  rw [map_smul, smul_eq_mul, mul_comm]

/-! ### Property theorems -/

/-- **C100 (linear model).** If state and parameters enter linearly and the objective is a quadratic function of the
solution, then for all parameters `fwd_pred` returns the solution, which is an affine function of the parameters,
`jax.grad` returns a gradient, and with this gradient the second-order expansion of the objective is exact. -/
theorem C100_linear (S : Setup E fes (totalDofs fes)) (hE : Exact S)
    {T : Matrix (Fin (totalDofs fes)) (Fin (totalDofs fes)) ℝ} {load vals : E → Fin (totalDofs fes) → ℝ}
    (hL : LinearModel S T load vals) {f : (Fin (totalDofs fes) → ℝ) → ℝ}
    {B : (Fin (totalDofs fes) → ℝ) →ₗ[ℝ] (Fin (totalDofs fes) → ℝ) →ₗ[ℝ] ℝ} {l : (Fin (totalDofs fes) → ℝ) →ₗ[ℝ] ℝ}
    {c : ℝ} (hf : QuadraticFn f B l c) :
    ∃ (u : E → Fin (totalDofs fes) → ℝ) (D : E →ₗ[ℝ] Fin (totalDofs fes) → ℝ) (g : E → E →L[ℝ] ℝ),
      (∀ p, u p = D p + u 0) ∧
      (∀ p w, SolvesBVP fes (S.bcs p) (S.res p) w ↔ w = u p) ∧
      (∀ p fuel, S.fwdPred (fuel + 2) p = some (.ok (u p))) ∧
      (∀ p fuel, S.grad (fuel + 2) f p = some (.ok (g p))) ∧
      (∀ p d, g p d = 2 * B (u p) (D d) + l (D d)) ∧
      ∀ p d, f (u (p + d)) = f (u p) + g p d + B (D d) (D d) := by
  obtain ⟨cc, ⟨C, hC⟩, hcon⟩ := constraint_affine hE hL
  set A := elimRows fes (S.bcs 0) T with hA
  have hu : IsUnit A.det := isUnit_iff_ne_zero.2 hL.regular
  let D : E →ₗ[ℝ] Fin (totalDofs fes) → ℝ := (Matrix.mulVecLin A⁻¹).comp C
  let u : E → Fin (totalDofs fes) → ℝ := fun p => A⁻¹.mulVec (cc p)
  have huD : ∀ p, u p = D p + u 0 := by
    intro p
    show A⁻¹.mulVec (cc p) = A⁻¹.mulVec (C p) + A⁻¹.mulVec (cc 0)
    rw [hC p, Matrix.mulVec_add]
  have hsol : ∀ p w, SolvesBVP fes (S.bcs p) (S.res p) w ↔ w = u p := by
    intro p w
    rw [← constraint_zero_iff fes S.bcs S.res p (hE.bcs p), hcon, sub_eq_zero]
    constructor
    · intro h
      show w = A⁻¹.mulVec (cc p)
      rw [← h, Matrix.mulVec_mulVec, Matrix.nonsing_inv_mul A hu, Matrix.one_mulVec]
    · rintro rfl
      show A.mulVec (A⁻¹.mulVec (cc p)) = cc p
      rw [Matrix.mulVec_mulVec, Matrix.mul_nonsing_inv A hu, Matrix.one_mulVec]
  have hfwd : ∀ p fuel, S.fwdPred (fuel + 2) p = some (.ok (u p)) := fun p fuel =>
    fwd_of_solution hE hL p (u p) (fun w hw => (hsol p w).1 hw) fuel
  let Dc : E →L[ℝ] Fin (totalDofs fes) → ℝ := LinearMap.toContinuousLinearMap D
  have hder : ∀ p, HasFDerivAt u Dc p := by
    intro p
    have : u = fun p => Dc p + u 0 := funext huD
    rw [this]
    exact Dc.hasFDerivAt.add_const _
  have hgrad : ∀ p, ∃ g : E →L[ℝ] ℝ, (∀ fuel, S.grad (fuel + 2) f p = some (.ok g)) ∧
      ∀ d, g d = 2 * B (u p) (D d) + l (D d) := by
    intro p
    set v : Fin (totalDofs fes) → ℝ := fun k => fderiv ℝ f (u p) (Pi.single k 1) with hv
    obtain ⟨x, hx⟩ := hE.adjoint_total (totalDofs fes) (elimRows fes (S.bcs p) (S.tan p (u p))).transpose v
      (by rw [Matrix.det_transpose, tan_const hE hL, elim_const hE hL]; exact hL.regular)
    obtain ⟨g, hg⟩ : ∃ g, implicitVjp fes S.bcs S.res S.tan none S.adjointSolve (u p) p v = .ok g :=
      ⟨_, by simp only [implicitVjp, hx]; rfl⟩
    refine ⟨g, fun fuel => ?_, fun d => ?_⟩
    · rw [Setup.grad, hfwd p fuel, ← hg]
      rfl
    · have hdiff : DifferentiableAt ℝ (fun up : (Fin (totalDofs fes) → ℝ) × E =>
          constraintFn fes S.bcs S.res up.1 up.2) (u p, p) := by
        have : (fun up : (Fin (totalDofs fes) → ℝ) × E => constraintFn fes S.bcs S.res up.1 up.2) = fun up =>
            matCLM A up.1 - (LinearMap.toContinuousLinearMap C up.2 + cc 0) := by
          funext up
          rw [hcon, hC]
          rfl
        rw [this]
        exact ((matCLM A).differentiableAt.comp _ differentiableAt_fst).sub
          (((LinearMap.toContinuousLinearMap C).differentiableAt.comp _ differentiableAt_snd).add_const _)
      have h38 := C38_adjoint fes S.bcs S.res S.tan S.adjointSolve hE.adjoint p u (hE.bcs p) (hE.tangent p (u p)) hdiff
        (by rw [tan_const hE hL, elim_const hE hL]; exact hu) (hder p).continuousAt
        (Filter.Eventually.of_forall fun q =>
          (constraint_zero_iff fes S.bcs S.res q (hE.bcs q) _).2 ((hsol q _).2 rfl)) v g hg
      have h2 : HasFDerivAt (fun p => dotProduct v (u p)) ((dotCLM v).comp Dc) p := (dotCLM v).hasFDerivAt.comp p (hder p)
      rw [h38.unique h2]
      show dotProduct v (D d) = _
      exact fderiv_quadratic hf (u p) (D d)
  choose g hg1 hg2 using hgrad
  refine ⟨u, D, g, huD, hsol, hfwd, fun p => hg1 p, hg2, fun p d => ?_⟩
  have e : u (p + d) = u p + D d := by
    rw [huD (p + d), huD p, map_add]; abel
  rw [hg2, e, hf.eq, hf.eq]
  simp only [map_add, LinearMap.add_apply, hf.symm (D d) (u p)]
  ring

end JaxFem.Inverse
