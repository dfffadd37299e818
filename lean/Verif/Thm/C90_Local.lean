import Verif.Spec.NewtonLocal
import Verif.Thm.C17_Tangent
import Verif.Thm.C18_Newton
import Verif.Thm.C20_NewtonLoop
import Mathlib.Analysis.Calculus.InverseFunctionTheorem.FDeriv
import Mathlib.Topology.Instances.Matrix
import Mathlib.Analysis.Calculus.MeanValue

/-!
# C90: local convergence of the Newton solver
-/

namespace JaxFem

open scoped Topology

section
variable {N : Nat}

theorem matCLM_apply' (A : Matrix (Fin N) (Fin N) ℝ) (x : Fin N → ℝ) : matCLM A x = A.mulVec x := rfl

theorem matCLM_continuous : Continuous (matCLM : Matrix (Fin N) (Fin N) ℝ → (Fin N → ℝ) →L[ℝ] (Fin N → ℝ)) := by
  let L : Matrix (Fin N) (Fin N) ℝ →ₗ[ℝ] ((Fin N → ℝ) →L[ℝ] (Fin N → ℝ)) :=
    { toFun := matCLM
      map_add' := fun A B => by ext x i; simp [matCLM_apply', Matrix.add_mulVec]
      map_smul' := fun c A => by ext x i; simp [matCLM_apply', Matrix.smul_mulVec] }
  exact L.continuous_of_finiteDimensional

/-- A regular matrix as an equivalence. -/
theorem matCLM_equiv (A : Matrix (Fin N) (Fin N) ℝ) (h : A.det ≠ 0) :
    ∃ e : (Fin N → ℝ) ≃L[ℝ] (Fin N → ℝ), (e : (Fin N → ℝ) →L[ℝ] (Fin N → ℝ)) = matCLM A := by
  have hu : IsUnit A.det := isUnit_iff_ne_zero.2 h
  have h1 : A * A⁻¹ = 1 := Matrix.mul_nonsing_inv A hu
  have h2 : A⁻¹ * A = 1 := Matrix.nonsing_inv_mul A hu
  refine ⟨ContinuousLinearEquiv.equivOfInverse (matCLM A) (matCLM A⁻¹) (fun x => ?_) (fun x => ?_), ?_⟩
  · rw [matCLM_apply', matCLM_apply', Matrix.mulVec_mulVec, h2, Matrix.one_mulVec]
  · rw [matCLM_apply', matCLM_apply', Matrix.mulVec_mulVec, h1, Matrix.one_mulVec]
  · rfl

theorem bounded_below (A : Matrix (Fin N) (Fin N) ℝ) (h : A.det ≠ 0) :
    ∃ M : ℝ, 0 < M ∧ ∀ w, ‖w‖ ≤ M * ‖matCLM A w‖ := by
  obtain ⟨e, he⟩ := matCLM_equiv A h
  refine ⟨‖(e.symm : (Fin N → ℝ) →L[ℝ] (Fin N → ℝ))‖ + 1, by positivity, fun w => ?_⟩
  have : w = (e.symm : (Fin N → ℝ) →L[ℝ] (Fin N → ℝ)) (matCLM A w) := by
    rw [← he]; simp
  calc ‖w‖ = ‖(e.symm : (Fin N → ℝ) →L[ℝ] (Fin N → ℝ)) (matCLM A w)‖ := by rw [← this]
    _ ≤ ‖(e.symm : (Fin N → ℝ) →L[ℝ] (Fin N → ℝ))‖ * ‖matCLM A w‖ := ContinuousLinearMap.le_opNorm _ _
    _ ≤ _ := mul_le_mul_of_nonneg_right (by linarith) (norm_nonneg _)

/-- Near a regular point a step with a small relative residual halves the distance to every point `y` near it, where the residual
is measured from its value at `y`. -/
theorem newton_ball (F : (Fin N → ℝ) → Fin N → ℝ) (T : (Fin N → ℝ) → Matrix (Fin N) (Fin N) ℝ) (x0 : Fin N → ℝ)
    (hF : HasStrictJacobianAt F (T x0) x0) (hT : ContinuousAt T x0) (hreg : (T x0).det ≠ 0) :
    ∃ eta > 0, ∃ r > 0, ∃ L > 0, ∀ x, ‖x - x0‖ < r → (T x).det ≠ 0 ∧ ∀ y, ‖y - x0‖ < r → ‖F x - F y‖ ≤ L * ‖x - y‖ ∧ ∀ s,
      ‖(T x).mulVec s + (F x - F y)‖ ≤ eta * ‖F x - F y‖ → ‖x + s - y‖ ≤ 1 / 2 * ‖x - y‖ := by
  obtain ⟨M, hM, hb⟩ := bounded_below (T x0) hreg
  set A0 := matCLM (T x0) with hA0
  set eps := min (1 : ℝ) (1 / (8 * M)) with heps
  have he : 0 < eps := lt_min one_pos (by positivity)
  have he1 : eps ≤ 1 := min_le_left _ _
  have heM : M * eps ≤ 1 / 8 := by
    have : eps ≤ 1 / (8 * M) := min_le_right _ _
    calc M * eps ≤ M * (1 / (8 * M)) := mul_le_mul_of_nonneg_left this hM.le
      _ = 1 / 8 := by field_simp
  set eta := 1 / (8 * M * (‖A0‖ + 1)) with heta
  have hA : 0 < ‖A0‖ + 1 := by positivity
  have het : 0 < eta := by positivity
  have hstrict := hF.isLittleO.def he
  have hcont : ∀ᶠ x in 𝓝 x0, ‖matCLM (T x) - A0‖ < eps := by
    have := (matCLM_continuous.continuousAt.comp hT : ContinuousAt (fun x => matCLM (T x)) x0)
    have := Metric.continuousAt_iff'.1 this eps he
    filter_upwards [this] with x hx
    rwa [dist_eq_norm] at hx
  have hdet : ∀ᶠ x in 𝓝 x0, (T x).det ≠ 0 := by
    have : ContinuousAt (fun x => (T x).det) x0 := (continuous_id.matrix_det.continuousAt).comp hT
    exact this.eventually_ne hreg
  obtain ⟨r1, hr1, h1⟩ := Metric.eventually_nhds_iff.1 hstrict
  obtain ⟨r2, hr2, h2⟩ := Metric.eventually_nhds_iff.1 (hcont.and hdet)
  refine ⟨eta, het, min r1 r2, lt_min hr1 hr2, ‖A0‖ + 1, hA, fun x hx => ?_⟩
  have hx2 := h2 (y := x) (by rw [dist_eq_norm]; exact lt_of_lt_of_le hx (min_le_right _ _))
  refine ⟨hx2.2, fun y hy => ?_⟩
  have hxy : ‖F x - F y - A0 (x - y)‖ ≤ eps * ‖x - y‖ := by
    refine h1 (y := (x, y)) ?_
    rw [Prod.dist_eq]
    refine max_lt ?_ ?_
    · rw [dist_eq_norm]; exact lt_of_lt_of_le hx (min_le_left _ _)
    · rw [dist_eq_norm]; exact lt_of_lt_of_le hy (min_le_left _ _)
  set d := ‖x - y‖ with hd
  have hd0 : 0 ≤ d := norm_nonneg _
  have hT' : ∀ v, ‖(matCLM (T x) - A0) v‖ ≤ eps * ‖v‖ := fun v =>
    (ContinuousLinearMap.le_opNorm _ _).trans (mul_le_mul_of_nonneg_right hx2.1.le (norm_nonneg _))
  have hdiff : ‖F x - F y‖ ≤ (‖A0‖ + 1) * d := by
    have e : F x - F y = (F x - F y - A0 (x - y)) + A0 (x - y) := by abel
    rw [e]
    refine (norm_add_le _ _).trans ?_
    have := ContinuousLinearMap.le_opNorm A0 (x - y)
    nlinarith
  refine ⟨hdiff, fun s hs => ?_⟩
  set w := x + s - y with hw
  have hrho : ‖(T x).mulVec s + (F x - F y)‖ ≤ 1 / (8 * M) * d := by
    refine hs.trans ((mul_le_mul_of_nonneg_left hdiff het.le).trans (le_of_eq ?_))
    rw [heta]; field_simp
  have key : A0 w = -((matCLM (T x) - A0) w) + ((matCLM (T x) - A0) (x - y)) - (F x - F y - A0 (x - y))
      + ((T x).mulVec s + (F x - F y)) := by
    have e1 : w = (x - y) + s := by rw [hw]; abel
    have e2 : (T x).mulVec s = matCLM (T x) s := rfl
    rw [e2]
    simp only [ContinuousLinearMap.sub_apply]
    rw [e1, map_add, map_add]
    abel
  have hkey : ‖A0 w‖ ≤ eps * ‖w‖ + eps * d + eps * d + 1 / (8 * M) * d := by
    rw [key]
    refine (norm_add_le _ _).trans (add_le_add ((norm_sub_le _ _).trans (add_le_add ((norm_add_le _ _).trans
      (add_le_add ?_ (hT' _))) hxy)) hrho)
    rw [norm_neg]
    exact hT' w
  have hfin := hb w
  have hw0 : 0 ≤ ‖w‖ := norm_nonneg _
  have h8 : M * (1 / (8 * M) * d) = d / 8 := by field_simp
  have hm : M * ‖A0 w‖ ≤ M * (eps * ‖w‖ + eps * d + eps * d + 1 / (8 * M) * d) := mul_le_mul_of_nonneg_left hkey hM.le
  have h9 : M * (eps * ‖w‖ + eps * d + eps * d + 1 / (8 * M) * d) = M * eps * ‖w‖ + 2 * (M * eps) * d + d / 8 := by
    rw [← h8]; ring
  have h10 : M * eps * ‖w‖ ≤ 1 / 8 * ‖w‖ := mul_le_mul_of_nonneg_right heM hw0
  have h11 : M * eps * d ≤ 1 / 8 * d := mul_le_mul_of_nonneg_right heM hd0
  linarith

/-- The loop ends if every step reduces the distance to `u` by a fixed factor and the residual is small near `u`. -/
theorem loop_converges {R : Type} (upd : (Fin N → ℝ) → R) (nrm : R → ℝ) (step : R → (Fin N → ℝ) → Except Err (Fin N → ℝ))
    (tol relTol : ℝ) (resInitial : Flt ℝ) (u : Fin N → ℝ) (rho delta : ℝ)
    (hstep : ∀ x, ‖x - u‖ ≤ rho → ∃ x', step (upd x) x = .ok x' ∧ ‖x' - u‖ ≤ 15 / 16 * ‖x - u‖)
    (hsmall : ∀ x, ‖x - u‖ < delta → nrm (upd x) ≤ tol) :
    ∀ (m : Nat) (x : Fin N → ℝ), ‖x - u‖ ≤ rho → (15 / 16) ^ m * ‖x - u‖ < delta →
      ∃ n ≤ m, ∃ x', ‖x' - u‖ ≤ (15 / 16) ^ n * ‖x - u‖ ∧ ∀ (fuel k : Nat), m < fuel →
        newtonLoop (fun x => .ok (upd x)) (fun r => .fin (nrm r)) step tol relTol resInitial fuel x (upd x) k
          = some (.ok (x', upd x', k + n)) := by
  intro m
  induction m with
  | zero =>
    intro x hx hd
    refine ⟨0, le_rfl, x, by simp, fun fuel k hf => ?_⟩
    obtain ⟨fuel, rfl⟩ : ∃ f, fuel = f + 1 := ⟨fuel - 1, by omega⟩
    have : ¬ tol < nrm (upd x) := not_lt.2 (hsmall x (by simpa using hd))
    rw [newtonLoop, if_neg (by simp [Flt.gt, this])]
    rfl
  | succ m ih =>
    intro x hx hd
    obtain ⟨x', h1, h2⟩ := hstep x hx
    have hx0 := norm_nonneg (x - u)
    have hx' : ‖x' - u‖ ≤ rho := h2.trans (by linarith)
    have hd' : (15 / 16) ^ m * ‖x' - u‖ < delta := by
      refine lt_of_le_of_lt ?_ hd
      rw [pow_succ, mul_assoc]
      exact mul_le_mul_of_nonneg_left h2 (by positivity)
    obtain ⟨n, hn, x'', h3, h4⟩ := ih x' hx' hd'
    by_cases hg : (((Flt.fin (nrm (upd x))).div resInitial).gt (.fin relTol) && (Flt.fin (nrm (upd x))).gt (.fin tol)) = true
    · refine ⟨n + 1, by omega, x'', ?_, fun fuel k hf => ?_⟩
      · refine h3.trans ?_
        rw [pow_succ, mul_assoc]
        exact mul_le_mul_of_nonneg_left h2 (by positivity)
      · obtain ⟨fuel, rfl⟩ : ∃ f, fuel = f + 1 := ⟨fuel - 1, by omega⟩
        rw [newtonLoop, if_pos hg, h1]
        dsimp only
        rw [h4 fuel (k + 1) (by omega)]
        congr 4
        omega
    · refine ⟨0, by omega, x, by simp, fun fuel k hf => ?_⟩
      obtain ⟨fuel, rfl⟩ : ∃ f, fuel = f + 1 := ⟨fuel - 1, by omega⟩
      rw [newtonLoop, if_neg hg]
      rfl

end

section
variable {fes : List FE} {bcs bcs' : List (List (BCEntry ℝ))}

theorem prescribed_or (h : WFBC fes bcs) (k : Fin (totalDofs fes)) :
    Prescribed fes bcs k none ∨ ∃ v, Prescribed fes bcs k (some v) := by
  obtain ⟨o, ho⟩ := prescribed_exists fes bcs h k k.2
  cases o with
  | none => exact Or.inl ho
  | some v => exact Or.inr ⟨v, ho⟩

/-- The solutions are the zeros of the residual with boundary conditions. -/
theorem solvesBVP_zero (h : WFBC fes bcs) (res : (Fin (totalDofs fes) → ℝ) → Fin (totalDofs fes) → ℝ) (u : Fin (totalDofs fes) → ℝ) :
    SolvesBVP fes bcs res u ↔ applyBcV fes bcs 1 (res u) u = 0 := by
  constructor
  · rintro ⟨h1, h2⟩
    funext k
    rcases prescribed_or h k with hk | ⟨v, hk⟩
    · rw [(applyBcV_spec fes bcs h 1 _ _ k).1 hk, h2 k hk]; rfl
    · rw [(applyBcV_spec fes bcs h 1 _ _ k).2 v hk, h1 k v hk]
      simp
  · intro h0
    refine ⟨fun k v hk => ?_, fun k hk => ?_⟩
    · have := (applyBcV_spec fes bcs h 1 (res u) u k).2 v hk
      rw [h0] at this
      have : (0 : ℝ) = u k - v * 1 := this
      linarith
    · have := (applyBcV_spec fes bcs h 1 (res u) u k).1 hk
      rw [h0] at this
      exact this.symm

theorem elimRows_nearby (h : WFBC fes bcs) (h' : WFBC fes bcs') {d : ℝ} (hn : NearbyBC fes bcs bcs' d)
    (A : Matrix (Fin (totalDofs fes)) (Fin (totalDofs fes)) ℝ) : elimRows fes bcs' A = elimRows fes bcs A := by
  ext r c
  rcases prescribed_or h r with hr | ⟨v, hr⟩
  · rw [(elimRows_spec fes bcs h A r c).1 hr, (elimRows_spec fes bcs' h' A r c).1 ((hn.1 r).1 hr)]
  · rcases prescribed_or h' r with hr' | ⟨v', hr'⟩
    · have := (C16_prescribed_unique fes bcs h r r.2).unique hr ((hn.1 r).2 hr')
      exact absurd this (by simp)
    · rw [(elimRows_spec fes bcs h A r c).2 v hr, (elimRows_spec fes bcs' h' A r c).2 v' hr']

/-- The residual with other loads and prescribed values differs by a constant. -/
theorem residual_nearby (h : WFBC fes bcs) (h' : WFBC fes bcs') {d : ℝ} (hd : 0 < d) (hn : NearbyBC fes bcs bcs' d)
    (res : (Fin (totalDofs fes) → ℝ) → Fin (totalDofs fes) → ℝ) (g : Fin (totalDofs fes) → ℝ) (hg : ‖g‖ < d) :
    ∃ c : Fin (totalDofs fes) → ℝ, ‖c‖ < d ∧ ∀ u, applyBcV fes bcs' 1 (res u + g) u = applyBcV fes bcs 1 (res u) u + c := by
  have hk : ∀ k : Fin (totalDofs fes), ∃ c : ℝ, |c| < d ∧ ∀ u, applyBcV fes bcs' 1 (res u + g) u k = applyBcV fes bcs 1 (res u) u k + c := by
    intro k
    rcases prescribed_or h k with hr | ⟨v, hr⟩
    · refine ⟨g k, lt_of_le_of_lt ((Real.norm_eq_abs _).symm.le.trans (norm_le_pi_norm g k)) hg, fun u => ?_⟩
      rw [(applyBcV_spec fes bcs h 1 _ _ k).1 hr, (applyBcV_spec fes bcs' h' 1 _ _ k).1 ((hn.1 k).1 hr)]
      rfl
    · rcases prescribed_or h' k with hr' | ⟨v', hr'⟩
      · have := (C16_prescribed_unique fes bcs h k k.2).unique hr ((hn.1 k).2 hr')
        exact absurd this (by simp)
      · refine ⟨v - v', by rw [abs_sub_comm]; exact hn.2 k v v' hr hr', fun u => ?_⟩
        rw [(applyBcV_spec fes bcs h 1 _ _ k).2 v hr, (applyBcV_spec fes bcs' h' 1 _ _ k).2 v' hr']
        ring
  choose c hc using hk
  refine ⟨c, ?_, fun u => funext fun k => (hc k).2 u⟩
  rw [pi_norm_lt_iff hd]
  exact fun k => by rw [Real.norm_eq_abs]; exact (hc k).1

theorem strict_bc (h : WFBC fes bcs) (res : (Fin (totalDofs fes) → ℝ) → Fin (totalDofs fes) → ℝ)
    (A : Matrix (Fin (totalDofs fes)) (Fin (totalDofs fes)) ℝ) (x : Fin (totalDofs fes) → ℝ) (hA : HasStrictJacobianAt res A x) :
    HasStrictJacobianAt (fun u => applyBcV fes bcs 1 (res u) u) (elimRows fes bcs A) x := by
  unfold HasStrictJacobianAt at hA ⊢
  rw [hasStrictFDerivAt_pi'] at hA ⊢
  intro k
  rcases prescribed_or h k with hk | ⟨v, hk⟩
  · have e : (fun u => applyBcV fes bcs 1 (res u) u k) = fun u => res u k := by
      funext u
      exact (applyBcV_spec fes bcs h 1 (res u) u k).1 hk
    rw [e]
    refine (hA k).congr_fderiv ?_
    ext1 v
    simp only [ContinuousLinearMap.comp_apply, ContinuousLinearMap.proj_apply, matCLM_apply]
    refine Finset.sum_congr rfl fun j _ => ?_
    rw [(elimRows_spec fes bcs h A k j).1 hk]
  · have e : (fun u => applyBcV fes bcs 1 (res u) u k) = fun u => u k - v * 1 := by
      funext u
      exact (applyBcV_spec fes bcs h 1 (res u) u k).2 v hk
    rw [e]
    have hp : HasStrictFDerivAt (fun u : Fin (totalDofs fes) → ℝ => u k) (ContinuousLinearMap.proj k : _ →L[ℝ] ℝ) x :=
      (ContinuousLinearMap.proj (R := ℝ) (φ := fun _ : Fin (totalDofs fes) => ℝ) k).hasStrictFDerivAt
    refine (hp.sub_const _).congr_fderiv ?_
    ext1 y
    simp only [ContinuousLinearMap.comp_apply, ContinuousLinearMap.proj_apply, matCLM_apply]
    rw [Finset.sum_eq_single k]
    · rw [(elimRows_spec fes bcs h A k k).2 v hk]; simp
    · intro j _ hj
      rw [(elimRows_spec fes bcs h A k j).2 v hk, if_neg (Ne.symm hj), zero_mul]
    · intro hk; exact absurd (Finset.mem_univ _) hk

theorem cont_bc (h : WFBC fes bcs) (tan : (Fin (totalDofs fes) → ℝ) → Matrix (Fin (totalDofs fes)) (Fin (totalDofs fes)) ℝ)
    (x : Fin (totalDofs fes) → ℝ) (hT : ContinuousAt tan x) : ContinuousAt (fun u => elimRows fes bcs (tan u)) x := by
  refine continuousAt_pi.2 fun r => continuousAt_pi.2 fun c => ?_
  rcases prescribed_or h r with hr | ⟨v, hr⟩
  · have e : (fun u => elimRows fes bcs (tan u) r c) = fun u => tan u r c := funext fun u => (elimRows_spec fes bcs h (tan u) r c).1 hr
    show ContinuousAt (fun u => elimRows fes bcs (tan u) r c) x
    rw [e]
    exact (continuousAt_pi.1 (continuousAt_pi.1 hT r) c)
  · have e : (fun u => elimRows fes bcs (tan u) r c) = fun u => if r = c then 1 else 0 :=
      funext fun u => (elimRows_spec fes bcs h (tan u) r c).2 v hr
    show ContinuousAt (fun u => elimRows fes bcs (tan u) r c) x
    rw [e]
    exact continuousAt_const

end

/-- **C90 (small changes of the load).** Let `u0` solve a boundary value problem with continuously differentiable residual, tangent
equal to the derivative at `u0` and continuous there, and regular tangent with eliminated rows. Then for all dead loads `g` and all
prescribed values close enough to the given ones there is exactly one solution near `u0`, and from every starting point near `u0`
`solver` returns: with or without line search, with every linear solver that reaches a certain relative residual, for every positive
tolerance. The result is on the way to that solution: each step reduces the error by a fixed factor. -/
theorem C90_small_loads (fes : List FE) (bcs : List (List (BCEntry ℝ))) (h : WFBC fes bcs)
    (res : (Fin (totalDofs fes) → ℝ) → Fin (totalDofs fes) → ℝ)
    (tan : (Fin (totalDofs fes) → ℝ) → Matrix (Fin (totalDofs fes)) (Fin (totalDofs fes)) ℝ) (u0 : Fin (totalDofs fes) → ℝ)
    (hsol : SolvesBVP fes bcs res u0) (hF : HasStrictJacobianAt res (tan u0) u0) (hT : ContinuousAt tan u0)
    (hreg : (elimRows fes bcs (tan u0)).det ≠ 0) :
    ∃ eta > 0, ∃ r > 0, ∃ d > 0, ∀ (bcs' : List (List (BCEntry ℝ))) (g : Fin (totalDofs fes) → ℝ), WFBC fes bcs' →
      NearbyBC fes bcs bcs' d → ‖g‖ < d →
      ∃ u, ‖u - u0‖ < r ∧ SolvesBVP fes bcs' (fun x => res x + g) u
        ∧ (∀ w, ‖w - u0‖ < r → SolvesBVP fes bcs' (fun x => res x + g) w → w = u)
        ∧ ∀ (solve : Matrix (Fin (totalDofs fes)) (Fin (totalDofs fes)) ℝ → (Fin (totalDofs fes) → ℝ) → (Fin (totalDofs fes) → ℝ) →
            Except Err (Fin (totalDofs fes) → ℝ)), InexactSolver eta solve →
          ∀ nu : (Fin (totalDofs fes) → ℝ) → ℝ, nu 0 = 0 → ContinuousAt nu 0 → ∀ (ls : Bool) (tol relTol : ℝ), 0 < tol →
          ∀ x, ‖x - u0‖ < r → ∃ n w fuel0, ‖w - u‖ ≤ (15 / 16) ^ n * ‖x - u‖ ∧ ∀ fuel ≥ fuel0,
            newtonSolve (newtonUpdate fes bcs' (fun x => res x + g) tan) (fun rA => .fin (nu rA.1))
              (newtonStep fes bcs' (fun r => .fin (nu r)) (fun x => res x + g) solve ls) (fun _ => true) tol relTol x fuel
              = some (.ok (w, n)) := by
  set F : (Fin (totalDofs fes) → ℝ) → Fin (totalDofs fes) → ℝ := fun x => applyBcV fes bcs 1 (res x) x with hFd
  set T : (Fin (totalDofs fes) → ℝ) → Matrix (Fin (totalDofs fes)) (Fin (totalDofs fes)) ℝ := fun x => elimRows fes bcs (tan x) with hTd
  have hF' : HasStrictJacobianAt F (T u0) u0 := strict_bc h res (tan u0) u0 hF
  have hT' : ContinuousAt T u0 := cont_bc h tan u0 hT
  have hF0 : F u0 = 0 := (solvesBVP_zero h res u0).1 hsol
  obtain ⟨eta, het, r0, hr0, L, hL, hball⟩ := newton_ball F T u0 hF' hT' hreg
  obtain ⟨e, he⟩ := matCLM_equiv (T u0) hreg
  have hopen : Filter.map F (𝓝 u0) = 𝓝 (F u0) := by
    have hs : HasStrictFDerivAt F (e : (Fin (totalDofs fes) → ℝ) →L[ℝ] _) u0 := by rw [he]; exact hF'
    exact hs.map_nhds_eq_of_equiv
  have himg : F '' Metric.ball u0 (r0 / 3) ∈ 𝓝 (F u0) := by
    rw [← hopen]
    exact Filter.image_mem_map (Metric.ball_mem_nhds _ (by positivity))
  obtain ⟨d, hd, hsub⟩ := Metric.mem_nhds_iff.1 himg
  refine ⟨eta, het, r0 / 3, by positivity, d, hd, fun bcs' g h' hn hg => ?_⟩
  obtain ⟨c, hc, hcF⟩ := residual_nearby h h' hd hn res g hg
  have hmem : -c ∈ Metric.ball (F u0) d := by
    rw [hF0, mem_ball_zero_iff, norm_neg]; exact hc
  obtain ⟨u, hu, hFu⟩ := hsub hmem
  have hu' : ‖u - u0‖ < r0 / 3 := by rw [← dist_eq_norm]; exact hu
  have hzero : ∀ w, SolvesBVP fes bcs' (fun x => res x + g) w ↔ F w = -c := by
    intro w
    rw [solvesBVP_zero h' _ w, hcF w]
    exact add_eq_zero_iff_eq_neg
  have hTe : ∀ x, elimRows fes bcs' (tan x) = T x := fun x => elimRows_nearby h h' hn (tan x)
  refine ⟨u, hu', (hzero u).2 hFu, fun w hw hws => ?_, fun solve hsolve nu hnu0 hnuc ls tol relTol htol x hx => ?_⟩
  · have hw' : ‖w - u0‖ < r0 := by linarith
    have := ((hball w hw').2 u (by linarith)).2 0 (by
      rw [(hzero w).1 hws, hFu, sub_self, Matrix.mulVec_zero, add_zero, norm_zero, mul_zero])
    rw [add_zero] at this
    have h0 := norm_nonneg (w - u)
    have : ‖w - u‖ = 0 := by linarith
    exact sub_eq_zero.1 (norm_eq_zero.1 this)
  · have hstep : ∀ x, ‖x - u‖ ≤ 2 * (r0 / 3) → ∃ x',
        newtonStep fes bcs' (fun r => .fin (nu r)) (fun x => res x + g) solve ls
          (applyBcV fes bcs' 1 (res x + g) x, elimRows fes bcs' (tan x)) x = .ok x' ∧ ‖x' - u‖ ≤ 15 / 16 * ‖x - u‖ := by
      intro x hx
      have hx0 : ‖x - u0‖ < r0 := by
        have : x - u0 = (x - u) + (u - u0) := by abel
        rw [this]
        exact lt_of_le_of_lt (norm_add_le _ _) (by linarith)
      obtain ⟨hdet, hb⟩ := hball x hx0
      obtain ⟨y, hy, hye⟩ := hsolve (T x) (-(applyBcV fes bcs' 1 (res x + g) x)) (newtonX0 fes bcs' x) hdet
      have hres : applyBcV fes bcs' 1 (res x + g) x = F x - F u := by rw [hcF x, hFu, sub_neg_eq_add]
      rw [hres, sub_neg_eq_add, norm_neg] at hye
      have hhalf := (hb u (by linarith)).2 y hye
      have hgen : ∀ a : ℝ, 1 / 8 ≤ a → a ≤ 1 → ‖x + a • y - u‖ ≤ 15 / 16 * ‖x - u‖ := by
        intro a h1 h2
        have e : x + a • y - u = (1 - a) • (x - u) + a • (x + y - u) := by
          rw [smul_sub, smul_sub, smul_add, sub_smul, sub_smul, one_smul, one_smul]; abel
        rw [e]
        refine (norm_add_le _ _).trans ?_
        rw [norm_smul, norm_smul, Real.norm_of_nonneg (by linarith), Real.norm_of_nonneg (by linarith)]
        have h0 := norm_nonneg (x - u)
        nlinarith
      unfold newtonStep
      rw [hTe, hy]
      cases ls with
      | false =>
        refine ⟨x + y, rfl, ?_⟩
        have := hgen 1 (by norm_num) le_rfl
        rwa [one_smul] at this
      | true =>
        refine ⟨_, rfl, ?_⟩
        obtain ⟨j, hj, hja, -⟩ := C22_steps (fun alpha : ℝ => Flt.fin (nu (applyBcV fes bcs' 1 (res (x + alpha • y) + g) (x + alpha • y))))
        show ‖x + lineSearchAlpha (fun alpha : ℝ => Flt.fin (nu (applyBcV fes bcs' 1 (res (x + alpha • y) + g) (x + alpha • y)))) • y - u‖ ≤ _
        rw [hja]
        refine hgen _ ?_ ?_
        · have : ((1 : ℝ) / 2) ^ 3 ≤ (1 / 2) ^ j := pow_le_pow_of_le_one (by norm_num) (by norm_num) hj
          exact le_trans (by norm_num) this
        · exact pow_le_one₀ (by norm_num) (by norm_num)
    obtain ⟨d1, hd1, hnud⟩ := Metric.continuousAt_iff.1 hnuc tol htol
    set delta := min (d1 / L) (2 * (r0 / 3)) with hdelta
    have hdp : 0 < delta := lt_min (by positivity) (by positivity)
    have hsmall : ∀ x, ‖x - u‖ < delta → nu (applyBcV fes bcs' 1 (res x + g) x) ≤ tol := by
      intro x hx
      have hx0 : ‖x - u0‖ < r0 := by
        have : x - u0 = (x - u) + (u - u0) := by abel
        rw [this]
        have := lt_of_lt_of_le hx (min_le_right _ _)
        exact lt_of_le_of_lt (norm_add_le _ _) (by linarith)
      have hres : applyBcV fes bcs' 1 (res x + g) x = F x - F u := by rw [hcF x, hFu, sub_neg_eq_add]
      have hl := ((hball x hx0).2 u (by linarith)).1
      have : dist (F x - F u) 0 < d1 := by
        rw [dist_zero_right]
        refine lt_of_le_of_lt hl ?_
        have := lt_of_lt_of_le hx (min_le_left _ _)
        rw [lt_div_iff₀ hL] at this
        linarith
      have := hnud this
      rw [hnu0, Real.dist_eq, sub_zero] at this
      rw [hres]
      exact (le_abs_self _).trans this.le
    have hxu : ‖x - u‖ ≤ 2 * (r0 / 3) := by
      have : x - u = (x - u0) - (u - u0) := by abel
      rw [this]
      exact (norm_sub_le _ _).trans (by linarith)
    obtain ⟨m, hm⟩ : ∃ m : Nat, ((15 : ℝ) / 16) ^ m * ‖x - u‖ < delta := by
      have ht : Filter.Tendsto (fun m : Nat => ((15 : ℝ) / 16) ^ m * ‖x - u‖) Filter.atTop (𝓝 0) := by
        have := (tendsto_pow_atTop_nhds_zero_of_lt_one (show (0 : ℝ) ≤ 15 / 16 by norm_num) (by norm_num)).mul_const ‖x - u‖
        rwa [zero_mul] at this
      exact (ht.eventually (gt_mem_nhds hdp)).exists
    obtain ⟨n, hn', w, hw, hl⟩ := loop_converges
      (fun x => (applyBcV fes bcs' 1 (res x + g) x, elimRows fes bcs' (tan x))) (fun rA => nu rA.1)
      (newtonStep fes bcs' (fun r => .fin (nu r)) (fun x => res x + g) solve ls) tol relTol
      (.fin (nu (applyBcV fes bcs' 1 (res x + g) x))) u (2 * (r0 / 3)) delta hstep hsmall m x hxu hm
    refine ⟨n, w, m + 1, hw, fun fuel hf => ?_⟩
    have hl' := hl fuel 0 (by omega)
    rw [zero_add] at hl'
    unfold newtonSolve newtonUpdate
    dsimp only at hl' ⊢
    rw [hl']
    simp [Flt.isFinite]

end JaxFem
