import Verif.Thm.C90_Local
import Mathlib.Analysis.Calculus.FDeriv.Pow
import Mathlib.Topology.Order.IntermediateValue

/-!
# C90: rate of convergence, and a run that never ends
-/

namespace JaxFem

open scoped Topology

theorem matCLM_norm_le {N : Nat} (B : Matrix (Fin N) (Fin N) ℝ) (b : ℝ) (hb : 0 ≤ b) (h : ∀ i j, |B i j| ≤ b) :
    ‖matCLM B‖ ≤ N * b := by
  refine ContinuousLinearMap.opNorm_le_bound _ (by positivity) fun v => ?_
  refine (pi_norm_le_iff_of_nonneg (by positivity)).2 fun i => ?_
  show ‖∑ j, B i j * v j‖ ≤ _
  calc ‖∑ j, B i j * v j‖ ≤ ∑ j : Fin N, ‖B i j * v j‖ := norm_sum_le _ _
    _ ≤ ∑ _j : Fin N, b * ‖v‖ := by
        refine Finset.sum_le_sum fun j _ => ?_
        rw [norm_mul]
        exact mul_le_mul ((Real.norm_eq_abs _).le.trans (h i j)) (norm_le_pi_norm v j) (norm_nonneg _) hb
    _ = N * b * ‖v‖ := by rw [Finset.sum_const, Finset.card_univ, Fintype.card_fin, nsmul_eq_mul, mul_assoc]

/-- Quadratic estimate for one exact step. -/
theorem newton_quadratic {N : Nat} (F : (Fin N → ℝ) → Fin N → ℝ) (T : (Fin N → ℝ) → Matrix (Fin N) (Fin N) ℝ) (u : Fin N → ℝ)
    (hF0 : F u = 0) (K : ℝ) (hder : ∀ᶠ x in 𝓝 u, HasJacobianAt F (T x) x)
    (hlip : ∀ᶠ x in 𝓝 u, ‖matCLM (T x) - matCLM (T u)‖ ≤ K * ‖x - u‖) (hreg : (T u).det ≠ 0) :
    ∃ C > 0, ∃ r > 0, ∀ x, ‖x - u‖ < r → ∀ s, (T x).mulVec s = -F x → ‖x + s - u‖ ≤ C * ‖x - u‖ ^ 2 := by
  obtain ⟨M, hM, hb⟩ := bounded_below (T u) hreg
  obtain ⟨r, hr, hball⟩ := Metric.eventually_nhds_iff.1 (hder.and hlip)
  set K' := max K 1 with hK'
  have hK1 : 0 < K' := lt_of_lt_of_le one_pos (le_max_right _ _)
  have hlip' : ∀ x, ‖x - u‖ < r → ‖matCLM (T x) - matCLM (T u)‖ ≤ K' * ‖x - u‖ := fun x hx =>
    (hball (y := x) (by rwa [dist_eq_norm])).2.trans (mul_le_mul_of_nonneg_right (le_max_left _ _) (norm_nonneg _))
  refine ⟨4 * M * K', by positivity, min r (1 / (2 * M * K')), lt_min hr (by positivity), fun x hx s hs => ?_⟩
  have hxr : ‖x - u‖ < r := lt_of_lt_of_le hx (min_le_left _ _)
  have hxm : ‖x - u‖ ≤ 1 / (2 * M * K') := (lt_of_lt_of_le hx (min_le_right _ _)).le
  set d := ‖x - u‖ with hd
  have hd0 : 0 ≤ d := norm_nonneg _
  have hmv : ‖F x - F u - matCLM (T u) (x - u)‖ ≤ K' * d * ‖x - u‖ := by
    refine (convex_closedBall u d).norm_image_sub_le_of_norm_hasFDerivWithin_le' (f' := fun y => matCLM (T y)) (fun y hy => ?_)
      (fun y hy => ?_) (Metric.mem_closedBall_self hd0) (by rw [Metric.mem_closedBall, dist_eq_norm])
    · rw [Metric.mem_closedBall] at hy
      exact (hball (lt_of_le_of_lt hy hxr)).1.hasFDerivWithinAt
    · rw [Metric.mem_closedBall, dist_eq_norm] at hy
      exact (hlip' y (lt_of_le_of_lt hy hxr)).trans (mul_le_mul_of_nonneg_left hy hK1.le)
  have hD : ∀ v, ‖(matCLM (T x) - matCLM (T u)) v‖ ≤ K' * d * ‖v‖ := fun v =>
    (ContinuousLinearMap.le_opNorm _ _).trans (mul_le_mul_of_nonneg_right (hlip' x hxr) (norm_nonneg _))
  set w := x + s - u with hw
  have key : matCLM (T u) w = -((matCLM (T x) - matCLM (T u)) w) + ((matCLM (T x) - matCLM (T u)) (x - u))
      - (F x - F u - matCLM (T u) (x - u)) := by
    have e1 : w = (x - u) + s := by rw [hw]; abel
    have e2 : matCLM (T x) s = -F x := hs
    simp only [ContinuousLinearMap.sub_apply]
    rw [e1, map_add, map_add, e2, hF0]
    abel
  have hkey : ‖matCLM (T u) w‖ ≤ K' * d * ‖w‖ + K' * d * d + K' * d * d := by
    rw [key]
    refine (norm_sub_le _ _).trans (add_le_add ((norm_add_le _ _).trans (add_le_add ?_ (hD _))) hmv)
    rw [norm_neg]
    exact hD w
  have h1 : M * K' * d ≤ 1 / 2 := by
    calc M * K' * d ≤ M * K' * (1 / (2 * M * K')) := mul_le_mul_of_nonneg_left hxm (by positivity)
      _ = 1 / 2 := by field_simp
  have h2 : ‖w‖ ≤ M * (K' * d * ‖w‖ + K' * d * d + K' * d * d) := (hb w).trans (mul_le_mul_of_nonneg_left hkey hM.le)
  have h3 : M * K' * d * ‖w‖ ≤ 1 / 2 * ‖w‖ := mul_le_mul_of_nonneg_right h1 (norm_nonneg _)
  have e : M * (K' * d * ‖w‖ + K' * d * d + K' * d * d) = M * K' * d * ‖w‖ + 2 * M * K' * d ^ 2 := by ring
  linarith

/-- **C90 (rate).** Let `u` be a solution where the tangent with eliminated rows is regular, let `tan` be the derivative of the residual
near `u` with entries that are Lipschitz at `u`. Then each step of `newton_step` without line search and with an exact linear solver
squares the error, up to a constant. -/
theorem C90_quadratic (fes : List FE) (bcs : List (List (BCEntry ℝ))) (h : WFBC fes bcs)
    (res : (Fin (totalDofs fes) → ℝ) → Fin (totalDofs fes) → ℝ)
    (tan : (Fin (totalDofs fes) → ℝ) → Matrix (Fin (totalDofs fes)) (Fin (totalDofs fes)) ℝ) (u : Fin (totalDofs fes) → ℝ)
    (hsol : SolvesBVP fes bcs res u) (hder : ∀ᶠ x in 𝓝 u, HasJacobianAt res (tan x) x) (L : ℝ)
    (hlip : ∀ᶠ x in 𝓝 u, ∀ i j, |tan x i j - tan u i j| ≤ L * ‖x - u‖) (hreg : (elimRows fes bcs (tan u)).det ≠ 0) :
    ∃ C > 0, ∃ r > 0, ∀ x, ‖x - u‖ < r → ∀ solve, ExactSolver solve → ∀ nu x',
      newtonStep fes bcs nu res solve false (applyBcV fes bcs 1 (res x) x, elimRows fes bcs (tan x)) x = .ok x' →
      ‖x' - u‖ ≤ C * ‖x - u‖ ^ 2 := by
  obtain ⟨C, hC, r, hr, hq⟩ := newton_quadratic (fun x => applyBcV fes bcs 1 (res x) x) (fun x => elimRows fes bcs (tan x)) u
    ((solvesBVP_zero h res u).1 hsol) (totalDofs fes * max L 0)
    (hder.mono fun x hx => C17_derivative fes bcs h 1 res (tan x) x hx)
    (hlip.mono fun x hx => by
      have e : matCLM (elimRows fes bcs (tan x)) - matCLM (elimRows fes bcs (tan u))
          = matCLM (elimRows fes bcs (tan x) - elimRows fes bcs (tan u)) := by
        ext1 v
        simp only [ContinuousLinearMap.sub_apply, matCLM_apply', Matrix.sub_mulVec]
      rw [e, mul_assoc]
      refine matCLM_norm_le _ _ (by positivity) fun i j => ?_
      show |elimRows fes bcs (tan x) i j - elimRows fes bcs (tan u) i j| ≤ _
      rcases prescribed_or h i with hi | ⟨v, hi⟩
      · rw [(elimRows_spec fes bcs h _ i j).1 hi, (elimRows_spec fes bcs h _ i j).1 hi]
        exact (hx i j).trans (mul_le_mul_of_nonneg_right (le_max_left _ _) (norm_nonneg _))
      · rw [(elimRows_spec fes bcs h _ i j).2 v hi, (elimRows_spec fes bcs h _ i j).2 v hi, sub_self, abs_zero]
        positivity) hreg
  refine ⟨C, hC, r, hr, fun x hx solve hs nu x' hstep => ?_⟩
  unfold newtonStep at hstep
  cases hy : solve (elimRows fes bcs (tan x)) (-(applyBcV fes bcs 1 (res x) x)) (newtonX0 fes bcs x) with
  | error e => rw [hy] at hstep; cases hstep
  | ok y =>
    rw [hy] at hstep
    have : x + y = x' := Except.ok.inj hstep
    rw [← this]
    exact hq x hx y (hs _ _ _ _ hy)

/-! ### A run that never ends -/

/-- One scalar unknown at one node. -/
def oneDof : List FE := [⟨1, 1, 1, []⟩]

theorem oneDof_wf : WFBC (K := ℝ) oneDof [[]] := by
  refine ⟨rfl, ?_, ?_, ?_, ?_⟩
  · intro es hes e he
    rw [List.mem_singleton.1 hes] at he
    exact absurd he (by simp)
  · intro es hes e he
    rw [List.mem_singleton.1 hes] at he
    exact absurd he (by simp)
  · intro es hes e he
    rw [List.mem_singleton.1 hes] at he
    exact absurd he (by simp)
  · intro i fe es _ hes e he
    rw [List.mem_singleton.1 (List.mem_of_getElem? hes)] at he
    exact absurd he (by simp)

theorem oneDof_free (k : Fin (totalDofs oneDof)) : Prescribed (K := ℝ) oneDof [[]] k none := by
  obtain rfl : k = (0 : Fin 1) := Subsingleton.elim (α := Fin 1) _ _
  exact Prescribed.free 0 0 0 ⟨1, 1, 1, []⟩ [] rfl rfl (by decide) (by decide) rfl (fun e he => absurd he (by simp))

theorem oneDof_vec (r u : Fin (totalDofs oneDof) → ℝ) : applyBcV oneDof [[]] 1 r u = r :=
  funext fun k => (applyBcV_spec oneDof [[]] oneDof_wf 1 r u k).1 (oneDof_free k)

theorem oneDof_mat (A : Matrix (Fin (totalDofs oneDof)) (Fin (totalDofs oneDof)) ℝ) : elimRows oneDof [[]] A = A := by
  ext i j
  exact (elimRows_spec oneDof [[]] oneDof_wf A i j).1 (oneDof_free i)

/-- The residual `x³ - 2x + 2`. -/
def cubic (x : Fin (totalDofs oneDof) → ℝ) : Fin (totalDofs oneDof) → ℝ := fun _ => x (0 : Fin 1) ^ 3 - 2 * x (0 : Fin 1) + 2

/-- Its derivative. -/
def cubicTan (x : Fin (totalDofs oneDof) → ℝ) : Matrix (Fin (totalDofs oneDof)) (Fin (totalDofs oneDof)) ℝ :=
  fun _ _ => 3 * x (0 : Fin 1) ^ 2 - 2

theorem cubic_strict (x : Fin (totalDofs oneDof) → ℝ) : HasStrictJacobianAt cubic (cubicTan x) x := by
  unfold HasStrictJacobianAt
  rw [hasStrictFDerivAt_pi']
  intro k
  have hp : HasStrictFDerivAt (fun u : Fin (totalDofs oneDof) → ℝ => u (0 : Fin 1))
      (ContinuousLinearMap.proj (0 : Fin 1) : (Fin (totalDofs oneDof) → ℝ) →L[ℝ] ℝ) x :=
    (ContinuousLinearMap.proj (R := ℝ) (φ := fun _ : Fin (totalDofs oneDof) => ℝ) (0 : Fin 1)).hasStrictFDerivAt
  refine (((hp.pow 3).sub (hp.const_mul 2)).add_const 2).congr_fderiv ?_
  ext1 v
  obtain rfl : k = (0 : Fin 1) := Subsingleton.elim (α := Fin 1) _ _
  have e : ((cubicTan x).mulVec v) (0 : Fin 1) = (3 * x (0 : Fin 1) ^ 2 - 2) * v (0 : Fin 1) :=
    Fin.sum_univ_one (fun j : Fin 1 => cubicTan x (0 : Fin 1) j * v j)
  refine Eq.trans ?_ e.symm
  show (3 • x (0 : Fin 1) ^ (3 - 1)) * v (0 : Fin 1) - 2 * v (0 : Fin 1) = _
  rw [nsmul_eq_mul]
  norm_num
  ring

theorem cubicTan_cont : Continuous cubicTan :=
  continuous_pi fun _ => continuous_pi fun _ => by unfold cubicTan; fun_prop

theorem cubicTan_det (x : Fin (totalDofs oneDof) → ℝ) : (cubicTan x).det = 3 * x (0 : Fin 1) ^ 2 - 2 :=
  Matrix.det_fin_one (cubicTan x : Matrix (Fin 1) (Fin 1) ℝ)

theorem cubic_root : ∃ u, SolvesBVP (K := ℝ) oneDof [[]] cubic u ∧ (elimRows oneDof [[]] (cubicTan u)).det ≠ 0 := by
  have hc : ContinuousOn (fun x : ℝ => x ^ 3 - 2 * x + 2) (Set.Icc (-2) (-1)) := by fun_prop
  obtain ⟨t, ht, hr⟩ := intermediate_value_Icc (by norm_num : (-2 : ℝ) ≤ -1) hc (show (0 : ℝ) ∈ _ by constructor <;> norm_num)
  refine ⟨fun _ => t, (solvesBVP_zero oneDof_wf _ _).2 ?_, ?_⟩
  · rw [oneDof_vec]
    exact funext fun _ => hr
  · rw [oneDof_mat, cubicTan_det]
    have := ht.2
    have : (1 : ℝ) ≤ t ^ 2 := by nlinarith
    show 3 * t ^ 2 - 2 ≠ 0
    linarith

/-- **C90 (no limit on the iterations).** `solver` has no maximum number of iterations: for the residual `x³ - 2x + 2` of one unknown,
which has a regular solution, the run from the default start `0` with exact linear solver, without line search, with tolerances
such as the default ones alternates between `0` and `1` and never ends, though the tangent at each of these points is regular. -/
theorem C90_cycle : WFBC (K := ℝ) oneDof [[]] ∧ (∀ x, HasStrictJacobianAt cubic (cubicTan x) x) ∧ Continuous cubicTan
    ∧ (∃ u, SolvesBVP (K := ℝ) oneDof [[]] cubic u ∧ (elimRows oneDof [[]] (cubicTan u)).det ≠ 0)
    ∧ ∀ solve, ExactSolver solve → (∀ A b x0, A.det ≠ 0 → ∃ y, solve A b x0 = .ok y) → ∀ tol relTol : ℝ, tol < 1 → relTol < 1 / 2 →
      ∀ fuel, newtonSolve (newtonUpdate oneDof [[]] cubic cubicTan) (fun rA => .fin ‖rA.1‖)
        (newtonStep oneDof [[]] (fun r => .fin ‖r‖) cubic solve false) (fun _ => true) tol relTol 0 fuel = none := by
  refine ⟨oneDof_wf, cubic_strict, cubicTan_cont, cubic_root, fun solve hs hok tol relTol ht hr fuel => ?_⟩
  have hnorm : ∀ v : Fin (totalDofs oneDof) → ℝ, ‖v‖ = |v (0 : Fin 1)| := fun v => by
    refine le_antisymm ((pi_norm_le_iff_of_nonneg (abs_nonneg _)).2 fun i => ?_) (norm_le_pi_norm v (0 : Fin 1))
    obtain rfl : i = (0 : Fin 1) := Subsingleton.elim (α := Fin 1) _ _
    rfl
  have hconst : ∀ v : Fin (totalDofs oneDof) → ℝ, v = fun _ => v (0 : Fin 1) := fun v => funext fun i => by
    obtain rfl : i = (0 : Fin 1) := Subsingleton.elim (α := Fin 1) _ _
    rfl
  have hstep : ∀ t t' : ℝ, 3 * t ^ 2 - 2 ≠ 0 → (3 * t ^ 2 - 2) * (t' - t) = -(t ^ 3 - 2 * t + 2) →
      newtonStep oneDof [[]] (fun r => .fin ‖r‖) cubic solve false (cubic fun _ => t, cubicTan fun _ => t) (fun _ => t)
        = .ok (fun _ => t') := by
    intro t t' hd he
    obtain ⟨y, hy⟩ := hok (cubicTan fun _ => t) (-(cubic fun _ => t)) (newtonX0 oneDof [[]] fun _ => t) (by rw [cubicTan_det]; exact hd)
    have h1 := congrFun (hs _ _ _ _ hy) (0 : Fin 1)
    have h2 : (3 * t ^ 2 - 2) * y (0 : Fin 1) = -(t ^ 3 - 2 * t + 2) := by
      rw [← show ((cubicTan fun _ => t).mulVec y) (0 : Fin 1) = (3 * t ^ 2 - 2) * y (0 : Fin 1) from
        Fin.sum_univ_one (fun j : Fin 1 => cubicTan (fun _ => t) (0 : Fin 1) j * y j)]
      exact h1
    have h3 : y (0 : Fin 1) = t' - t := mul_left_cancel₀ hd (h2.trans he.symm)
    unfold newtonStep
    rw [hy]
    show Except.ok ((fun _ => t) + y) = _
    rw [hconst y, h3]
    congr 1
    funext _
    show t + (t' - t) = t'
    ring
  have hn0 : ‖cubic fun _ => 0‖ = 2 := by rw [hnorm]; norm_num [cubic]
  have hn1 : ‖cubic fun _ => 1‖ = 1 := by rw [hnorm]; norm_num [cubic]
  have hloop : ∀ fuel k,
      newtonLoop (newtonUpdate oneDof [[]] cubic cubicTan) (fun rA => .fin ‖rA.1‖)
        (newtonStep oneDof [[]] (fun r => .fin ‖r‖) cubic solve false) tol relTol (.fin 2) fuel (fun _ => 0)
        (cubic fun _ => 0, cubicTan fun _ => 0) k = none
      ∧ newtonLoop (newtonUpdate oneDof [[]] cubic cubicTan) (fun rA => .fin ‖rA.1‖)
        (newtonStep oneDof [[]] (fun r => .fin ‖r‖) cubic solve false) tol relTol (.fin 2) fuel (fun _ => 1)
        (cubic fun _ => 1, cubicTan fun _ => 1) k = none := by
    intro fuel
    induction fuel with
    | zero => exact fun k => ⟨rfl, rfl⟩
    | succ fuel ih =>
      intro k
      constructor
      · rw [newtonLoop]
        dsimp only
        rw [hn0, if_pos (by simp [Flt.gt, Flt.div]; constructor <;> linarith), hstep 0 1 (by norm_num) (by norm_num)]
        dsimp only [newtonUpdate]
        rw [oneDof_vec, oneDof_mat]
        exact (ih (k + 1)).2
      · rw [newtonLoop]
        dsimp only
        rw [hn1, if_pos (by simp [Flt.gt, Flt.div]; constructor <;> linarith), hstep 1 0 (by norm_num) (by norm_num)]
        dsimp only [newtonUpdate]
        rw [oneDof_vec, oneDof_mat]
        exact (ih (k + 1)).1
  have := (hloop fuel 0).1
  unfold newtonSolve
  dsimp only [newtonUpdate]
  rw [oneDof_vec, oneDof_mat]
  rw [show (0 : Fin (totalDofs oneDof) → ℝ) = fun _ => 0 from rfl, hn0, this]

/-- The hypotheses of `C90_small_loads` and `C90_quadratic` hold at the solution of that problem. -/
example : ∃ u, SolvesBVP (K := ℝ) oneDof [[]] cubic u ∧ HasStrictJacobianAt cubic (cubicTan u) u ∧ ContinuousAt cubicTan u
    ∧ (elimRows oneDof [[]] (cubicTan u)).det ≠ 0 ∧ (∀ᶠ x in 𝓝 u, HasJacobianAt cubic (cubicTan x) x)
    ∧ ∀ᶠ x in 𝓝 u, ∀ i j, |cubicTan x i j - cubicTan u i j| ≤ 3 * (2 * |u (0 : Fin 1)| + 1) * ‖x - u‖ := by
  obtain ⟨u, h1, h2⟩ := cubic_root
  refine ⟨u, h1, cubic_strict u, cubicTan_cont.continuousAt, h2, Filter.Eventually.of_forall fun x => (cubic_strict x).hasFDerivAt, ?_⟩
  filter_upwards [Metric.ball_mem_nhds u one_pos] with x hx i j
  rw [Metric.mem_ball, dist_eq_norm] at hx
  have h0 : |x (0 : Fin 1) - u (0 : Fin 1)| ≤ ‖x - u‖ := norm_le_pi_norm (x - u) (0 : Fin 1)
  show |(3 * x (0 : Fin 1) ^ 2 - 2) - (3 * u (0 : Fin 1) ^ 2 - 2)| ≤ _
  have e : (3 * x (0 : Fin 1) ^ 2 - 2) - (3 * u (0 : Fin 1) ^ 2 - 2)
      = 3 * ((x (0 : Fin 1) - u (0 : Fin 1)) + 2 * u (0 : Fin 1)) * (x (0 : Fin 1) - u (0 : Fin 1)) := by ring
  rw [e, abs_mul, abs_mul, abs_of_pos (by norm_num : (0 : ℝ) < 3)]
  have h3 : |x (0 : Fin 1) - u (0 : Fin 1) + 2 * u (0 : Fin 1)| ≤ 2 * |u (0 : Fin 1)| + 1 := by
    refine (abs_add_le _ _).trans ?_
    rw [abs_mul, abs_of_pos (by norm_num : (0 : ℝ) < 2)]
    linarith
  exact mul_le_mul (mul_le_mul_of_nonneg_left h3 (by norm_num)) h0 (abs_nonneg _) (by positivity)

end JaxFem
