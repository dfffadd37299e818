import Verif.Thm.C89_Stress
import Mathlib.Analysis.Calculus.ImplicitFunction.ProdDomain
import Mathlib.Analysis.Calculus.ContDiff.RCLike
import Mathlib.Analysis.Calculus.ContDiff.Operations
import Mathlib.Analysis.Calculus.ContDiff.Deriv
import Mathlib.Analysis.SpecialFunctions.Pow.Deriv
import Mathlib.Analysis.Calculus.Deriv.Abs

/-!
C89: the derivative rule of the local iteration.
-/

namespace JaxFem.Crystal

open scoped Topology

/-- Solving with an invertible operator. -/
def SolvesExactly {E : Type} [NormedAddCommGroup E] [NormedSpace ℝ E] (solve : (E →L[ℝ] E) → E → E) : Prop :=
  ∀ A : E →L[ℝ] E, A.IsInvertible → ∀ b, A (solve A b) = b

/-- **C89 (derivative rule).** For any residual that is continuously differentiable near a solution `(x, y)` with invertible
derivative in `y`: there is exactly one solution near `y` for every parameter near `x`, it depends differentiably on the parameter,
and `f_jvp` computes its derivative. -/
theorem C89_jvp {X E : Type} [NormedAddCommGroup X] [NormedSpace ℝ X] [CompleteSpace X] [NormedAddCommGroup E] [NormedSpace ℝ E]
    [CompleteSpace E] (solve : (E →L[ℝ] E) → E → E) (hsolve : SolvesExactly solve) (res : X → E → E) (x : X) (y : E)
    (hc : ContDiffAt ℝ 1 (fun p : X × E => res p.1 p.2) (x, y)) (hz : res x y = 0)
    (hinv : (fderiv ℝ (fun z => res x z) y).IsInvertible) :
    ∃ Y : X → E, Y x = y ∧ (∀ᶠ p in 𝓝 (x, y), res p.1 p.2 = 0 ↔ Y p.1 = p.2)
      ∧ ∃ D : X →L[ℝ] E, HasFDerivAt Y D x ∧ ∀ v, D v = jvp solve res x y v := by
  set F : X × E → E := fun p => res p.1 p.2 with hF
  have hFs : HasStrictFDerivAt F (fderiv ℝ F (x, y)) (x, y) := hc.hasStrictFDerivAt one_ne_zero
  have h2 : HasFDerivAt (fun z => res x z) ((fderiv ℝ F (x, y)).comp (ContinuousLinearMap.inr ℝ X E)) y :=
    HasFDerivAt.comp (g := F) (f := fun w => (x, w)) y hFs.hasFDerivAt (hasFDerivAt_prodMk_right x y)
  have h1 : HasFDerivAt (fun z => res z y) ((fderiv ℝ F (x, y)).comp (ContinuousLinearMap.inl ℝ X E)) x :=
    HasFDerivAt.comp (g := F) (f := fun w => (w, y)) x hFs.hasFDerivAt (hasFDerivAt_prodMk_left x y)
  have hinv' : ((fderiv ℝ F (x, y)).comp (ContinuousLinearMap.inr ℝ X E)).IsInvertible := by
    rw [← h2.fderiv]; exact hinv
  have e1 := hFs.eventually_apply_eq_iff_implicitFunctionOfProdDomain hinv'
  have e3 : hFs.implicitFunctionOfProdDomain hinv' x = y := e1.self_of_nhds.1 rfl
  have e4 := hFs.hasStrictFDerivAt_implicitFunctionOfProdDomain hinv'
  have hF0 : F (x, y) = 0 := hz
  rw [hF0] at e1
  refine ⟨_, e3, e1, _, e4.hasFDerivAt, fun v => ?_⟩
  obtain ⟨eq, he⟩ := hinv'
  unfold jvp
  rw [h1.fderiv, h2.fderiv]
  generalize (fderiv ℝ F (x, y)).comp (ContinuousLinearMap.inl ℝ X E) = A
  have key := hsolve _ ⟨eq, he⟩ (-(A v))
  rw [← he] at key ⊢
  show -((eq : E →L[ℝ] E).inverse (A v)) = _
  rw [ContinuousLinearMap.inverse_equiv]
  apply eq.injective
  rw [map_neg]
  simp only [ContinuousLinearEquiv.coe_coe] at key ⊢
  rw [key, ContinuousLinearEquiv.apply_symm_apply]

/-! ## Smoothness of the residual -/

theorem power_eq (e t : ℝ) : |t| ^ e * sgn t = |t| ^ (e - 1) * t := by
  by_cases h : t = 0
  · rw [h, sgn_zero, mul_zero, mul_zero]
  · have h1 : |t| ^ e = |t| ^ (e - 1) * |t| := by
      rw [← Real.rpow_add_one (abs_ne_zero.2 h), sub_add_cancel]
    have h2 : |t| * sgn t = t := by
      unfold sgn
      rcases lt_or_gt_of_ne h with h | h
      · rw [if_neg (by linarith), if_pos h, abs_of_neg h]; ring
      · rw [if_pos h, abs_of_pos h]; ring
    rw [h1, mul_assoc, h2]

theorem hasDerivAt_power (e : ℝ) (he : 1 < e) (t : ℝ) : HasDerivAt (fun t : ℝ => |t| ^ e * sgn t) (e * |t| ^ (e - 1)) t := by
  have hfun : (fun t : ℝ => |t| ^ e * sgn t) = fun t : ℝ => |t| ^ (e - 1) * t := funext (power_eq e)
  rw [hfun]
  have hc1 : Continuous fun t : ℝ => |t| ^ (e - 1) := continuous_abs.rpow_const fun t => Or.inr (by linarith)
  have hne : ∀ t : ℝ, t ≠ 0 → HasDerivAt (fun t : ℝ => |t| ^ (e - 1) * t) (e * |t| ^ (e - 1)) t := by
    intro t ht
    have h1 := (hasDerivAt_abs ht).rpow_const (p := e - 1) (Or.inl (abs_ne_zero.2 ht))
    have h2 := h1.mul (hasDerivAt_id t)
    refine h2.congr_deriv ?_
    have h3 : |t| ^ (e - 1) = |t| ^ (e - 1 - 1) * |t| := by
      rw [← Real.rpow_add_one (abs_ne_zero.2 ht), sub_add_cancel]
    have h4 : (SignType.sign t : ℝ) * t = |t| := sign_mul_self t
    simp only [id, mul_one]
    have : (SignType.sign t : ℝ) * (e - 1) * |t| ^ (e - 1 - 1) * t = (e - 1) * (|t| ^ (e - 1 - 1) * ((SignType.sign t : ℝ) * t)) := by
      ring
    rw [this, h4, ← h3]
    ring
  by_cases ht : t = 0
  · subst ht
    exact hasDerivAt_of_hasDerivAt_of_ne (f := fun t : ℝ => |t| ^ (e - 1) * t) (g := fun t => e * |t| ^ (e - 1)) hne
      (hc1.mul continuous_id).continuousAt (continuous_const.mul hc1).continuousAt
  · exact hne t ht

theorem contDiff_power (e : ℝ) (he : 1 < e) : ContDiff ℝ 1 fun t : ℝ => |t| ^ e * sgn t := by
  rw [contDiff_one_iff_deriv]
  refine ⟨fun t => (hasDerivAt_power e he t).differentiableAt, ?_⟩
  have : (deriv fun t : ℝ => |t| ^ e * sgn t) = fun t => e * |t| ^ (e - 1) := funext fun t => (hasDerivAt_power e he t).deriv
  rw [this]
  exact continuous_const.mul (continuous_abs.rpow_const fun t => Or.inr (by linarith))

variable {ns : Nat}

/-- The arguments of the local problem: `u_grad, Fp_inv_old, slip_resistance_old, slip_old, rot_mat`. -/
abbrev Args (ns : Nat) := M3 × M3 × (Fin ns → ℝ) × (Fin ns → ℝ) × M3

/-- Internal variables among the arguments. -/
def Args.internal (x : Args ns) : Internal ns := ⟨x.2.1, x.2.2.1, x.2.2.2.1, x.2.2.2.2⟩

/-- `implicit_residual(x, y)`. -/
noncomputable def residualOf (m : Material ns) (dt : ℝ) (x : Args ns) (S : M3) : M3 := implicitResidual m dt x.internal x.1 S

theorem sgn_div (t g : ℝ) (hg : 0 < g) : sgn (t / g) = sgn t := by
  unfold sgn
  rcases lt_trichotomy t 0 with h | h | h
  · have : t / g < 0 := div_neg_of_neg_of_pos h hg
    rw [if_neg (by linarith), if_pos this, if_neg (by linarith), if_pos h]
  · rw [h]; simp
  · rw [if_pos (div_pos h hg), if_pos h]

theorem contDiff_entry {V : Type} [NormedAddCommGroup V] [NormedSpace ℝ V] {f : V → M3} {p : V} (hf : ContDiffAt ℝ 1 f p)
    (i j : Fin 3) : ContDiffAt ℝ 1 (fun v => f v i j) p := contDiffAt_pi.1 (contDiffAt_pi.1 hf i) j

section
variable (m : Material ns) (dt : ℝ) (p : Args ns × M3)

theorem c_grad : ContDiffAt ℝ 1 (fun q : Args ns × M3 => q.1.1) p := contDiffAt_fst.fst
theorem c_fp : ContDiffAt ℝ 1 (fun q : Args ns × M3 => q.1.2.1) p := contDiffAt_fst.snd.fst
theorem c_res (a : Fin ns) : ContDiffAt ℝ 1 (fun q : Args ns × M3 => q.1.2.2.1 a) p :=
  contDiffAt_pi.1 contDiffAt_fst.snd.snd.fst a
theorem c_rot : ContDiffAt ℝ 1 (fun q : Args ns × M3 => q.1.2.2.2.2) p := contDiffAt_fst.snd.snd.snd.snd
theorem c_S : ContDiffAt ℝ 1 (fun q : Args ns × M3 => q.2) p := contDiffAt_snd

theorem c_rotate2 (T : M3) (i j : Fin 3) : ContDiffAt ℝ 1 (fun q : Args ns × M3 => rotate2 q.1.2.2.2.2 T i j) p := by
  unfold rotate2
  refine ContDiffAt.sum fun a _ => ContDiffAt.sum fun b _ => ?_
  exact ((contDiff_entry (c_rot p) i a).mul (contDiff_entry (c_rot p) j b)).mul contDiffAt_const

theorem c_rotate4 (T : Fin 3 → Fin 3 → Fin 3 → Fin 3 → ℝ) (i j k l : Fin 3) :
    ContDiffAt ℝ 1 (fun q : Args ns × M3 => rotate4 q.1.2.2.2.2 T i j k l) p := by
  unfold rotate4
  refine ContDiffAt.sum fun a _ => ContDiffAt.sum fun b _ => ContDiffAt.sum fun c _ => ContDiffAt.sum fun d _ => ?_
  exact ((((contDiff_entry (c_rot p) i a).mul (contDiff_entry (c_rot p) j b)).mul (contDiff_entry (c_rot p) k c)).mul
    (contDiff_entry (c_rot p) l d)).mul contDiffAt_const

theorem c_tau (a : Fin ns) : ContDiffAt ℝ 1 (fun q : Args ns × M3 => tau m q.1.2.2.2.2 q.2 a) p := by
  unfold tau
  refine ContDiffAt.sum fun i _ => ContDiffAt.sum fun j _ => ?_
  exact (contDiff_entry (c_S p) i j).mul (c_rotate2 p _ i j)

theorem c_gamma (he : 1 < 1 / m.xm) (a : Fin ns) (hg : 0 < p.1.2.2.1 a) :
    ContDiffAt ℝ 1 (fun q : Args ns × M3 => gammaInc m dt q.1.internal q.2 a) p := by
  have h1 : ContDiffAt ℝ 1 (fun q : Args ns × M3 => tau m q.1.2.2.2.2 q.2 a / q.1.2.2.1 a) p :=
    (c_tau m p a).div (c_res p a) hg.ne'
  have h2 : ContDiffAt ℝ 1 (fun q : Args ns × M3 => m.ao * dt * (|tau m q.1.2.2.2.2 q.2 a / q.1.2.2.1 a| ^ (1 / m.xm)
      * sgn (tau m q.1.2.2.2.2 q.2 a / q.1.2.2.1 a))) p :=
    contDiffAt_const.mul ((contDiff_power _ he).contDiffAt.comp p h1)
  refine h2.congr_of_eventuallyEq ?_
  have hpos : ∀ᶠ q : Args ns × M3 in 𝓝 p, 0 < q.1.2.2.1 a := (c_res p a).continuousAt.eventually (lt_mem_nhds hg)
  filter_upwards [hpos] with q hq
  rw [sgn_div _ _ hq, ← mul_assoc]
  rfl

end

/-- Twice the elastic strain for a given plastic increment. -/
noncomputable def elasticStrain (uGrad Fp L : M3) : Matrix (Fin 3) (Fin 3) ℝ :=
  (defGrad uGrad * (Matrix.of Fp * (1 - Matrix.of L))).transpose * (defGrad uGrad * (Matrix.of Fp * (1 - Matrix.of L))) - 1

theorem c_mul {V : Type} [NormedAddCommGroup V] [NormedSpace ℝ V] {f g : V → Matrix (Fin 3) (Fin 3) ℝ} {p : V}
    (hf : ∀ i j, ContDiffAt ℝ 1 (fun v => f v i j) p) (hg : ∀ i j, ContDiffAt ℝ 1 (fun v => g v i j) p) (i j : Fin 3) :
    ContDiffAt ℝ 1 (fun v => (f v * g v) i j) p := by
  simp only [Matrix.mul_apply]
  exact ContDiffAt.sum fun k _ => (hf i k).mul (hg k j)

theorem c_strain {V : Type} [NormedAddCommGroup V] [NormedSpace ℝ V] {u f l : V → M3} {p : V} (hu : ContDiffAt ℝ 1 u p)
    (hf : ContDiffAt ℝ 1 f p) (hl : ContDiffAt ℝ 1 l p) (i j : Fin 3) :
    ContDiffAt ℝ 1 (fun v => elasticStrain (u v) (f v) (l v) i j) p := by
  have hFe : ∀ i j, ContDiffAt ℝ 1 (fun v => (defGrad (u v) * (Matrix.of (f v) * (1 - Matrix.of (l v)))) i j) p :=
    c_mul (fun i j => (contDiff_entry hu i j).add contDiffAt_const)
      (c_mul (fun i j => contDiff_entry hf i j) fun i j => contDiffAt_const.sub (contDiff_entry hl i j))
  exact (c_mul (fun i j => hFe j i) hFe i j).sub contDiffAt_const

theorem plastic_zero (m : Material ns) (dt : ℝ) (iv : Internal ns) : plasticInc m dt iv 0 = 0 := by
  funext i j
  refine Finset.sum_eq_zero fun a _ => ?_
  have : tau m iv.rot 0 a = 0 := by
    unfold tau
    exact Finset.sum_eq_zero fun i _ => Finset.sum_eq_zero fun j _ => by simp
  unfold gammaInc
  rw [this, sgn_zero, mul_zero, zero_mul]

theorem plastic_deriv (m : Material ns) (dt : ℝ) (he : 1 < 1 / m.xm) (x : Args ns) (hx : ∀ a, 0 < x.2.2.1 a) :
    HasFDerivAt (fun S => plasticInc m dt x.internal S) (0 : M3 →L[ℝ] M3) 0 := by
  have hγ : ∀ a, HasFDerivAt (fun S => gammaInc m dt x.internal S a) (0 : M3 →L[ℝ] ℝ) 0 := by
    intro a
    have ht : DifferentiableAt ℝ (fun S : M3 => tau m x.2.2.2.2 S a / x.2.2.1 a) 0 := by
      have h : ContDiffAt ℝ 1 (fun S : M3 => tau m x.2.2.2.2 S a) 0 := by
        unfold tau
        exact ContDiffAt.sum fun i _ => ContDiffAt.sum fun j _ => (contDiff_entry contDiffAt_id i j).mul contDiffAt_const
      exact (h.div_const _).differentiableAt one_ne_zero
    have h0 : tau m x.2.2.2.2 0 a / x.2.2.1 a = 0 := by
      have : tau m x.2.2.2.2 0 a = 0 := by
        unfold tau
        exact Finset.sum_eq_zero fun i _ => Finset.sum_eq_zero fun j _ => by simp
      rw [this, zero_div]
    have h1 := ((hasDerivAt_power _ he (tau m x.2.2.2.2 0 a / x.2.2.1 a)).comp_hasFDerivAt (0 : M3) ht.hasFDerivAt).const_mul
      (m.ao * dt)
    rw [h0, abs_zero, Real.zero_rpow (by linarith), mul_zero, zero_smul, smul_zero] at h1
    refine h1.congr_of_eventuallyEq (Filter.Eventually.of_forall fun S => ?_)
    show m.ao * dt * |tau m x.2.2.2.2 S a / x.2.2.1 a| ^ (1 / m.xm) * sgn (tau m x.2.2.2.2 S a)
      = m.ao * dt * (|tau m x.2.2.2.2 S a / x.2.2.1 a| ^ (1 / m.xm) * sgn (tau m x.2.2.2.2 S a / x.2.2.1 a))
    rw [sgn_div _ _ (hx a), mul_assoc]
  rw [hasFDerivAt_pi']
  intro i
  rw [hasFDerivAt_pi']
  intro j
  have h := HasFDerivAt.fun_sum (u := Finset.univ) fun a (_ : a ∈ Finset.univ) =>
    (hγ a).mul_const (rotate2 x.2.2.2.2 (m.schmid a) i j)
  refine h.congr_fderiv ?_
  simp

/-- **C89 (smoothness).** The residual of the local problem is continuously differentiable in the stress and in all arguments where the
resistances are positive, if the rate exponent is above one; and in a state without elastic strain its derivative with respect to the
stress is the identity. So the derivative rule applies there, and by continuity nearby. -/
theorem C89_smooth (m : Material ns) (dt : ℝ) (he : 1 < 1 / m.xm) :
    (∀ p : Args ns × M3, (∀ a, 0 < p.1.2.2.1 a) → ContDiffAt ℝ 1 (fun q : Args ns × M3 => residualOf m dt q.1 q.2) p)
    ∧ ∀ x : Args ns, (∀ a, 0 < x.2.2.1 a) →
      HasFDerivAt (fun S => residualOf m dt x S) (ContinuousLinearMap.id ℝ M3) 0 := by
  refine ⟨fun p hp => ?_, fun x hx => ?_⟩
  · refine contDiffAt_pi.2 fun i => contDiffAt_pi.2 fun j => ?_
    have hsum : (fun q : Args ns × M3 => residualOf m dt q.1 q.2 i j) = fun q => q.2 i j - ∑ k, ∑ l,
        rotate4 q.1.2.2.2.2 m.C i j k l * (1 / 2) * elasticStrain q.1.1 q.1.2.1 (plasticInc m dt q.1.internal q.2) k l := rfl
    rw [hsum]
    refine (contDiff_entry (c_S p) i j).sub (ContDiffAt.sum fun k _ => ContDiffAt.sum fun l _ => ?_)
    refine ((c_rotate4 p m.C i j k l).mul contDiffAt_const).mul ?_
    refine c_strain (c_grad p) (c_fp p) (contDiffAt_pi.2 fun a => contDiffAt_pi.2 fun b => ?_) k l
    unfold plasticInc
    exact ContDiffAt.sum fun s _ => (c_gamma m dt p he s (hp s)).mul (c_rotate2 p _ a b)
  · have hL : HasFDerivAt (fun S => plasticInc m dt x.internal S) (0 : M3 →L[ℝ] M3) 0 := plastic_deriv m dt he x hx
    let G : M3 → M3 := fun L i j => ∑ k, ∑ l, rotate4 x.2.2.2.2 m.C i j k l * (1 / 2) * elasticStrain x.1 x.2.1 L k l
    have hG : ContDiff ℝ 1 G := by
      rw [contDiff_iff_contDiffAt]
      intro L
      refine contDiffAt_pi.2 fun i => contDiffAt_pi.2 fun j => ContDiffAt.sum fun k _ => ContDiffAt.sum fun l _ => ?_
      exact contDiffAt_const.mul (c_strain contDiffAt_const contDiffAt_const contDiffAt_id k l)
    have hG' := (hG.differentiable one_ne_zero (plasticInc m dt x.internal 0)).hasFDerivAt
    have h := (hasFDerivAt_id (𝕜 := ℝ) (0 : M3)).sub (hG'.comp (0 : M3) hL)
    rw [ContinuousLinearMap.comp_zero, sub_zero] at h
    exact h

/-- The rule applies to the local problem of the crystal in the undeformed state, for any orientation: the stress that solves the
local problem near zero is a differentiable function of displacement gradient and internal variables, and `f_jvp` is its
derivative. -/
example (R : M3) (solve : (M3 →L[ℝ] M3) → M3 → M3) (hsolve : SolvesExactly solve) :
    ∃ Y : Args 12 → M3, Y (0, (1 : Matrix (Fin 3) (Fin 3) ℝ), fun _ => gssInitial, fun _ => 0, R) = 0
      ∧ ∃ D : Args 12 →L[ℝ] M3, HasFDerivAt Y D (0, (1 : Matrix (Fin 3) (Fin 3) ℝ), fun _ => gssInitial, fun _ => 0, R)
        ∧ ∀ v, D v = jvp solve (residualOf fcc 0.02) (0, (1 : Matrix (Fin 3) (Fin 3) ℝ), fun _ => gssInitial, fun _ => 0, R) 0 v := by
  have he : 1 < 1 / fcc.xm := by show (1 : ℝ) < 1 / 0.1; norm_num
  have hg : (0 : ℝ) < gssInitial := by unfold gssInitial; norm_num
  obtain ⟨h1, h2⟩ := C89_smooth fcc 0.02 he
  set x : Args 12 := (0, (1 : Matrix (Fin 3) (Fin 3) ℝ), fun _ => gssInitial, fun _ => 0, R) with hx
  have hp : plasticInc fcc 0.02 x.internal 0 = 0 := plastic_zero _ _ _
  obtain ⟨Y, e1, -, e2⟩ := C89_jvp solve hsolve (residualOf fcc 0.02) x 0 (h1 (x, 0) fun _ => hg) (by
      funext i j
      show (0 : M3) i j - ∑ k, ∑ l, rotate4 R fcc.C i j k l * (1 / 2) * elasticStrain 0 (1 : Matrix (Fin 3) (Fin 3) ℝ) (plasticInc fcc 0.02 x.internal 0) k l = 0
      rw [hp]
      have : elasticStrain 0 (1 : Matrix (Fin 3) (Fin 3) ℝ) (0 : M3) = 0 := by
        unfold elasticStrain defGrad
        have e0 : (Matrix.of (0 : M3) : Matrix (Fin 3) (Fin 3) ℝ) = 0 := rfl
        have e1 : (Matrix.of (1 : Matrix (Fin 3) (Fin 3) ℝ) : Matrix (Fin 3) (Fin 3) ℝ) = 1 := rfl
        rw [e0, e1]
        simp
      rw [this]
      simp) (by
      rw [(h2 x fun _ => hg).fderiv]
      exact ⟨ContinuousLinearEquiv.refl ℝ M3, rfl⟩)
  exact ⟨Y, e1, e2⟩

end JaxFem.Crystal
