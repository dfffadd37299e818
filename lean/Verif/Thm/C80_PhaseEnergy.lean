import Mathlib.Analysis.SpecialFunctions.Complex.LogDeriv
import Mathlib.Analysis.Calculus.FDeriv.Mul
import Mathlib.Analysis.Calculus.FDeriv.Pow
import Mathlib.Analysis.SpecialFunctions.Trigonometric.Deriv
import Verif.Thm.C79_Explicit

/-!
# C80: the dendrite kernels are derivatives of a free energy
-/

namespace JaxFem

namespace Dendrite

variable (m : Params)

/-! ### Helper lemmas -/

theorem epsFn_hasDerivAt (θ : ℝ) :
    HasDerivAt (epsFn m) (m.epsBar * (m.delta * (-Real.sin (m.J * (θ - Real.pi / 2)) * m.J))) θ := by
  have h1 : HasDerivAt (fun θ : ℝ => m.J * (θ - Real.pi / 2)) m.J θ := by
    simpa using ((hasDerivAt_id θ).sub_const (Real.pi / 2)).const_mul m.J
  exact ((h1.cos.const_mul m.delta).const_add 1).const_mul m.epsBar

theorem epsFn_periodic (k : ℤ) (hJ : m.J = k) (θ θ' : ℝ) (h : (θ : Real.Angle) = θ') :
    epsFn m θ = epsFn m θ' := by
  obtain ⟨n, hn⟩ := Real.Angle.angle_eq_iff_two_pi_dvd_sub.1 h
  rw [epsFn, epsFn]
  have : m.J * (θ - Real.pi / 2) = m.J * (θ' - Real.pi / 2) + ((k * n : ℤ) : ℝ) * (2 * Real.pi) := by
    rw [hJ]
    push_cast
    linear_combination (k : ℝ) * hn
  rw [this, Real.cos_add_int_mul_two_pi]

/-- The plane as complex numbers. -/
noncomputable def toC : (Fin 2 → ℝ) →L[ℝ] ℂ :=
  Complex.ofRealCLM.comp (ContinuousLinearMap.proj 0)
    + Complex.I • Complex.ofRealCLM.comp (ContinuousLinearMap.proj 1)

theorem toC_apply (g : Fin 2 → ℝ) : toC g = ⟨g 0, g 1⟩ := by
  apply Complex.ext <;> simp [toC]

theorem toC_ne (g : Fin 2 → ℝ) (hg : g ≠ 0) : toC g ≠ 0 := by
  intro h
  rw [toC_apply] at h
  apply hg
  have h0 := congrArg Complex.re h
  have h1 := congrArg Complex.im h
  funext j
  fin_cases j
  · exact h0
  · exact h1

/-- Angle relative to a fixed direction. -/
noncomputable def relAngle (g h : Fin 2 → ℝ) : ℝ := (Complex.log (toC h * starRingEnd ℂ (toC g))).im

theorem relAngle_hasFDerivAt (g : Fin 2 → ℝ) (hg : g ≠ 0) :
    HasFDerivAt (relAngle g) ((g 0 ^ 2 + g 1 ^ 2)⁻¹ •
      (-(g 1) • ContinuousLinearMap.proj (R := ℝ) (φ := fun _ : Fin 2 => ℝ) 0
        + g 0 • ContinuousLinearMap.proj (R := ℝ) (φ := fun _ : Fin 2 => ℝ) 1)) g := by
  have hz := toC_ne g hg
  have hn : toC g * starRingEnd ℂ (toC g) = ((g 0 ^ 2 + g 1 ^ 2 : ℝ) : ℂ) := by
    rw [Complex.mul_conj, toC_apply, Complex.normSq_mk]
    congr 1
    ring
  have hpos : 0 < g 0 ^ 2 + g 1 ^ 2 := by
    have := Complex.normSq_pos.2 hz
    rw [toC_apply, Complex.normSq_mk] at this
    nlinarith
  have hs : toC g * starRingEnd ℂ (toC g) ∈ Complex.slitPlane := by
    rw [hn]
    exact Complex.ofReal_mem_slitPlane.2 hpos
  have h1 : HasFDerivAt (fun h : Fin 2 → ℝ => toC h * starRingEnd ℂ (toC g))
      ((starRingEnd ℂ (toC g)) • toC) g := toC.hasFDerivAt.mul_const _
  have h2 := ((Complex.hasStrictDerivAt_log hs).hasStrictFDerivAt.hasFDerivAt.restrictScalars ℝ)
  have h3 := Complex.imCLM.hasFDerivAt.comp g (h2.comp g h1)
  refine h3.congr_fderiv ?_
  ext1 w
  simp only [ContinuousLinearMap.comp_apply, ContinuousLinearMap.coe_restrictScalars',
    ContinuousLinearMap.toSpanSingleton_apply, smul_apply, add_apply, smul_eq_mul, Complex.imCLM_apply,
    ContinuousLinearMap.proj_apply, neg_mul]
  rw [hn, ← Complex.ofReal_inv, mul_comm, Complex.im_ofReal_mul, toC_apply, toC_apply]
  simp
  left
  ring

theorem epsFn_rel (k : ℤ) (hJ : m.J = k) (g h : Fin 2 → ℝ) (hg : g ≠ 0) (hh : h ≠ 0) :
    epsFn m (Complex.arg (toC h)) = epsFn m (relAngle g h + Complex.arg (toC g)) := by
  refine epsFn_periodic m k hJ _ _ ?_
  have hz := toC_ne g hg
  have hw := toC_ne h hh
  rw [Real.Angle.coe_add, relAngle, Complex.log_im, Complex.arg_mul_coe_angle hw
    ((map_ne_zero _).2 hz), Complex.arg_conj_coe_angle]
  simp

/-- **C80 (anisotropy).** For an integer number of branches `J` the flux of the kernels is the gradient of
the anisotropic gradient energy at every `g`: also where the angle jumps, and at `g = 0`. -/
theorem C80_flux_gradient (k : ℤ) (hJ : m.J = k) (g : Fin 2 → ℝ) :
    HasFDerivAt (anisoEnergy m)
      (∑ j, flux m g g j • ContinuousLinearMap.proj (R := ℝ) (φ := fun _ : Fin 2 => ℝ) j) g := by
  have hE : ∀ h, anisoEnergy m h = 1 / 2 * epsFn m (Complex.arg (toC h)) ^ 2 * (h 0 ^ 2 + h 1 ^ 2) := by
    intro h
    rw [toC_apply]
    rfl
  by_cases hg : g = 0
  · subst hg
    have : (∑ j, flux m 0 0 j • ContinuousLinearMap.proj (R := ℝ) (φ := fun _ : Fin 2 => ℝ) j) = 0 := by
      refine Finset.sum_eq_zero fun j _ => ?_
      rw [show flux m 0 0 j = 0 by simp [flux], zero_smul]
    rw [this]
    refine Asymptotics.IsBigO.hasFDerivAt (n := 2) ?_ (by norm_num)
    refine Asymptotics.IsBigO.of_bound ((|m.epsBar| * (1 + |m.delta|)) ^ 2) ?_
    refine Filter.Eventually.of_forall fun h => ?_
    have he : |epsFn m (Complex.arg (toC h))| ≤ |m.epsBar| * (1 + |m.delta|) := by
      rw [epsFn, abs_mul]
      refine mul_le_mul_of_nonneg_left ?_ (abs_nonneg _)
      refine (abs_add_le _ _).trans ?_
      rw [abs_one, abs_mul]
      have := mul_le_mul_of_nonneg_left
        (Real.abs_cos_le_one (m.J * (Complex.arg (toC h) - Real.pi / 2))) (abs_nonneg m.delta)
      linarith
    have h0 : |h 0| ≤ ‖h‖ := norm_le_pi_norm h 0
    have h1 : |h 1| ≤ ‖h‖ := norm_le_pi_norm h 1
    have e0 : h 0 ^ 2 ≤ ‖h‖ ^ 2 := by rw [← sq_abs (h 0)]; exact pow_le_pow_left₀ (abs_nonneg _) h0 2
    have e1 : h 1 ^ 2 ≤ ‖h‖ ^ 2 := by rw [← sq_abs (h 1)]; exact pow_le_pow_left₀ (abs_nonneg _) h1 2
    have e2 : epsFn m (Complex.arg (toC h)) ^ 2 ≤ (|m.epsBar| * (1 + |m.delta|)) ^ 2 := by
      rw [← sq_abs (epsFn m _)]; exact pow_le_pow_left₀ (abs_nonneg _) he 2
    rw [hE, sub_zero, Real.norm_of_nonneg (by positivity), Real.norm_of_nonneg (by positivity)]
    nlinarith [sq_nonneg (epsFn m (Complex.arg (toC h))), sq_nonneg ‖h‖, sq_nonneg (h 0), sq_nonneg (h 1)]
  · have hz := toC_ne g hg
    have hpos : g 0 ^ 2 + g 1 ^ 2 ≠ 0 := by
      have := Complex.normSq_pos.2 hz
      rw [toC_apply, Complex.normSq_mk] at this
      nlinarith
    have hrel : relAngle g g = 0 := by
      rw [relAngle, Complex.mul_conj, Complex.log_im, Complex.arg_ofReal_of_nonneg (Complex.normSq_nonneg _)]
    have hev : (fun h => 1 / 2 * epsFn m (relAngle g h + Complex.arg (toC g)) ^ 2 * (h 0 ^ 2 + h 1 ^ 2))
        =ᶠ[nhds g] anisoEnergy m := by
      filter_upwards [isOpen_ne.mem_nhds hg] with h hh
      rw [hE, epsFn_rel m k hJ g h hg hh]
    refine HasFDerivAt.congr_of_eventuallyEq ?_ hev.symm
    have h1 := (relAngle_hasFDerivAt g hg).add_const (Complex.arg (toC g))
    have hθ := epsFn_hasDerivAt m (relAngle g g + Complex.arg (toC g))
    have h2 := hθ.comp_hasFDerivAt g h1
    have p0 : HasFDerivAt (fun h : Fin 2 → ℝ => h 0)
      (ContinuousLinearMap.proj (R := ℝ) (φ := fun _ : Fin 2 => ℝ) 0) g := hasFDerivAt_apply 0 g
    have p1 : HasFDerivAt (fun h : Fin 2 → ℝ => h 1)
      (ContinuousLinearMap.proj (R := ℝ) (φ := fun _ : Fin 2 => ℝ) 1) g := hasFDerivAt_apply 1 g
    have h3 := ((h2.pow 2).const_mul (1 / 2)).mul ((p0.pow 2).add (p1.pow 2))
    refine h3.congr_fderiv ?_
    have hθ0 : safeArctan2 (g 1) (g 0) = Complex.arg (toC g) := by
      rw [safeArctan2, if_neg, toC_apply]
      rintro ⟨a, b⟩
      exact hpos (by rw [a, b]; norm_num)
    have hd : deriv (epsFn m) (Complex.arg (toC g))
        = m.epsBar * (m.delta * (-Real.sin (m.J * (Complex.arg (toC g) - Real.pi / 2)) * m.J)) :=
      (epsFn_hasDerivAt m _).deriv
    ext1 w
    simp only [flux, hθ0, hd, hrel, zero_add, Fin.sum_univ_two, add_apply, smul_apply, smul_eq_mul,
      ContinuousLinearMap.proj_apply, Function.comp_apply, Pi.add_apply, Pi.pow_apply]
    simp
    field_simp
    ring

/-- **C80 (reaction).** The reaction term is the derivative of the tilted double well, the noise term that of
its potential. -/
theorem C80_reaction_derivative (T chi p : ℝ) :
    HasDerivAt (fun p => wellEnergy m T p + noiseEnergy m chi p) (reaction m p T + noiseTerm m p chi) p := by
  set μ := m.alpha / Real.pi * Real.arctan (m.gamma * (m.Teq - T)) with hμ
  have h : ∀ n : Nat, HasDerivAt (fun p : ℝ => p ^ n) (n * p ^ (n - 1)) p := fun n => hasDerivAt_pow n p
  have h1 := ((((h 4).div_const 4).sub ((h 3).const_mul (1 / 2 - μ / 3))).add
    ((h 2).const_mul (1 / 4 - μ / 2))).add
    ((((h 2).div_const 2).sub ((h 3).div_const 3)).const_mul (- m.a * chi))
  refine (h1.congr_deriv ?_)
  rw [reaction, noiseTerm, ← hμ]
  norm_num
  ring

theorem gradAt_add_smul {dim : Nat} (v : CVar dim) (u w : Nat → Nat → ℝ) (s : ℝ) (e q c : Nat) :
    v.gradAt (fun n c => u n c + s * w n c) e q c = fun j => v.gradAt u e q c j + s * v.gradAt w e q c j := by
  funext j
  simp only [CVar.gradAt, Matrix.vecMul, dotProduct, add_mul, Finset.sum_add_distrib, Finset.mul_sum,
    mul_assoc]

theorem valueAt_add_smul {dim : Nat} (v : CVar dim) (u w : Nat → Nat → ℝ) (s : ℝ) (e q c : Nat) :
    v.valueAt (fun n c => u n c + s * w n c) e q c = v.valueAt u e q c + s * v.valueAt w e q c := by
  simp only [CVar.valueAt, mul_add, Finset.sum_add_distrib, Finset.mul_sum]
  congr 1
  exact Finset.sum_congr rfl fun a _ => by ring

/-- **C80 (free energy).** The phase equation of the explicit script is the variation of the free energy: the
residual tested with `(w, 0)` is the derivative of the energy of `p + s w` at `s = 0`. -/
theorem C80_phase_variation (k : ℤ) (hJ : m.J = k) (vp vT : CVar 2) (hw : WFVars [vp, vT])
    (hp1 : vp.vec = 1) (hT1 : vT.vec = 1) (noise : List ℝ) (sols : List (List (List ℝ)))
    (hs : HasShapes (solShapes ([vp, vT].map CVar.fe)) sols) :
    ∃ R, coupledResidual [vp, vT] (forceKernel m vp vT)
        ((List.range vp.cells.length).map fun e => fun _ => noise.getD e 0) sols = .ok R ∧
      ∀ w : Nat → Nat → ℝ, HasDerivAt (fun s => phaseEnergy m vp vT noise
          (fun n c => fieldAt sols 0 n c + s * w n c) (fieldAt sols 1))
        (tested [vp, vT] R fun i n c => if i = 0 then w n c else 0) 0 := by
  obtain ⟨R, r1, -, r3⟩ := force_weak_form m vp vT hw hp1 hT1 noise sols hs
  refine ⟨R, r1, fun w => ?_⟩
  have h0 : vT.integral (fun e q => (∑ j, (vT.gradAt (fieldAt sols 1) e q 0 j
        + m.K / m.tau * flux m (vp.gradAt (fieldAt sols 0) e q 0) (vp.gradAt (fieldAt sols 0) e q 0) j)
        * vT.gradAt (fun _ _ => 0) e q 0 j)
      + (m.K / m.tau
        * reaction m (vp.valueAt (fieldAt sols 0) e q 0) (vT.valueAt (fieldAt sols 1) e q 0))
        * vT.valueAt (fun _ _ => 0) e q 0) = 0 := by
    refine Finset.sum_eq_zero fun e _ => Finset.sum_eq_zero fun q hq => ?_
    have g0 : ∀ j, vT.gradAt (fun _ _ => 0) e q 0 j = 0 := by
      intro j
      simp [CVar.gradAt, Matrix.vecMul, dotProduct]
    have v0 : vT.valueAt (fun _ _ => 0) e q 0 = 0 := by simp [CVar.valueAt]
    simp only [g0, v0, mul_zero, Finset.sum_const_zero, add_zero, zero_mul]
  have ht : tested [vp, vT] R (fun i n c => if i = 0 then w n c else 0) = vp.integral (fun e q =>
      (∑ j, flux m (vp.gradAt (fieldAt sols 0) e q 0) (vp.gradAt (fieldAt sols 0) e q 0) j
        * vp.gradAt w e q 0 j)
      + (reaction m (vp.valueAt (fieldAt sols 0) e q 0) (vT.valueAt (fieldAt sols 1) e q 0)
        + noiseTerm m (vp.valueAt (fieldAt sols 0) e q 0) (noise.getD e 0)) * vp.valueAt w e q 0) :=
    (r3 _).trans ((congrArg (_ + ·) h0).trans (add_zero _))
  rw [ht]
  simp only [phaseEnergy, CVar.integral]
  refine HasDerivAt.fun_sum fun e _ => HasDerivAt.fun_sum fun q _ => HasDerivAt.mul_const ?_ _
  simp only [gradAt_add_smul, valueAt_add_smul]
  have l1 : HasDerivAt (fun s : ℝ => fun j => vp.gradAt (fieldAt sols 0) e q 0 j + s * vp.gradAt w e q 0 j)
      (vp.gradAt w e q 0) 0 := by
    refine hasDerivAt_pi.2 fun j => ?_
    simpa using ((hasDerivAt_id (0 : ℝ)).mul_const (vp.gradAt w e q 0 j)).const_add
      (vp.gradAt (fieldAt sols 0) e q 0 j)
  have l2 : HasDerivAt (fun s : ℝ => vp.valueAt (fieldAt sols 0) e q 0 + s * vp.valueAt w e q 0)
      (vp.valueAt w e q 0) 0 := by
    simpa using ((hasDerivAt_id (0 : ℝ)).mul_const (vp.valueAt w e q 0)).const_add
      (vp.valueAt (fieldAt sols 0) e q 0)
  have hz : (fun j => vp.gradAt (fieldAt sols 0) e q 0 j + 0 * vp.gradAt w e q 0 j)
      = vp.gradAt (fieldAt sols 0) e q 0 := by
    funext j
    rw [zero_mul, add_zero]
  have a1 := C80_flux_gradient m k hJ (vp.gradAt (fieldAt sols 0) e q 0)
  rw [← hz] at a1
  have b1 := HasFDerivAt.comp_hasDerivAt (0 : ℝ) a1 l1
  have a2 := C80_reaction_derivative m (vT.valueAt (fieldAt sols 1) e q 0) (noise.getD e 0)
    (vp.valueAt (fieldAt sols 0) e q 0 + 0 * vp.valueAt w e q 0)
  have b2 := HasDerivAt.comp (0 : ℝ) a2 l2
  have b := b1.add b2
  refine (b.congr_deriv ?_).congr_of_eventuallyEq (Filter.Eventually.of_forall fun s => ?_)
  · rw [hz]
    simp only [zero_mul, add_zero, sum_apply, smul_apply, ContinuousLinearMap.proj_apply, smul_eq_mul]
  · simp only [Pi.add_apply, Function.comp_apply]
    ring

/-- **C80 (consistency).** At the old state the semi-implicit residual tested with `(w, 0)` is the same
variation. -/
theorem C80_implicit_variation (k : ℤ) (hJ : m.J = k) (vp vT : CVar 2) (hw : WFVars [vp, vT])
    (hp1 : vp.vec = 1) (hT1 : vT.vec = 1) (noise : List ℝ) (p T : List (List ℝ))
    (hs : HasShapes (solShapes ([vp, vT].map CVar.fe)) [p, T]) :
    ∃ R, implicitResidual m vp vT p T noise [p, T] = .ok R ∧
      ∀ w : Nat → Nat → ℝ, HasDerivAt (fun s => phaseEnergy m vp vT noise
          (fun n c => fieldAt [p] 0 n c + s * w n c) (fieldAt [T] 0))
        (tested [vp, vT] R fun i n c => if i = 0 then w n c else 0) 0 := by
  obtain ⟨R, r1, -, r3⟩ := implicit_weak_form m vp vT hw hp1 hT1 p T noise [p, T] hs
  obtain ⟨R', r1', r2'⟩ := C80_phase_variation m k hJ vp vT hw hp1 hT1 noise [p, T] hs
  refine ⟨R, r1, fun w => ?_⟩
  have h := r2' w
  obtain ⟨R'', r1'', -, r3''⟩ := force_weak_form m vp vT hw hp1 hT1 noise [p, T] hs
  obtain rfl : R' = R'' := by rw [r1'] at r1''; exact Except.ok.inj r1''
  refine h.congr_deriv ?_
  rw [r3, r3'']
  have z : ∀ f : Nat → Nat → Fin 2 → ℝ, ∀ s : Nat → Nat → ℝ, vT.integral (fun e q =>
      (∑ j, f e q j * vT.gradAt (fun _ _ => 0) e q 0 j) + s e q * vT.valueAt (fun _ _ => 0) e q 0) = 0 := by
    intro f s
    refine Finset.sum_eq_zero fun e _ => Finset.sum_eq_zero fun q hq => ?_
    have g0 : ∀ j, vT.gradAt (fun _ _ => 0) e q 0 j = 0 := by
      intro j
      simp [CVar.gradAt, Matrix.vecMul, dotProduct]
    have v0 : vT.valueAt (fun _ _ => 0) e q 0 = 0 := by simp [CVar.valueAt]
    simp only [g0, v0, mul_zero, Finset.sum_const_zero, add_zero, zero_mul]
  refine congrArg₂ (· + ·) ?_ ((z _ _).trans (z _ _).symm)
  refine vp.integral_congr fun e _ q _ => ?_
  have hp : fieldAt [p, T] 0 = fieldAt [p] 0 := rfl
  have hT : fieldAt [p, T] 1 = fieldAt [T] 0 := rfl
  rw [hp, hT, sub_self, mul_zero, zero_div, add_zero]

/-! Non-vacuity: `J = 6` as in the script; at `g = (-1, 0)`, where the angle jumps, the flux is
`-ε(π)²` in the first direction. -/

example : flux ⟨1, 1 / 2, 6, 0, 0, 0, 0, 0, 1, 1⟩ ![-1, 0] ![-1, 0] 0 = - (1 / 2) ^ 2 := by
  have hθ : safeArctan2 0 (-1) = Real.pi := by
    rw [safeArctan2, if_neg (by norm_num)]
    have : (⟨-1, 0⟩ : ℂ) = ((-1 : ℝ) : ℂ) := by apply Complex.ext <;> simp
    rw [this, Complex.arg_ofReal_of_neg (by norm_num)]
  have hc : Real.cos (6 * (Real.pi - Real.pi / 2)) = -1 := by
    rw [show 6 * (Real.pi - Real.pi / 2) = Real.pi + (1 : ℤ) * (2 * Real.pi) by push_cast; ring,
      Real.cos_add_int_mul_two_pi, Real.cos_pi]
  simp only [flux, Matrix.cons_val_one, Matrix.cons_val_zero, hθ, epsFn, hc]
  norm_num

end Dendrite

end JaxFem
