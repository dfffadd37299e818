import Verif.Thm.C89_Deriv

/-!
C89: the increment of the local iteration decreases the residual, and solves equations that are affine.
-/

namespace JaxFem.Crystal

open scoped BigOperators Topology
open Filter

variable {ns : Nat}

theorem frob_sq (A : M3) : frob A ^ 2 = ∑ i, ∑ j, A i j ^ 2 :=
  Real.sq_sqrt (Finset.sum_nonneg fun _ _ => Finset.sum_nonneg fun _ _ => sq_nonneg _)

theorem frob_zero : frob (0 : M3) = 0 := by simp [frob]

theorem frob_pos {A : M3} (h : A ≠ 0) : 0 < frob A := by
  by_contra hn
  refine h (funext fun i => funext fun j => ?_)
  have := entry_le_frob A i j
  exact abs_nonpos_iff.1 (this.trans (not_lt.1 hn))

/-- **C89 (increment).** Wherever the derivative of the residual is invertible, the increment is a direction of descent: unless the
residual is zero, all sufficiently small steps along it decrease the norm of the residual. -/
theorem C89_descent (solve : (M3 →L[ℝ] M3) → M3 → M3) (hsolve : SolvesExactly solve) (res : M3 → M3) (y : M3)
    (hd : DifferentiableAt ℝ res y) (hinv : (fderiv ℝ res y).IsInvertible) (hne : res y ≠ 0) :
    ∀ᶠ a : ℝ in 𝓝[>] 0, frob (res ((ops solve res).axpy y a ((ops solve res).inc y (res y)))) < frob (res y) := by
  set d := (ops solve res).inc y (res y) with hdef
  have hstep : fderiv ℝ res y d = -res y := hsolve _ hinv _
  have hline : HasDerivAt (fun a : ℝ => y + a • d) d 0 := by
    simpa using ((hasDerivAt_id (0 : ℝ)).smul_const d).const_add y
  have h0 : y + (0 : ℝ) • d = y := by rw [zero_smul, add_zero]
  have hr : HasDerivAt (fun a : ℝ => res (y + a • d)) (-res y) 0 := by
    rw [← hstep]
    have h1 : HasFDerivAt res (fderiv ℝ res y) (y + (0 : ℝ) • d) := by rw [h0]; exact hd.hasFDerivAt
    exact h1.comp_hasDerivAt (0 : ℝ) hline
  have hentry : ∀ i j, HasDerivAt (fun a : ℝ => res (y + a • d) i j) (-res y i j) 0 := fun i j =>
    hasDerivAt_pi.1 (hasDerivAt_pi.1 hr i) j
  have hphi : HasDerivAt (fun a : ℝ => ∑ i, ∑ j, res (y + a • d) i j ^ 2)
      (∑ i, ∑ j, (2 : ℕ) * res (y + (0 : ℝ) • d) i j ^ (2 - 1) * (-res y i j)) 0 :=
    HasDerivAt.fun_sum fun i _ => HasDerivAt.fun_sum fun j _ => (hentry i j).fun_pow 2
  have hneg : (∑ i, ∑ j, (2 : ℕ) * res (y + (0 : ℝ) • d) i j ^ (2 - 1) * (-res y i j)) = -2 * frob (res y) ^ 2 := by
    rw [frob_sq, h0, Finset.mul_sum]
    refine Finset.sum_congr rfl fun i _ => ?_
    rw [Finset.mul_sum]
    refine Finset.sum_congr rfl fun j _ => ?_
    push_cast
    ring
  rw [hneg] at hphi
  have hlt : -2 * frob (res y) ^ 2 < 0 := by
    have := pow_pos (frob_pos hne) 2
    linarith
  have hsl := (hasDerivAt_iff_tendsto_slope.1 hphi).eventually (gt_mem_nhds hlt)
  have hsl' : ∀ᶠ a : ℝ in 𝓝[>] 0, slope (fun a : ℝ => ∑ i, ∑ j, res (y + a • d) i j ^ 2) 0 a < 0 :=
    hsl.filter_mono (nhdsWithin_mono _ fun a (ha : 0 < a) => ha.ne')
  filter_upwards [hsl', self_mem_nhdsWithin] with a ha (hpos : 0 < a)
  rw [slope_def_field, sub_zero, div_neg_iff] at ha
  have ha' := (ha.resolve_left fun h => absurd h.2 (not_lt.2 hpos.le)).1
  rw [sub_neg, h0] at ha'
  exact Real.sqrt_lt_sqrt (Finset.sum_nonneg fun _ _ => Finset.sum_nonneg fun _ _ => sq_nonneg _) ha'

/-- **C89 (affine equations).** For an affine residual with an invertible linear part the iteration ends after at most one pass: at the
start, if the residual is already small, or at the solution. -/
theorem C89_affine (solve : (M3 →L[ℝ] M3) → M3 → M3) (hsolve : SolvesExactly solve) (L : M3 →L[ℝ] M3) (b y0 : M3)
    (hL : L.IsInvertible) (fuel : Nat) :
    (frob (L y0 + b) ≤ 1 / 10 ^ 8 → newtonSolver (ops solve fun y => L y + b) y0 (fuel + 1) = some (0, L y0 + b, y0)) ∧
    (1 / 10 ^ 8 < frob (L y0 + b) →
      ∃ y, newtonSolver (ops solve fun y => L y + b) y0 (fuel + 2) = some (1, 0, y) ∧ L y + b = 0) := by
  set o := ops solve fun y => L y + b with ho
  have hgt : ∀ v : M3, (o.norm v).gt (.fin (1 / 10 ^ 8)) = decide (1 / 10 ^ 8 < frob v) := fun v => rfl
  constructor
  · intro h
    rw [newtonSolver, newtonLoop, if_neg (by rw [hgt, decide_eq_true_eq]; exact not_lt.2 h)]
    rfl
  · intro h
    have hg : (o.norm (o.res y0)).gt (.fin (1 / 10 ^ 8)) = true := by rw [hgt, decide_eq_true_eq]; exact h
    have hder : fderiv ℝ (fun y => L y + b) y0 = L := (L.hasFDerivAt.add_const b).fderiv
    have hzero : o.res (o.axpy y0 1 (o.inc y0 (o.res y0))) = 0 := by
      show L (y0 + (1 : ℝ) • solve (fderiv ℝ (fun y => L y + b) y0) (-(L y0 + b))) + b = 0
      rw [hder, one_smul, map_add, hsolve L hL]
      abel
    have hn0 : o.norm (0 : M3) = .fin 0 := by
      show Flt.fin (frob 0) = _
      rw [frob_zero]
    obtain ⟨y', hb, i, hi, hy', hmin, hlast⟩ := body_spec o (.fin (1 / 10 ^ 8)) 0 y0 hg
    have hpos : 0 < frob (L y0 + b) := lt_trans (by norm_num) h
    have hi0 : i = 0 := by
      by_contra hne
      refine hmin 0 (Nat.pos_of_ne_zero hne) (Or.inl ?_)
      show Flt.lt (o.norm (o.res (o.axpy y0 (1 / 2 ^ 0) _))) (o.norm (o.res y0)) = true
      rw [pow_zero, div_one, hzero, hn0]
      show decide (0 < frob (L y0 + b)) = true
      simpa using hpos
    subst hi0
    have hy : o.res y' = 0 := by
      rw [hy', pow_zero, div_one]
      exact hzero
    refine ⟨y', ?_, hy⟩
    rw [newtonSolver, newtonLoop, if_pos hg, hb, newtonLoop, if_neg]
    · rw [hy]
    · show ¬ (o.norm (o.res y')).gt _ = true
      rw [hy, hgt, frob_zero]
      norm_num

/-- **C89 (elastic step).** Without plastic flow (zero time increment or zero reference rate) the iteration ends for every deformation,
and the stress differs from the elastic stress of the trial state by at most `1e-8`; if the elastic stress is above this, it is
returned exactly. -/
theorem C89_trial (solve : (M3 →L[ℝ] M3) → M3 → M3) (hsolve : SolvesExactly solve) (m : Material ns) (dt : ℝ)
    (hdt : m.ao * dt = 0) (iv : Internal ns) (G : M3) (fuel : Nat) :
    ∃ S, stressS solve (fuel + 2) m dt iv G = some S ∧
      ∀ T : M3, (∀ i j, T i j = ∑ k, ∑ l, rotate4 iv.rot m.C i j k l * (1 / 2) *
          ((defGrad G * Matrix.of iv.FpInv).transpose * (defGrad G * Matrix.of iv.FpInv) - 1) k l) →
        (frob T ≤ 1 / 10 ^ 8 → S = 0) ∧ (1 / 10 ^ 8 < frob T → S = T) := by
  set T : M3 := fun i j => ∑ k, ∑ l, rotate4 iv.rot m.C i j k l * (1 / 2) *
          ((defGrad G * Matrix.of iv.FpInv).transpose * (defGrad G * Matrix.of iv.FpInv) - 1) k l with hT
  have hp : ∀ S, plasticInc m dt iv S = 0 := by
    intro S
    funext i j
    simp [plasticInc, gammaInc, hdt]
  have hres : implicitResidual m dt iv G = fun S => ContinuousLinearMap.id ℝ M3 S + -T := by
    funext S
    funext i j
    have hF : elasticF m dt iv G S = defGrad G * Matrix.of iv.FpInv := by
      rw [elasticF, fpInvNew, hp]
      congr 1
      rw [show (Matrix.of (0 : M3)) = (0 : Matrix (Fin 3) (Fin 3) ℝ) from rfl, sub_zero, Matrix.mul_one]
    show S i j - ∑ k, ∑ l, _ = S i j + -T i j
    rw [hF, sub_eq_add_neg]
  have hneg : frob (ContinuousLinearMap.id ℝ M3 (0 : M3) + -T) = frob T := by
    simp [frob]
  obtain ⟨h1, h2⟩ := C89_affine solve hsolve (ContinuousLinearMap.id ℝ M3) (-T) 0
    ⟨ContinuousLinearEquiv.refl ℝ M3, rfl⟩ (fuel + 1)
  obtain ⟨-, h3⟩ := C89_affine solve hsolve (ContinuousLinearMap.id ℝ M3) (-T) 0
    ⟨ContinuousLinearEquiv.refl ℝ M3, rfl⟩ fuel
  rw [hneg] at h1 h3
  have huniq : ∀ T' : M3, (∀ i j, T' i j = ∑ k, ∑ l, rotate4 iv.rot m.C i j k l * (1 / 2) *
          ((defGrad G * Matrix.of iv.FpInv).transpose * (defGrad G * Matrix.of iv.FpInv) - 1) k l) → T' = T :=
    fun T' h => funext fun i => funext fun j => h i j
  by_cases hs : frob T ≤ 1 / 10 ^ 8
  · refine ⟨0, ?_, fun T' h => ?_⟩
    · rw [stressS, hres, h1 hs]
      rfl
    · rw [huniq T' h]
      exact ⟨fun _ => rfl, fun h' => absurd hs (not_le.2 h')⟩
  · obtain ⟨y, hy, hy0⟩ := h3 (not_le.1 hs)
    refine ⟨y, ?_, fun T' h => ?_⟩
    · rw [stressS, hres, hy]
      rfl
    · rw [huniq T' h]
      refine ⟨fun h' => absurd h' hs, fun _ => ?_⟩
      have : y + -T = 0 := hy0
      exact sub_eq_zero.1 (by rw [sub_eq_add_neg]; exact this)

open Classical in
/-- An exact solver, as the theorems assume. -/
noncomputable def exExact (A : M3 →L[ℝ] M3) (b : M3) : M3 := if h : A.IsInvertible then h.choose.symm b else 0

theorem exExact_solves : SolvesExactly exExact := by
  intro A hA b
  rw [exExact, dif_pos hA]
  have h := congrArg (fun B : M3 →L[ℝ] M3 => B (hA.choose.symm b)) hA.choose_spec
  exact h.symm.trans (hA.choose.apply_symm_apply b)

/-- One pass solves `2 y = 2` from the start `0`. -/
example : ∃ y, newtonSolver (ops exExact fun y => (2 : ℝ) • ContinuousLinearMap.id ℝ M3 y + fun _ _ => -2) 0 2 = some (1, 0, y)
    ∧ (2 : ℝ) • y + (fun _ _ => -2 : M3) = 0 := by
  have hinv : ((2 : ℝ) • ContinuousLinearMap.id ℝ M3).IsInvertible :=
    ⟨ContinuousLinearEquiv.smulLeft (Units.mk0 (2 : ℝ) two_ne_zero), by ext; rfl⟩
  have hlt : 1 / 10 ^ 8 < frob (((2 : ℝ) • ContinuousLinearMap.id ℝ M3) 0 + fun _ _ => -2 : M3) := by
    have := entry_le_frob (((2 : ℝ) • ContinuousLinearMap.id ℝ M3) 0 + fun _ _ => -2 : M3) 0 0
    refine lt_of_lt_of_le ?_ this
    norm_num
  exact (C89_affine exExact exExact_solves _ _ 0 hinv 0).2 hlt

/-- A zero time increment and an exact solver: the hypotheses of `C89_trial` are met by every material and deformation. -/
example (m : Material ns) (iv : Internal ns) (G : M3) : ∃ S, stressS exExact 2 m 0 iv G = some S :=
  let ⟨S, h, _⟩ := C89_trial exExact exExact_solves m 0 (mul_zero _) iv G 0
  ⟨S, h⟩

end JaxFem.Crystal
