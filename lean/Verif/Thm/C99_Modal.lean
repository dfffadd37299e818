import Verif.Thm.C99_Matrices
import Verif.Thm.C99_Spectrum
import Verif.Thm.C92_Simp
import Mathlib.Analysis.SpecialFunctions.Log.Deriv
import Mathlib.Analysis.SpecialFunctions.ExpDeriv

/-!
# C99: eigenfrequency constraint of topology optimisation
-/

namespace JaxFem.Modal

open scoped BigOperators Topology

/-! ### Helper lemmas -/

section softmin

theorem softmin_le (alpha : ℝ) (ha : 0 < alpha) {m : Nat} (l : Fin m → ℝ) (i : Fin m) :
    -1 / alpha * Real.log (∑ i, Real.exp (-alpha * l i)) ≤ l i := by
  have h1 : Real.exp (-alpha * l i) ≤ ∑ i, Real.exp (-alpha * l i) :=
    Finset.single_le_sum (f := fun i => Real.exp (-alpha * l i)) (fun j _ => (Real.exp_pos _).le) (Finset.mem_univ i)
  have h2 := Real.log_le_log (Real.exp_pos _) h1
  rw [Real.log_exp] at h2
  rw [div_mul_eq_mul_div, div_le_iff₀ ha]
  linarith

theorem le_softmin (alpha : ℝ) (ha : 0 < alpha) {m : Nat} (hm : 0 < m) (l : Fin m → ℝ) (L : ℝ) (hl : ∀ i, L ≤ l i) :
    L - Real.log m / alpha ≤ -1 / alpha * Real.log (∑ i, Real.exp (-alpha * l i)) := by
  have hpos : 0 < ∑ i, Real.exp (-alpha * l i) :=
    Finset.sum_pos (fun i _ => Real.exp_pos _) ⟨⟨0, hm⟩, Finset.mem_univ _⟩
  have h1 : ∑ i, Real.exp (-alpha * l i) ≤ m * Real.exp (-alpha * L) := by
    refine (Finset.sum_le_card_nsmul _ _ (Real.exp (-alpha * L)) fun i _ => ?_).trans ?_
    · refine Real.exp_le_exp.2 ?_
      have := mul_le_mul_of_nonneg_left (hl i) ha.le
      linarith
    · simp
  have hm' : (0 : ℝ) < m := Nat.cast_pos.2 hm
  have h2 := Real.log_le_log hpos h1
  rw [Real.log_mul hm'.ne' (Real.exp_pos _).ne', Real.log_exp] at h2
  have e : L - Real.log m / alpha = (L * alpha - Real.log m) / alpha := by field_simp
  rw [e, div_mul_eq_mul_div, div_le_div_iff_of_pos_right ha]
  linarith

theorem cstr_differentiable (alpha minFreq : ℝ) {m : Nat} (hm : 0 < m) (l : Fin m → ℝ) :
    DifferentiableAt ℝ (minEigenValsCstr alpha minFreq) l := by
  have hpos : ∑ i, Real.exp (-alpha * l i) ≠ 0 :=
    (Finset.sum_pos (fun i _ => Real.exp_pos _) ⟨⟨0, hm⟩, Finset.mem_univ _⟩ : (0 : ℝ) < _).ne'
  have h1 : DifferentiableAt ℝ (fun l : Fin m → ℝ => ∑ i, Real.exp (-alpha * l i)) l := by fun_prop
  have h2 := h1.log hpos
  show DifferentiableAt ℝ (fun l : Fin m → ℝ => 1 - -1 / alpha * Real.log (∑ i, Real.exp (-alpha * l i)) / minFreq) l
  have h3 : DifferentiableAt ℝ (fun l : Fin m → ℝ => Real.log (∑ i, Real.exp (-alpha * l i))) l := h2
  fun_prop

theorem gradC2_chain {n : Nat} (alpha minFreq : ℝ) {m : Nat} (hm : 0 < m) (lam : Fin m → (Fin n → ℝ) → ℝ)
    (d : Fin m → (Fin n → ℝ) →L[ℝ] ℝ) (rho : Fin n → ℝ) (h : ∀ j, HasFDerivAt (lam j) (d j) rho) :
    HasFDerivAt (fun r => minEigenValsCstr alpha minFreq fun j => lam j r)
      (gradC2 alpha minFreq (fun j => lam j rho) d) rho := by
  have h1 : HasFDerivAt (fun r => fun j => lam j r) (ContinuousLinearMap.pi d) rho := hasFDerivAt_pi.2 h
  have h2 := (cstr_differentiable alpha minFreq hm fun j => lam j rho).hasFDerivAt
  have h3 := HasFDerivAt.comp (g := minEigenValsCstr alpha minFreq) (f := fun r => fun j => lam j r) rho h2 h1
  refine h3.congr_fderiv ?_
  refine ContinuousLinearMap.ext fun x => ?_
  simp only [ContinuousLinearMap.comp_apply, gradC2, _root_.sum_apply, _root_.smul_apply, smul_eq_mul]
  have e : ContinuousLinearMap.pi d x = ∑ j, d j x • (Pi.single j (1 : ℝ) : Fin m → ℝ) := by
    funext k
    simp [Finset.sum_apply, Pi.single_apply]
  rw [e, map_sum]
  refine Finset.sum_congr rfl fun j _ => ?_
  rw [map_smul, smul_eq_mul, mul_comm]

end softmin

variable {nq nfq nn : Nat} {B : Problem1 (List ℝ) nq nfq nn 2 2}

theorem analysis_ok {n N : Nat} (B : Problem1 (List ℝ) nq nfq nn 2 2) (rho : Fin n → ℝ) (nconv : Nat)
    (hn : 10 ≤ nconv) (pair : Nat → ℝ × (Fin N → ℝ)) :
    eigenAnalysis B rho nconv pair = .ok ([(pair 3).1, (pair 4).1, (pair 5).1],
      [dEigenVal (problemK B) (problemM B) rho (pair 3).1 (pair 3).2,
       dEigenVal (problemK B) (problemM B) rho (pair 4).1 (pair 4).2,
       dEigenVal (problemK B) (problemM B) rho (pair 5).1 (pair 5).2]) := by
  rw [eigenAnalysis]
  simp only []
  rw [if_neg (by omega), if_neg (by omega)]
  have : (List.range 10).filter (fun i => decide (i > 2 ∧ i < 6)) = [3, 4, 5] := by decide
  rw [this]
  rfl

theorem constraints_ok {n N : Nat} (B : Problem1 (List ℝ) nq nfq nn 2 2) (rho : Fin n → ℝ) (nconv : Nat)
    (hn : 10 ≤ nconv) (pair : Nat → ℝ × (Fin N → ℝ)) :
    computeConstraints B rho nconv pair = .ok
      [(TopOpt.volumeConstraint 0.5 rho, fderiv ℝ (TopOpt.volumeConstraint 0.5) rho),
       (minEigenValsCstr 10 1000000 (fun j : Fin 3 => (pair (3 + j)).1),
        gradC2 10 1000000 (fun j : Fin 3 => (pair (3 + j)).1)
          fun j => dEigenVal (problemK B) (problemM B) rho (pair (3 + j)).1 (pair (3 + j)).2)] := by
  rw [computeConstraints, analysis_ok B rho nconv hn pair]
  have e1 : (fun i : Fin [(pair 3).1, (pair 4).1, (pair 5).1].length => [(pair 3).1, (pair 4).1, (pair 5).1][i])
      = fun j : Fin 3 => (pair (3 + j)).1 := by
    funext j
    fin_cases j <;> rfl
  have e2 : (fun i : Fin 3 => [dEigenVal (problemK B) (problemM B) rho (pair 3).1 (pair 3).2,
       dEigenVal (problemK B) (problemM B) rho (pair 4).1 (pair 4).2,
       dEigenVal (problemK B) (problemM B) rho (pair 5).1 (pair 5).2].getD i 0)
      = fun j : Fin 3 => dEigenVal (problemK B) (problemM B) rho (pair (3 + j)).1 (pair (3 + j)).2 := by
    funext j
    fin_cases j <;> rfl
  show Except.ok [_, (minEigenValsCstr 10 1000000 (m := 3) _, gradC2 10 1000000 (m := 3) _ _)] = _
  rw [← e2, ← e1]
  rfl

theorem free_pencil (h : FreeBody B) (rho : Fin B.cells.length → ℝ) (hr : ∀ c, 0 < rho c) :
    FreePencil (stiffness B rho) (mass B rho) where
  symmK := formMatrix_symm _ _ (stiffForm_psd B h.positive)
  symmM := formMatrix_symm _ _ (massForm_psd B h.positive)
  psd := fun v => by
    rw [stiffness, formMatrix_dot _ _ (stiffForm_psd B h.positive)]
    exact Finset.sum_nonneg fun i _ => mul_nonneg (modulus_pos (hr i.1).le).le
      ((stiffForm_psd B h.positive i).nonneg v)
  def' := mass_definite h rho hr
  nullity := stiffness_nullity h rho fun c => (hr c).le

theorem stiffness_smooth (rho : Fin B.cells.length → ℝ) (k l : Fin (totalDofs B.fes)) :
    ContDiffAt ℝ 1 (fun r => stiffness B r k l) rho := by
  have e : (fun r => stiffness B r k l)
      = fun r => ∑ i : Fin B.cells.length × Fin nq, (70000000 + 69930000000 * r i.1 ^ 5)
        * stiffForm B i (Pi.single l 1) (Pi.single k 1) := rfl
  rw [e]
  refine ContDiffAt.sum fun i _ => ?_
  have h1 : ContDiff ℝ 1 (fun r : Fin B.cells.length → ℝ => r i.1) := contDiff_apply ℝ ℝ i.1
  exact ((contDiff_const.add (contDiff_const.mul (h1.pow 5))).mul contDiff_const).contDiffAt

theorem mass_smooth (rho : Fin B.cells.length → ℝ) (k l : Fin (totalDofs B.fes)) :
    ContDiffAt ℝ 1 (fun r => mass B r k l) rho := by
  have e : (fun r => mass B r k l)
      = fun r => ∑ i : Fin B.cells.length × Fin nq, 2700 * r i.1
        * massForm B i (Pi.single l 1) (Pi.single k 1) := rfl
  rw [e]
  refine ContDiffAt.sum fun i _ => ?_
  have h1 : ContDiff ℝ 1 (fun r : Fin B.cells.length → ℝ => r i.1) := contDiff_apply ℝ ℝ i.1
  exact ((contDiff_const.mul h1).mul contDiff_const).contDiffAt

theorem dEigenVal_eq (h : B.WF) (hpos : B.PositiveMeasure) (rho : Fin B.cells.length → ℝ) (lam : ℝ)
    (v : Fin (totalDofs B.fes) → ℝ) :
    dEigenVal (problemK B) (problemM B) rho lam v = (1 / dotProduct v ((mass B rho).mulVec v)) •
      (fderiv ℝ (fun r => dotProduct v ((stiffness B r).mulVec v)) rho
        - lam • fderiv ℝ (fun r => dotProduct v ((mass B r).mulVec v)) rho) := by
  have e1 : (fun r => vAv (problemK B) (column r) v) = fun r => dotProduct v ((stiffness B r).mulVec v) :=
    funext fun r => vKv_eq B h hpos r v
  have e2 : (fun r => vAv (problemM B) (column r) v) = fun r => dotProduct v ((mass B r).mulVec v) :=
    funext fun r => vMv_eq B h hpos r v
  rw [dEigenVal, e1, e2, vMv_eq B h hpos]

theorem dEigenVal_single (h : B.WF) (hpos : B.PositiveMeasure) (rho : Fin B.cells.length → ℝ) (lam : ℝ)
    (v : Fin (totalDofs B.fes) → ℝ) (c : Fin B.cells.length) :
    dEigenVal (problemK B) (problemM B) rho lam v (Pi.single c 1)
      = (5 * 69930000000 * rho c ^ 4 * ∑ q, B.energyAt (planeLaw 0.3) (B.vecField v) c q
        - lam * (2700 * ∑ q, squareAt B (B.vecField v) c q)) / dotProduct v ((mass B rho).mulVec v) := by
  rw [dEigenVal_eq h hpos]
  have hK : ∀ r, dotProduct v ((stiffness B r).mulVec v) = ∑ c, (70000000 + 69930000000 * r c ^ 5)
      * ∑ q, B.energyAt (planeLaw 0.3) (B.vecField v) c q := fun r => by
    rw [stiffness, formMatrix_dot _ _ (stiffForm_psd B hpos), Fintype.sum_prod_type]
    refine Finset.sum_congr rfl fun c _ => ?_
    rw [Finset.mul_sum]
    rfl
  have hM : ∀ r, dotProduct v ((mass B r).mulVec v) = ∑ c, 2700 * r c
      * ∑ q, squareAt B (B.vecField v) c q := fun r => by
    rw [mass, formMatrix_dot _ _ (massForm_psd B hpos), Fintype.sum_prod_type]
    refine Finset.sum_congr rfl fun c _ => ?_
    rw [Finset.mul_sum]
    refine Finset.sum_congr rfl fun q _ => ?_
    simp only [massForm, squareAt, valueAt, sq]
  have hproj : ∀ c : Fin B.cells.length, HasFDerivAt (fun r : Fin B.cells.length → ℝ => r c)
      (ContinuousLinearMap.proj c) rho := fun c => (ContinuousLinearMap.proj (R := ℝ) (φ := fun _ : Fin B.cells.length => ℝ) c).hasFDerivAt
  have dK : HasFDerivAt (fun r => dotProduct v ((stiffness B r).mulVec v))
      (∑ c, (∑ q, B.energyAt (planeLaw 0.3) (B.vecField v) c q) • (69930000000 : ℝ) • ((5 * rho c ^ 4) •
        (ContinuousLinearMap.proj c : (Fin B.cells.length → ℝ) →L[ℝ] ℝ))) rho := by
    rw [show (fun r => dotProduct v ((stiffness B r).mulVec v)) = _ from funext hK]
    refine HasFDerivAt.fun_sum fun c _ => ?_
    have := (((hproj c).pow 5).const_mul (69930000000 : ℝ)).const_add (70000000 : ℝ)
    refine (this.mul_const (∑ q, B.energyAt (planeLaw 0.3) (B.vecField v) c q)).congr_fderiv ?_
    norm_num
  have dM : HasFDerivAt (fun r => dotProduct v ((mass B r).mulVec v))
      (∑ c, (∑ q, squareAt B (B.vecField v) c q) • (2700 : ℝ) •
        (ContinuousLinearMap.proj c : (Fin B.cells.length → ℝ) →L[ℝ] ℝ)) rho := by
    rw [show (fun r => dotProduct v ((mass B r).mulVec v)) = _ from funext hM]
    exact HasFDerivAt.fun_sum fun c _ => ((hproj c).const_mul (2700 : ℝ)).mul_const _
  rw [dK.fderiv, dM.fderiv]
  simp only [_root_.smul_apply, _root_.sub_apply, _root_.sum_apply, ContinuousLinearMap.proj_apply, smul_eq_mul,
    Pi.single_apply, mul_ite, mul_one, mul_zero, Finset.sum_ite_eq, Finset.sum_ite_eq', Finset.mem_univ, if_true]
  ring

/-! ### Property theorems -/

/-- **C99 (sensitivity).** At a simple eigenvalue the eigenvalue and its vector continue to a unique differentiable
branch of eigenpairs under changes of the densities, and the sensitivity computed from the eigenvector alone is the
derivative of the eigenvalue: per cell the derivative of the energy minus the eigenvalue times that of the mass. -/
theorem C99_sensitivity (h : B.WF) (hpos : B.PositiveMeasure) (rho : Fin B.cells.length → ℝ)
    (K M : (Fin B.cells.length → ℝ) → Matrix (Fin (totalDofs B.fes)) (Fin (totalDofs B.fes)) ℝ)
    (hK : ∀ r, HasJacobianAt (residual (problemK B) (column r)) (K r) 0)
    (hM : ∀ r, HasJacobianAt (residual (problemM B) (column r)) (M r) 0) (lam0 : ℝ)
    (v0 : Fin (totalDofs B.fes) → ℝ) (hv : IsEigenpair (K rho) (M rho) lam0 v0) (hs : IsSimple (K rho) (M rho) lam0)
    (hn : dotProduct v0 ((M rho).mulVec v0) ≠ 0) :
    (∃ (lam : (Fin B.cells.length → ℝ) → ℝ) (v : (Fin B.cells.length → ℝ) → Fin (totalDofs B.fes) → ℝ),
      lam rho = lam0 ∧ v rho = v0 ∧ (∀ᶠ r in 𝓝 rho, IsEigenpair (K r) (M r) (lam r) (v r)) ∧
      (∀ᶠ p : (Fin B.cells.length → ℝ) × ((Fin (totalDofs B.fes) → ℝ) × ℝ) in 𝓝 (rho, (v0, lam0)),
        IsEigenpair (K p.1) (M p.1) p.2.2 p.2.1 →
        dotProduct v0 ((M rho).mulVec p.2.1) = dotProduct v0 ((M rho).mulVec v0) →
        p.2.2 = lam p.1 ∧ p.2.1 = v p.1) ∧
      DifferentiableAt ℝ v rho ∧ HasFDerivAt lam (dEigenVal (problemK B) (problemM B) rho lam0 v0) rho) ∧
    ∀ c, dEigenVal (problemK B) (problemM B) rho lam0 v0 (Pi.single c 1)
      = (5 * 69930000000 * rho c ^ 4 * ∑ q, B.energyAt (planeLaw 0.3) (B.vecField v0) c q
        - lam0 * (2700 * ∑ q, squareAt B (B.vecField v0) c q)) / dotProduct v0 ((M rho).mulVec v0) := by
  obtain rfl : K = stiffness B := funext fun r => (stiffness_jacobian B h hpos r).1 _ _ (hK r)
  obtain rfl : M = mass B := funext fun r => (mass_jacobian B h hpos r).1 _ _ (hM r)
  refine ⟨?_, dEigenVal_single h hpos rho lam0 v0⟩
  rw [dEigenVal_eq h hpos]
  exact simple_branch (stiffness B) (mass B) rho (stiffness_smooth rho) (mass_smooth rho)
    (fun r => formMatrix_symm _ _ (stiffForm_psd B hpos)) (fun r => formMatrix_symm _ _ (massForm_psd B hpos))
    lam0 v0 hv hs hn

/-- **C99 (kept modes).** With positive densities, no elastic eigenvalue below 20 and ten converged pairs, the three
pairs that are skipped are the rigid motions, and the three eigenvalues that are kept are the smallest elastic ones. -/
theorem C99_modes (h : FreeBody B) (rho : Fin B.cells.length → ℝ) (hr : ∀ c, 0 < rho c)
    (K M : Matrix (Fin (totalDofs B.fes)) (Fin (totalDofs B.fes)) ℝ)
    (hK : HasJacobianAt (residual (problemK B) (column rho)) K 0)
    (hM : HasJacobianAt (residual (problemM B) (column rho)) M 0) (nconv : Nat) (hnc : 10 ≤ nconv)
    (pair : Nat → ℝ × (Fin (totalDofs B.fes) → ℝ)) (hn : Nearest K M 10 nconv pair)
    (hgap : ∀ mu w, IsEigenpair K M mu w → mu ≠ 0 → 20 < mu) :
    (∃ grads, eigenAnalysis B rho nconv pair = .ok ([(pair 3).1, (pair 4).1, (pair 5).1], grads)) ∧
    (∀ i < 3, (pair i).1 = 0 ∧ ∃ b omega, ∀ n < B.numTotalNodes,
      B.vecField (pair i).2 n = rigidVec B.points b omega n) ∧
    20 < (pair 3).1 ∧ (pair 3).1 ≤ (pair 4).1 ∧ (pair 4).1 ≤ (pair 5).1 ∧
    (∀ mu w, IsEigenpair K M mu w → mu ≠ 0 → (pair 3).1 ≤ mu ∧
      (dotProduct w (M.mulVec (pair 3).2) = 0 → (pair 4).1 ≤ mu) ∧
      (dotProduct w (M.mulVec (pair 3).2) = 0 → dotProduct w (M.mulVec (pair 4).2) = 0 → (pair 5).1 ≤ mu)) := by
  obtain rfl := (stiffness_jacobian B h.wf h.positive rho).1 K 0 hK
  obtain rfl := (mass_jacobian B h.wf h.positive rho).1 M 0 hM
  obtain ⟨h0, h1, h2, h3, h4⟩ := nearest_modes (free_pencil h rho hr) hn (by omega) hgap
  refine ⟨⟨_, analysis_ok B rho nconv hnc pair⟩, fun i hi => ⟨h0 i hi, ?_⟩, h1 3 (by omega) le_rfl,
    h2 3 (by omega) 4 (by omega) le_rfl (by omega), h2 4 (by omega) 5 (by omega) (by omega) (by omega),
    fun mu w hw hne => ⟨h3 mu w hw hne, fun ho => ?_, fun ho ho' => ?_⟩⟩
  · refine (stiffness_kernel h rho (fun c => (hr c).le) _).1 ?_
    rw [(hn.eigen i (by omega)).2, h0 i hi, zero_smul]
  · refine h4 4 (by omega) (by omega) mu w hw hne fun j h3j hj => ?_
    obtain rfl : j = 3 := by omega
    exact ho
  · refine h4 5 (by omega) (by omega) mu w hw hne fun j h3j hj => ?_
    rcases (show j = 3 ∨ j = 4 by omega) with rfl | rfl
    · exact ho
    · exact ho'

/-- **C99 (soft minimum).** The eigenvalue constraint is on the safe side: if it holds, every eigenvalue is at least the
bound, and it holds if every eigenvalue exceeds the bound by the logarithm of their number over `alpha`. -/
theorem C99_softmin (alpha minFreq : ℝ) (ha : 0 < alpha) (hf : 0 < minFreq) {m : Nat} (hm : 0 < m) (l : Fin m → ℝ) :
    (minEigenValsCstr alpha minFreq l ≤ 0 → ∀ i, minFreq ≤ l i) ∧
    ((∀ i, minFreq + Real.log m / alpha ≤ l i) → minEigenValsCstr alpha minFreq l ≤ 0) := by
  have e : minEigenValsCstr alpha minFreq l ≤ 0 ↔
      minFreq ≤ -1 / alpha * Real.log (∑ i, Real.exp (-alpha * l i)) := by
    rw [minEigenValsCstr, sub_nonpos, le_div_iff₀ hf, one_mul]
  rw [e]
  refine ⟨fun h i => h.trans (softmin_le alpha ha l i), fun h => ?_⟩
  have := le_softmin alpha ha hm l _ h
  linarith

/-- **C99 (feasible designs).** Whatever the spectrum looks like, a design that meets the two constraints has at most
half of the volume and no elastic eigenvalue below `1e6`; and a design whose elastic eigenvalues exceed `1e6` by
`log 3 / 10` meets the second constraint. -/
theorem C99_feasible (h : FreeBody B) (rho : Fin B.cells.length → ℝ) (hr : ∀ c, 0 < rho c)
    (K M : Matrix (Fin (totalDofs B.fes)) (Fin (totalDofs B.fes)) ℝ)
    (hK : HasJacobianAt (residual (problemK B) (column rho)) K 0)
    (hM : HasJacobianAt (residual (problemM B) (column rho)) M 0) (nconv : Nat) (hnc : 10 ≤ nconv)
    (pair : Nat → ℝ × (Fin (totalDofs B.fes) → ℝ)) (hn : Nearest K M 10 nconv pair) :
    ∃ c1 c2 d1 d2, computeConstraints B rho nconv pair = .ok [(c1, d1), (c2, d2)] ∧
      (c1 ≤ 0 ↔ (∑ c, rho c) / B.cells.length ≤ 1 / 2) ∧
      (c2 ≤ 0 → ∀ mu w, IsEigenpair K M mu w → mu ≠ 0 → 1000000 ≤ mu) ∧
      ((∀ mu w, IsEigenpair K M mu w → mu ≠ 0 → 1000000 + Real.log 3 / 10 ≤ mu) → c2 ≤ 0) := by
  obtain rfl := (stiffness_jacobian B h.wf h.positive rho).1 K 0 hK
  obtain rfl := (mass_jacobian B h.wf h.positive rho).1 M 0 hM
  have hsoft := C99_softmin 10 1000000 (by norm_num) (by norm_num) (m := 3) (by norm_num)
    (fun j : Fin 3 => (pair (3 + j)).1)
  refine ⟨_, _, _, _, constraints_ok B rho nconv hnc pair, ?_, fun hc mu w hw hne => ?_, fun hall => ?_⟩
  · rw [TopOpt.volumeConstraint]
    constructor <;> intro hc
    · have : (∑ i, rho i) / (B.cells.length : ℝ) / 0.5 ≤ 1 := by linarith
      rw [div_le_iff₀ (by norm_num)] at this
      linarith
    · have : (∑ i, rho i) / (B.cells.length : ℝ) / 0.5 ≤ 1 := by
        rw [div_le_iff₀ (by norm_num)]
        linarith
      linarith
  · exact nearest_bound (free_pencil h rho hr) hn (by omega) 1000000 (by norm_num) (hsoft.1 hc 0) mu w hw hne
  · refine hsoft.2 fun j => ?_
    have hlog : 0 < Real.log 3 := Real.log_pos (by norm_num)
    have hgap : ∀ mu w, IsEigenpair (stiffness B rho) (mass B rho) mu w → mu ≠ 0 → 20 < mu := fun mu w hw hne => by
      have := hall mu w hw hne
      linarith
    obtain ⟨_, h1, _, _, _⟩ := nearest_modes (free_pencil h rho hr) hn (by omega) hgap
    have hj := h1 (3 + j) (by omega) (by omega)
    have := hall _ _ (hn.eigen (3 + j) (by omega)) (by linarith)
    exact_mod_cast this

/-- **C99 (gradients).** Where the kept eigenvalues are separated, the constraint values are differentiable functions
of the densities, and the returned gradients are their derivatives. -/
theorem C99_gradient (h : FreeBody B) (rho : Fin B.cells.length → ℝ) (hr : ∀ c, 0 < rho c)
    (K M : (Fin B.cells.length → ℝ) → Matrix (Fin (totalDofs B.fes)) (Fin (totalDofs B.fes)) ℝ)
    (hK : ∀ r, HasJacobianAt (residual (problemK B) (column r)) (K r) 0)
    (hM : ∀ r, HasJacobianAt (residual (problemM B) (column r)) (M r) 0)
    (nconv : (Fin B.cells.length → ℝ) → Nat)
    (pair : (Fin B.cells.length → ℝ) → Nat → ℝ × (Fin (totalDofs B.fes) → ℝ))
    (hn : ∀ r, (∀ c, 0 < r c) → 10 ≤ nconv r ∧ Nearest (K r) (M r) 10 (nconv r) (pair r))
    (hgap : ∀ mu w, IsEigenpair (K rho) (M rho) mu w → mu ≠ 0 → 20 < mu)
    (hsep : ∀ i, 3 ≤ i → i < 6 → (pair rho i).1 < (pair rho (i + 1)).1) :
    ∃ (c1 c2 : (Fin B.cells.length → ℝ) → ℝ) (d1 d2 : (Fin B.cells.length → ℝ) →L[ℝ] ℝ),
      computeConstraints B rho (nconv rho) (pair rho) = .ok [(c1 rho, d1), (c2 rho, d2)] ∧
      (∀ r, (∀ c, 0 < r c) → ∃ d1' d2',
        computeConstraints B r (nconv r) (pair r) = .ok [(c1 r, d1'), (c2 r, d2')]) ∧
      HasFDerivAt c1 d1 rho ∧ HasFDerivAt c2 d2 rho := by
  obtain rfl : K = stiffness B := funext fun r => (stiffness_jacobian B h.wf h.positive r).1 _ _ (hK r)
  obtain rfl : M = mass B := funext fun r => (mass_jacobian B h.wf h.positive r).1 _ _ (hM r)
  have hev : ∀ᶠ r in 𝓝 rho, ∀ c, 0 < r c := by
    refine Filter.eventually_all.2 fun c => ?_
    exact (continuous_apply c).continuousAt.eventually (lt_mem_nhds (hr c))
  obtain ⟨hnr, hnn⟩ := hn rho hr
  obtain ⟨lam, hl, hd, hb⟩ := kept_branches (stiffness B) (mass B) rho (stiffness_smooth rho) (mass_smooth rho)
    (fun r => formMatrix_symm _ _ (stiffForm_psd B h.positive))
    (fun r => formMatrix_symm _ _ (massForm_psd B h.positive)) (hev.mono fun r hr' => free_pencil h r hr')
    (hev.mono fun r hr' v hv => (stiffness_kernel h r (fun c => (hr' c).le) v).2
      ((stiffness_kernel h rho (fun c => (hr c).le) v).1 hv)) hnn (by omega) hgap
    (hsep 3 le_rfl (by omega)) (hsep 4 (by omega) (by omega)) (hsep 5 (by omega) (by omega))
  refine ⟨TopOpt.volumeConstraint 0.5, fun r => minEigenValsCstr 10 1000000 fun j : Fin 3 => (pair r (3 + j)).1, _, _,
    constraints_ok B rho _ hnr _, fun r hr' => ⟨_, _, constraints_ok B r _ (hn r hr').1 _⟩, ?_, ?_⟩
  · have hpos : 0 < B.cells.length := List.length_pos_of_ne_nil h.wf.nonempty
    have := (C92_volume hpos (0.5 : ℝ) (by norm_num) rho).1
    exact this.differentiableAt.hasFDerivAt
  · have hd' : ∀ j : Fin 3, HasFDerivAt (lam j)
        (dEigenVal (problemK B) (problemM B) rho (pair rho (3 + j)).1 (pair rho (3 + j)).2) rho := fun j => by
      rw [dEigenVal_eq h.wf h.positive]
      exact hd j
    have h1 := gradC2_chain 10 1000000 (by norm_num) lam _ rho hd'
    have e : (fun j => lam j rho) = fun j : Fin 3 => (pair rho (3 + j)).1 := funext hl
    rw [e] at h1
    refine h1.congr_of_eventuallyEq ?_
    filter_upwards [hb, hev] with r hbr hr'
    have hnr' := hn r hr'
    show minEigenValsCstr 10 1000000 _ = minEigenValsCstr 10 1000000 _
    congr 1
    funext j
    exact hbr _ _ hnr'.2 (by omega) j

/-- **C99 (uniform density).** Uniform densities have the same modes; the eigenvalues scale like Young's modulus over
the density. -/
theorem C99_uniform (h : B.WF) (hpos : B.PositiveMeasure) (s t : ℝ) (hs : 0 < s) (ht : 0 < t)
    (K M K' M' : Matrix (Fin (totalDofs B.fes)) (Fin (totalDofs B.fes)) ℝ)
    (hK : HasJacobianAt (residual (problemK B) (column fun _ : Fin B.cells.length => s)) K 0)
    (hM : HasJacobianAt (residual (problemM B) (column fun _ : Fin B.cells.length => s)) M 0)
    (hK' : HasJacobianAt (residual (problemK B) (column fun _ : Fin B.cells.length => t)) K' 0)
    (hM' : HasJacobianAt (residual (problemM B) (column fun _ : Fin B.cells.length => t)) M' 0)
    (lam : ℝ) (v : Fin (totalDofs B.fes) → ℝ) (hv : IsEigenpair K M lam v) :
    IsEigenpair K' M' (((70000000 + 69930000000 * t ^ 5) / t) / ((70000000 + 69930000000 * s ^ 5) / s) * lam) v := by
  obtain rfl := (stiffness_jacobian B h hpos _).1 K 0 hK
  obtain rfl := (mass_jacobian B h hpos _).1 M 0 hM
  obtain rfl := (stiffness_jacobian B h hpos _).1 K' 0 hK'
  obtain rfl := (mass_jacobian B h hpos _).1 M' 0 hM'
  have fK : ∀ t : ℝ, ∀ k, (stiffness B fun _ => t).mulVec v k
      = modulus t * ∑ i : Fin B.cells.length × Fin nq, stiffForm B i v (Pi.single k 1) := fun t k => by
    rw [stiffness, formMatrix_mulVec _ _ (stiffForm_psd B hpos), Finset.mul_sum]
  have fM : ∀ t : ℝ, ∀ k, (mass B fun _ => t).mulVec v k
      = 2700 * t * ∑ i : Fin B.cells.length × Fin nq, massForm B i v (Pi.single k 1) := fun t k => by
    rw [mass, formMatrix_mulVec _ _ (massForm_psd B hpos), Finset.mul_sum]
  refine ⟨hv.1, funext fun k => ?_⟩
  have h1 := congrFun hv.2 k
  rw [Pi.smul_apply, fK, fM, smul_eq_mul] at h1
  rw [Pi.smul_apply, fK, fM, smul_eq_mul]
  have m1 : modulus s ≠ 0 := (modulus_pos hs.le).ne'
  have m2 : modulus t ≠ 0 := (modulus_pos ht.le).ne'
  show _ = modulus t / t / (modulus s / s) * lam * _
  field_simp
  field_simp at h1
  linear_combination h1

/-- **C99 (too few pairs).** Without any converged pair, or with fewer than ten, the constraints are not computed. -/
theorem C99_errors {n N : Nat} (B : Problem1 (List ℝ) nq nfq nn 2 2) (rho : Fin n → ℝ) (nconv : Nat)
    (pair : Nat → ℝ × (Fin N → ℝ)) :
    (nconv = 0 → computeConstraints B rho nconv pair = .error .value) ∧
    (0 < nconv → nconv < 10 → computeConstraints B rho nconv pair = .error .runtime) ∧
    (10 ≤ nconv → ∃ c, computeConstraints B rho nconv pair = .ok c) := by
  refine ⟨fun h => ?_, fun h0 h1 => ?_, fun h => ⟨_, constraints_ok B rho nconv h pair⟩⟩
  · rw [computeConstraints, eigenAnalysis]
    simp only []
    rw [if_pos h]
  · rw [computeConstraints, eigenAnalysis]
    simp only []
    rw [if_neg (by omega), if_pos h1]

end JaxFem.Modal
