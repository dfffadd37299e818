import Verif.Thm.C94_Polar
import Verif.Thm.C88_Material
import Verif.Thm.C88_Problem

/-!
# C94: third medium contact — energy and stress
-/

namespace JaxFem.Contact

open Matrix JaxFem.Eigen JaxFem.Hyper
open Fracture (conL con_single con_add con_smul con_sub)

/-! ### Helper lemmas -/

theorem psiReg_plane (k a b c s : ℝ) (h : c ^ 2 + s ^ 2 = 1) :
    psiReg k (planeRotation c s) (planeRotation a b) = k * ((c - a) ^ 2 + (s - b) ^ 2) := by
  have e : planeRotation c s * (planeRotation a b).transpose
      = !![c * a + s * b, c * b - s * a, 0; s * a - c * b, s * b + c * a, 0; 0, 0, 1] := by
    ext i j
    fin_cases i <;> fin_cases j <;> simp [planeRotation, mul_apply, Fin.sum_univ_three] <;> ring
  rw [psiReg, e]
  simp [trace, Fin.sum_univ_three, mul_apply, Matrix.sub_apply, one_apply]
  linear_combination k * (a ^ 2 + b ^ 2 - 1) * h

theorem trace_setBlock (F : Fin 2 → Fin 2 → ℝ) :
    ((setBlock F).transpose * setBlock F).trace = ∑ i, ∑ j, F i j ^ 2 + 1 := by
  rw [setBlock_eq]
  simp [trace, Fin.sum_univ_three, Fin.sum_univ_two, mul_apply]
  ring

theorem psi_solid (eigh : Eigh) (m : Mat) {theta : ℝ} (ht : 1 / 2 < theta) (Rold : M3) (F : Fin 2 → Fin 2 → ℝ) :
    psi eigh m theta Rold F = planeEnergy m.K m.G (of F) := by
  simp only [psi, gt_iff_lt, if_pos ht, det_setBlock, trace_setBlock, planeEnergy, of_apply]
  ring

theorem psi_medium {eigh : Eigh} (he : ∀ x, IsEigh x (eigh x).1 (eigh x).2) (m : Mat) {theta : ℝ} (ht : theta ≤ 1 / 2)
    (a b : ℝ) (F : Fin 2 → Fin 2 → ℝ) (h : 0 < (of F).det) :
    psi eigh m theta (planeRotation a b) F = planeEnergy 0 (m.soft * m.G) (of F)
      + m.kR * (((turning (of F)).1 / turningLength (of F) - a) ^ 2 + ((turning (of F)).2 / turningLength (of F) - b) ^ 2) := by
  have hr : rotation eigh (setBlock F) =
      planeRotation ((turning (of F)).1 / turningLength (of F)) ((turning (of F)).2 / turningLength (of F)) := rotation_plane he h
  simp only [psi, gt_iff_lt, if_neg (not_lt.2 ht), det_setBlock, trace_setBlock, planeEnergy, of_apply, hr,
    psiReg_plane _ _ _ _ _ (unit_turning h)]
  ring

/-! The energy. -/

theorem iso_split {F : Matrix (Fin 2) (Fin 2) ℝ} (h : 0 < F.det) :
    ∃ t : ℝ, 0 < t ∧ t ^ 3 = F.det ∧ F.det ^ (-2 / 3 : ℝ) = 1 / t ^ 2 ∧
      F.det ^ (-2 / 3 : ℝ) * (∑ i, ∑ j, F i j ^ 2 + 1) - 3
        = ((F 0 0 - F 1 1) ^ 2 + (F 0 1 + F 1 0) ^ 2) / t ^ 2 + (t - 1) ^ 2 * (2 * t + 1) / t ^ 2 := by
  refine ⟨F.det ^ (1 / 3 : ℝ), by positivity, ?_, ?_, ?_⟩
  · rw [← Real.rpow_natCast, ← Real.rpow_mul h.le]
    norm_num
  · rw [← Real.rpow_natCast, ← Real.rpow_mul h.le, one_div, ← Real.rpow_neg h.le]
    norm_num
  · have h3 : (F.det ^ (1 / 3 : ℝ)) ^ 3 = F.det := by
      rw [← Real.rpow_natCast, ← Real.rpow_mul h.le]
      norm_num
    have h2 : F.det ^ (-2 / 3 : ℝ) = 1 / (F.det ^ (1 / 3 : ℝ)) ^ 2 := by
      rw [← Real.rpow_natCast, ← Real.rpow_mul h.le, one_div, ← Real.rpow_neg h.le]
      norm_num
    have hp : 0 < F.det ^ (1 / 3 : ℝ) := by positivity
    rw [h2]
    rw [det_fin_two] at h3 hp ⊢
    set t := (F 0 0 * F 1 1 - F 0 1 * F 1 0) ^ (1 / 3 : ℝ)
    simp only [Fin.sum_univ_two]
    field_simp
    linear_combination (-2) * h3

theorem iso_facts {F : Matrix (Fin 2) (Fin 2) ℝ} (h : 0 < F.det) :
    0 ≤ F.det ^ (-2 / 3 : ℝ) * (∑ i, ∑ j, F i j ^ 2 + 1) - 3 ∧
    (F.det ^ (-2 / 3 : ℝ) * (∑ i, ∑ j, F i j ^ 2 + 1) - 3 = 0 ↔ IsRotation F) ∧
    F.det ^ (-2 / 3 : ℝ) - 3 ≤ F.det ^ (-2 / 3 : ℝ) * (∑ i, ∑ j, F i j ^ 2 + 1) - 3 := by
  obtain ⟨t, ht, h3, h2, e⟩ := iso_split h
  have a1 : 0 ≤ ((F 0 0 - F 1 1) ^ 2 + (F 0 1 + F 1 0) ^ 2) / t ^ 2 := by positivity
  have a2 : 0 ≤ (t - 1) ^ 2 * (2 * t + 1) / t ^ 2 := by positivity
  refine ⟨by rw [e]; linarith, ⟨fun h0 => ?_, fun h0 => ?_⟩, ?_⟩
  · rw [e] at h0
    have b1 : ((F 0 0 - F 1 1) ^ 2 + (F 0 1 + F 1 0) ^ 2) / t ^ 2 = 0 := by linarith
    have b2 : (t - 1) ^ 2 * (2 * t + 1) / t ^ 2 = 0 := by linarith
    have c2 : t = 1 := by
      rcases div_eq_zero_iff.1 b2 with h4 | h4
      · rcases mul_eq_zero.1 h4 with h5 | h5
        · have := pow_eq_zero_iff two_ne_zero |>.1 h5
          linarith
        · linarith
      · exact absurd h4 (by positivity)
    have c1 : (F 0 0 - F 1 1) ^ 2 + (F 0 1 + F 1 0) ^ 2 = 0 := by
      rcases div_eq_zero_iff.1 b1 with h4 | h4
      · exact h4
      · exact absurd h4 (by positivity)
    have d1 : F 0 0 - F 1 1 = 0 := by
      have : (F 0 0 - F 1 1) ^ 2 = 0 := by nlinarith [sq_nonneg (F 0 0 - F 1 1), sq_nonneg (F 0 1 + F 1 0)]
      exact pow_eq_zero_iff two_ne_zero |>.1 this
    have d2 : F 0 1 + F 1 0 = 0 := by
      have : (F 0 1 + F 1 0) ^ 2 = 0 := by nlinarith [sq_nonneg (F 0 0 - F 1 1), sq_nonneg (F 0 1 + F 1 0)]
      exact pow_eq_zero_iff two_ne_zero |>.1 this
    have d3 : F.det = 1 := by rw [← h3, c2, one_pow]
    refine ⟨?_, d3⟩
    rw [det_fin_two] at d3
    have e1 : F 1 1 = F 0 0 := by linarith
    have e2 : F 0 1 = -F 1 0 := by linarith
    rw [e1, e2] at d3
    ext i j
    fin_cases i <;> fin_cases j <;> simp [mul_apply, Fin.sum_univ_two, e1, e2] <;> linarith
  · have h4 := trace_eq F
    rw [h0.1, trace_one] at h4
    rw [h0.2, ← h4]
    norm_num
  · have hs : 0 ≤ ∑ i, ∑ j, F i j ^ 2 := Finset.sum_nonneg fun i _ => Finset.sum_nonneg fun j _ => sq_nonneg _
    have hj : 0 ≤ F.det ^ (-2 / 3 : ℝ) := by positivity
    nlinarith [mul_nonneg hj hs]

theorem planeEnergy_facts {K G : ℝ} (hK : 0 ≤ K) (hG : 0 < G) {F : Matrix (Fin 2) (Fin 2) ℝ} (h : 0 < F.det) :
    0 ≤ planeEnergy K G F ∧ (planeEnergy K G F = 0 ↔ IsRotation F) ∧
      G / 2 * (F.det ^ (-2 / 3 : ℝ) - 3) ≤ planeEnergy K G F := by
  obtain ⟨h1, h2, h3⟩ := iso_facts h
  have a1 : 0 ≤ K / 2 * Real.log F.det ^ 2 := by positivity
  have a2 := mul_nonneg (half_pos hG).le h1
  rw [planeEnergy]
  refine ⟨by linarith, ⟨fun h0 => ?_, fun h0 => ?_⟩, ?_⟩
  · exact h2.1 ((mul_eq_zero.1 (by linarith : G / 2 * _ = 0)).resolve_left (half_pos hG).ne')
  · rw [h2.2 h0, h0.2]
    simp
  · have := mul_le_mul_of_nonneg_left h3 (half_pos hG).le
    linarith

theorem isRotation_plane {F : Matrix (Fin 2) (Fin 2) ℝ} (h : IsRotation F) :
    F = planeRotation2 (F 0 0) (F 1 0) ∧ F 0 0 ^ 2 + F 1 0 ^ 2 = 1 ∧ turningLength F = 2 ∧
      turning F = (2 * F 0 0, 2 * F 1 0) := by
  have hd := h.2
  have h1 := (rotation_inv h).2
  have a := congrFun (congrFun h.1 0) 0
  have b := congrFun (congrFun h.1 0) 1
  have d := congrFun (congrFun h.1 1) 1
  simp [mul_apply, Fin.sum_univ_two] at a b d
  rw [det_fin_two] at hd
  have e1 : F 1 1 = F 0 0 := by
    linear_combination (-F 1 1) * a + F 1 0 * b + F 0 0 * hd
  have e2 : F 0 1 = -F 1 0 := by
    linear_combination (-F 0 1) * a + F 0 0 * b - F 1 0 * hd
  have hc : F 0 0 ^ 2 + F 1 0 ^ 2 = 1 := by linarith
  have ht : turning F = (2 * F 0 0, 2 * F 1 0) := by
    simp only [turning, e1, e2, Prod.mk.injEq]
    constructor <;> ring
  refine ⟨?_, hc, ?_, ht⟩
  · ext i j
    fin_cases i <;> fin_cases j <;> simp [planeRotation2, e1, e2]
  · rw [turningLength, ht]
    have : (2 * F 0 0) ^ 2 + (2 * F 1 0) ^ 2 = 2 ^ 2 := by linear_combination 4 * hc
    simp only [this]
    exact Real.sqrt_sq (by norm_num)

theorem planeRotation2_rot {c s : ℝ} (h : c ^ 2 + s ^ 2 = 1) : IsRotation (planeRotation2 c s) := by
  constructor
  · ext i j
    fin_cases i <;> fin_cases j <;> simp [planeRotation2, mul_apply, Fin.sum_univ_two] <;> linarith
  · rw [planeRotation2, det_fin_two_of]
    linarith

/-! The stress. -/

theorem planeEnergy_deriv (K G : ℝ) (F : Fin 2 → Fin 2 → ℝ) (h : 0 < (of F).det) :
    HasFDerivAt (fun x : Fin 2 → Fin 2 → ℝ => planeEnergy K G (of x)) (conL fun i j => planePiola K G (of F) i j) F := by
  have h0 := h.ne'
  have hd := hasFDerivAt_det F h0
  have hp : HasFDerivAt (fun x : Fin 2 → Fin 2 → ℝ => (of x).det ^ (-2 / 3 : ℝ)) _ F :=
    hd.rpow_const (p := (-2 / 3 : ℝ)) (.inl h0)
  have hl : HasFDerivAt (fun x : Fin 2 → Fin 2 → ℝ => Real.log (of x).det) _ F := hd.log h0
  have := ((hl.pow 2).const_mul (K / 2)).add
    (((hp.mul ((hasFDerivAt_sq F).add_const 1)).sub_const 3).const_mul (G / 2))
  simp only [planeEnergy, of_apply]
  refine this.congr_fderiv ?_
  have hr : (of F).det ^ (-2 / 3 - 1 : ℝ) * (of F).det = (of F).det ^ (-2 / 3 : ℝ) := by
    rw [← Real.rpow_add_one h0, sub_add_cancel]
  ext H
  have c1 : ∀ (a : ℝ) (A : Fin 2 → Fin 2 → ℝ), contract (fun i j => a * A i j) H = a * contract A H := fun a A => con_smul a A H
  have lhs : contract (fun i j => planePiola K G (of F) i j) H
      = K * Real.log (of F).det * contract (fun i j => (of F)⁻¹ j i) H
        + G * (of F).det ^ (-2 / 3 : ℝ) * (contract F H
          - (∑ i, ∑ j, F i j ^ 2 + 1) / 3 * contract (fun i j => (of F)⁻¹ j i) H) := by
    rw [mul_sub, ← mul_assoc, ← con_smul, ← con_smul, ← con_smul, ← con_sub, ← con_add]
    congr 1
    funext i j
    simp only [planePiola, Matrix.add_apply, Matrix.smul_apply, Matrix.sub_apply, Matrix.transpose_apply, smul_eq_mul,
      Matrix.of_apply, Pi.add_apply, Pi.sub_apply, Pi.smul_apply]
    ring
  have hcon : ∀ A : Fin 2 → Fin 2 → ℝ, conL A H = contract A H := fun A => rfl
  simp only [_root_.add_apply, _root_.smul_apply, smul_eq_mul, hcon, lhs, c1, nsmul_eq_mul]
  rw [← hr]
  push_cast
  simp only [pow_one]
  field_simp
  ring

/-- Entry of a matrix as a continuous linear map. -/
noncomputable def entryL (i j : Fin 2) : (Fin 2 → Fin 2 → ℝ) →L[ℝ] ℝ :=
  (ContinuousLinearMap.proj (R := ℝ) (φ := fun _ : Fin 2 => ℝ) j).comp
    (ContinuousLinearMap.proj (R := ℝ) (φ := fun _ : Fin 2 => Fin 2 → ℝ) i)

/-- The regularisation as a function of the deformation gradient. -/
noncomputable def regOf (k a b : ℝ) (F : Fin 2 → Fin 2 → ℝ) : ℝ :=
  k * (((turning (of F)).1 / turningLength (of F) - a) ^ 2 + ((turning (of F)).2 / turningLength (of F) - b) ^ 2)

theorem regOf_deriv (k a b : ℝ) (F : Fin 2 → Fin 2 → ℝ) (h : 0 < (of F).det) :
    HasFDerivAt (regOf k a b) (conL fun i j => couplePiola k a b (of F) i j) F := by
  have hp : HasFDerivAt (fun x : Fin 2 → Fin 2 → ℝ => (turning (of x)).1) (entryL 0 0 + entryL 1 1) F :=
    (entryL 0 0 + entryL 1 1).hasFDerivAt
  have hq : HasFDerivAt (fun x : Fin 2 → Fin 2 → ℝ => (turning (of x)).2) (entryL 1 0 - entryL 0 1) F :=
    (entryL 1 0 - entryL 0 1).hasFDerivAt
  have hs := turning_pos h
  have hsq := turning_sq (of F)
  have hn : (turning (of F)).1 ^ 2 + (turning (of F)).2 ^ 2 ≠ 0 := by
    rw [← hsq]
    positivity
  have hr : HasFDerivAt (fun x : Fin 2 → Fin 2 → ℝ => turningLength (of x)) _ F := ((hp.pow 2).add (hq.pow 2)).sqrt hn
  have hi : HasFDerivAt (fun x : Fin 2 → Fin 2 → ℝ => (turningLength (of x))⁻¹) _ F :=
    (hasDerivAt_inv hs.ne').comp_hasFDerivAt F hr
  have := (((((hp.mul hi).sub_const a).pow 2).add (((hq.mul hi).sub_const b).pow 2))).const_mul k
  have this2 : HasFDerivAt (regOf k a b) _ F := this.congr_of_eventuallyEq (f₁ := regOf k a b)
    (Filter.Eventually.of_forall fun x => by
      simp only [regOf, div_eq_mul_inv]
      rfl)
  refine this2.congr_fderiv ?_
  ext H
  have hL : Real.sqrt (((fun x : Fin 2 → Fin 2 → ℝ => (turning (of x)).1 ^ 2) + fun x => (turning (of x)).2 ^ 2) F)
      = turningLength (of F) := rfl
  have he : ∀ i j, entryL i j H = H i j := fun i j => rfl
  have hcon : ∀ A : Fin 2 → Fin 2 → ℝ, conL A H = contract A H := fun A => rfl
  simp only [_root_.add_apply, _root_.sub_apply, _root_.smul_apply, smul_eq_mul, hcon, nsmul_eq_mul, hL, he,
    contract, Fin.sum_univ_two, couplePiola, Matrix.smul_apply, of_apply, cons_val', cons_val_zero, cons_val_one, Pi.mul_apply]
  clear this this2 hi hr hp hq hL he hcon
  generalize turningLength (of F) = s at *
  generalize (turning (of F)).1 = p at *
  generalize (turning (of F)).2 = q at *
  push_cast
  simp only [pow_one]
  have hs0 := hs.ne'
  field_simp
  linear_combination k * ((p - s * a) * (H 0 0 + H 1 1) + (q - s * b) * (H 1 0 - H 0 1)) * hsq

theorem near_pos {F : Fin 2 → Fin 2 → ℝ} (h : 0 < (of F).det) : ∀ᶠ x in nhds F, 0 < (of x).det := by
  have hc : ContinuousAt (fun F : Fin 2 → Fin 2 → ℝ => (of F).det) F := (detsmooth (m := 0)).continuous.continuousAt
  exact hc.eventually (lt_mem_nhds h)

theorem psi_near {eigh : Eigh} (he : ∀ x, IsEigh x (eigh x).1 (eigh x).2) (m : Mat) (theta a b : ℝ)
    {F : Fin 2 → Fin 2 → ℝ} (h : 0 < (of F).det) :
    psi eigh m theta (planeRotation a b) =ᶠ[nhds F] fun x =>
      if 1 / 2 < theta then planeEnergy m.K m.G (of x) else planeEnergy 0 (m.soft * m.G) (of x) + regOf m.kR a b x := by
  filter_upwards [near_pos h] with x hx
  by_cases ht : 1 / 2 < theta
  · rw [if_pos ht, psi_solid eigh m ht]
  · rw [if_neg ht, psi_medium he m (not_lt.1 ht) a b x hx, regOf]

theorem psi_deriv_solid (eigh : Eigh) (m : Mat) {theta : ℝ} (ht : 1 / 2 < theta) (Rold : M3) (F : Fin 2 → Fin 2 → ℝ)
    (h : 0 < (of F).det) :
    HasFDerivAt (psi eigh m theta Rold) (conL fun i j => planePiola m.K m.G (of F) i j) F := by
  have : psi eigh m theta Rold = fun x => planeEnergy m.K m.G (of x) := funext fun x => psi_solid eigh m ht Rold x
  rw [this]
  exact planeEnergy_deriv m.K m.G F h

theorem psi_deriv_medium {eigh : Eigh} (he : ∀ x, IsEigh x (eigh x).1 (eigh x).2) (m : Mat) {theta : ℝ}
    (ht : theta ≤ 1 / 2) (a b : ℝ) (F : Fin 2 → Fin 2 → ℝ) (h : 0 < (of F).det) :
    HasFDerivAt (psi eigh m theta (planeRotation a b))
      (conL fun i j => (planePiola 0 (m.soft * m.G) (of F) + couplePiola m.kR a b (of F)) i j) F := by
  have h1 := (planeEnergy_deriv 0 (m.soft * m.G) F h).add (regOf_deriv m.kR a b F h)
  have h2 := h1.congr_of_eventuallyEq (f₁ := psi eigh m theta (planeRotation a b)) (by
    refine (psi_near he m theta a b h).trans ?_
    simp only [if_neg (not_lt.2 ht)]
    exact Filter.EventuallyEq.rfl)
  refine h2.congr_fderiv ?_
  ext H
  have hcon : ∀ A : Fin 2 → Fin 2 → ℝ, conL A H = contract A H := fun A => rfl
  rw [_root_.add_apply, hcon, hcon, hcon, ← con_add]
  rfl

theorem energy_smooth {m : WithTop ℕ∞} (K G : ℝ) {F : Fin 2 → Fin 2 → ℝ} (h : 0 < (of F).det) :
    ContDiffAt ℝ m (fun x : Fin 2 → Fin 2 → ℝ => planeEnergy K G (of x)) F := by
  have h0 := h.ne'
  have hdet : ContDiffAt ℝ m (fun F : Fin 2 → Fin 2 → ℝ => (of F).det) F := detsmooth.contDiffAt
  have hp : ContDiffAt ℝ m (fun F : Fin 2 → Fin 2 → ℝ => (of F).det ^ (-2 / 3 : ℝ)) F :=
    ContDiffAt.comp F (Real.contDiffAt_rpow_const_of_ne h0) hdet
  have hs : ContDiffAt ℝ m (fun F : Fin 2 → Fin 2 → ℝ => ∑ i, ∑ j, F i j ^ 2) F :=
    ContDiffAt.sum fun i _ => ContDiffAt.sum fun j _ => ((contDiff_apply_apply ℝ ℝ i j).contDiffAt).pow 2
  simp only [planeEnergy, of_apply]
  exact (contDiffAt_const.mul ((hdet.log h0).pow 2)).add
    (contDiffAt_const.mul ((hp.mul (hs.add contDiffAt_const)).sub contDiffAt_const))

theorem regOf_smooth {m : WithTop ℕ∞} (k a b : ℝ) {F : Fin 2 → Fin 2 → ℝ} (h : 0 < (of F).det) :
    ContDiffAt ℝ m (regOf k a b) F := by
  have hs := turning_pos h
  have hsq := turning_sq (of F)
  have hn : (turning (of F)).1 ^ 2 + (turning (of F)).2 ^ 2 ≠ 0 := by
    rw [← hsq]
    positivity
  have hp : ContDiffAt ℝ m (fun x : Fin 2 → Fin 2 → ℝ => (turning (of x)).1) F :=
    (entryL 0 0 + entryL 1 1).contDiff.contDiffAt
  have hq : ContDiffAt ℝ m (fun x : Fin 2 → Fin 2 → ℝ => (turning (of x)).2) F :=
    (entryL 1 0 - entryL 0 1).contDiff.contDiffAt
  have hr : ContDiffAt ℝ m (fun x : Fin 2 → Fin 2 → ℝ => turningLength (of x)) F :=
    ((hp.pow 2).add (hq.pow 2)).sqrt hn
  exact contDiffAt_const.mul ((((hp.div hr hs.ne').sub contDiffAt_const).pow 2).add
    (((hq.div hr hs.ne').sub contDiffAt_const).pow 2))

theorem psi_contDiff {n : WithTop ℕ∞} {eigh : Eigh} (he : ∀ x, IsEigh x (eigh x).1 (eigh x).2) (m : Mat) (theta a b : ℝ)
    {F : Fin 2 → Fin 2 → ℝ} (h : 0 < (of F).det) : ContDiffAt ℝ n (psi eigh m theta (planeRotation a b)) F := by
  refine ContDiffAt.congr_of_eventuallyEq ?_ (psi_near he m theta a b h)
  by_cases ht : 1 / 2 < theta
  · simp only [if_pos ht]
    exact energy_smooth _ _ h
  · simp only [if_neg ht]
    exact (energy_smooth _ _ h).add (regOf_smooth _ _ _ h)

theorem inv_plane {F : Matrix (Fin 2) (Fin 2) ℝ} (h : F.det ≠ 0) : F⁻¹ * F = 1 ∧ F * F⁻¹ = 1 :=
  ⟨nonsing_inv_mul _ (isUnit_iff_ne_zero.2 h), mul_nonsing_inv _ (isUnit_iff_ne_zero.2 h)⟩

theorem planePiola_symm (K G : ℝ) {F : Matrix (Fin 2) (Fin 2) ℝ} (h : F.det ≠ 0) :
    (planePiola K G F * F.transpose).transpose = planePiola K G F * F.transpose := by
  have e : planePiola K G F * F.transpose = (K * Real.log F.det) • (1 : Matrix (Fin 2) (Fin 2) ℝ)
      + (G * F.det ^ (-2 / 3 : ℝ)) • (F * F.transpose - ((∑ i, ∑ j, F i j ^ 2 + 1) / 3) • (1 : Matrix (Fin 2) (Fin 2) ℝ)) := by
    have h1 : F⁻¹.transpose * F.transpose = 1 := by rw [← transpose_mul, (inv_plane h).2, transpose_one]
    rw [planePiola, Matrix.add_mul, Matrix.smul_mul, Matrix.smul_mul, Matrix.sub_mul, Matrix.smul_mul, h1]
  rw [e]
  simp only [transpose_add, transpose_smul, transpose_sub, transpose_one, transpose_mul, transpose_transpose]

theorem couple_moment (k a b : ℝ) {F : Matrix (Fin 2) (Fin 2) ℝ} (h : 0 < F.det) :
    (couplePiola k a b F * F.transpose) 1 0 - (couplePiola k a b F * F.transpose) 0 1
      = 2 * k * ((turning F).2 * a - (turning F).1 * b) / turningLength F := by
  have hs := (turning_pos h).ne'
  have hsq := turning_sq F
  simp only [couplePiola, mul_apply, Fin.sum_univ_two, Matrix.smul_apply, smul_eq_mul, transpose_apply, of_apply,
    cons_val', cons_val_zero, cons_val_one, turning] at hsq ⊢
  field_simp
  linear_combination (-(k * ((F 1 0 - F 0 1) * a - (F 0 0 + F 1 1) * b))) * hsq

theorem medium_bound {a b c s : ℝ} (h : c ^ 2 + s ^ 2 = 1) :
    (1 - Real.sqrt (a ^ 2 + b ^ 2)) ^ 2 ≤ (c - a) ^ 2 + (s - b) ^ 2 ∧
    ((c - a) ^ 2 + (s - b) ^ 2 = (1 - Real.sqrt (a ^ 2 + b ^ 2)) ^ 2 ↔
      a = Real.sqrt (a ^ 2 + b ^ 2) * c ∧ b = Real.sqrt (a ^ 2 + b ^ 2) * s) := by
  set r := Real.sqrt (a ^ 2 + b ^ 2) with hr
  have hr0 : 0 ≤ r := Real.sqrt_nonneg _
  have hr2 : r ^ 2 = a ^ 2 + b ^ 2 := Real.sq_sqrt (by positivity)
  have key : (a - r * c) ^ 2 + (b - r * s) ^ 2 = 2 * r * (r - (c * a + s * b)) := by
    linear_combination (-1) * hr2 + r ^ 2 * h
  have e : (c - a) ^ 2 + (s - b) ^ 2 = (1 - r) ^ 2 + 2 * (r - (c * a + s * b)) := by
    linear_combination h - hr2
  have hle : 0 ≤ r - (c * a + s * b) := by
    rcases hr0.lt_or_eq with h0 | h0
    · by_contra hn
      push Not at hn
      nlinarith [sq_nonneg (a - r * c), sq_nonneg (b - r * s)]
    · rw [← h0] at hr2 ⊢
      have ha : a = 0 := by nlinarith [sq_nonneg a, sq_nonneg b]
      have hb : b = 0 := by nlinarith [sq_nonneg a, sq_nonneg b]
      simp [ha, hb]
  refine ⟨by linarith, fun h0 => ?_, fun ⟨h1, h2⟩ => ?_⟩
  · have h3 : r - (c * a + s * b) = 0 := by linarith
    rw [h3, mul_zero] at key
    have k1 : (a - r * c) ^ 2 = 0 := by nlinarith [sq_nonneg (a - r * c), sq_nonneg (b - r * s)]
    have k2 : (b - r * s) ^ 2 = 0 := by nlinarith [sq_nonneg (a - r * c), sq_nonneg (b - r * s)]
    exact ⟨by linarith [pow_eq_zero_iff two_ne_zero |>.1 k1], by linarith [pow_eq_zero_iff two_ne_zero |>.1 k2]⟩
  · rw [e]
    have : c * a + s * b = r := by
      rw [h1, h2]
      linear_combination r * h
    rw [this]
    ring

/-! ### Property theorems -/

/-- **C94 (energy).** For moduli in the usual range, at deformation gradients with positive determinant: the energy is not
negative. In the solid it vanishes exactly for rotations. In the medium, whose old rotation is `(a, b)`, it is at least
`k_R (1 - r)²` with `r = |(a, b)|`, with equality exactly for the rotations in the direction of `(a, b)`. And the
energy grows beyond all bounds when the determinant goes to zero, in the solid and in the medium. -/
theorem C94_energy (eigh : Eigh) (he : ∀ x, IsEigh x (eigh x).1 (eigh x).2) (m : Mat)
    (hE : 0 < m.E) (h1 : -1 < m.nu) (h2 : m.nu < 1 / 2) (hk : 0 < m.kR) (hsoft : 0 < m.soft) :
    (∀ (theta a b : ℝ) (F : Fin 2 → Fin 2 → ℝ), 0 < (of F).det →
      0 ≤ psi eigh m theta (planeRotation a b) F ∧
      (1 / 2 < theta → (psi eigh m theta (planeRotation a b) F = 0 ↔ IsRotation (of F))) ∧
      (theta ≤ 1 / 2 → m.kR * (1 - Real.sqrt (a ^ 2 + b ^ 2)) ^ 2 ≤ psi eigh m theta (planeRotation a b) F ∧
        (psi eigh m theta (planeRotation a b) F = m.kR * (1 - Real.sqrt (a ^ 2 + b ^ 2)) ^ 2 ↔
          IsRotation (of F) ∧ a = Real.sqrt (a ^ 2 + b ^ 2) * F 0 0 ∧ b = Real.sqrt (a ^ 2 + b ^ 2) * F 1 0))) ∧
    ∀ B : ℝ, ∃ δ, 0 < δ ∧ ∀ (theta a b : ℝ) (F : Fin 2 → Fin 2 → ℝ), 0 < (of F).det → (of F).det < δ →
      B ≤ psi eigh m theta (planeRotation a b) F := by
  have hK : 0 ≤ m.K := div_nonneg hE.le (by linarith)
  have hG : 0 < m.G := div_pos hE (by linarith)
  have hsG : 0 < m.soft * m.G := mul_pos hsoft hG
  have main : ∀ (theta a b : ℝ) (F : Fin 2 → Fin 2 → ℝ), 0 < (of F).det →
      0 ≤ psi eigh m theta (planeRotation a b) F ∧
      (1 / 2 < theta → (psi eigh m theta (planeRotation a b) F = 0 ↔ IsRotation (of F))) ∧
      (theta ≤ 1 / 2 → m.kR * (1 - Real.sqrt (a ^ 2 + b ^ 2)) ^ 2 ≤ psi eigh m theta (planeRotation a b) F ∧
        (psi eigh m theta (planeRotation a b) F = m.kR * (1 - Real.sqrt (a ^ 2 + b ^ 2)) ^ 2 ↔
          IsRotation (of F) ∧ a = Real.sqrt (a ^ 2 + b ^ 2) * F 0 0 ∧ b = Real.sqrt (a ^ 2 + b ^ 2) * F 1 0)) := by
    intro theta a b F h
    have hmed : theta ≤ 1 / 2 → m.kR * (1 - Real.sqrt (a ^ 2 + b ^ 2)) ^ 2 ≤ psi eigh m theta (planeRotation a b) F ∧
        (psi eigh m theta (planeRotation a b) F = m.kR * (1 - Real.sqrt (a ^ 2 + b ^ 2)) ^ 2 ↔
          IsRotation (of F) ∧ a = Real.sqrt (a ^ 2 + b ^ 2) * F 0 0 ∧ b = Real.sqrt (a ^ 2 + b ^ 2) * F 1 0) := by
      intro ht
      obtain ⟨p1, p2, -⟩ := planeEnergy_facts le_rfl hsG h
      obtain ⟨q1, q2⟩ := medium_bound (a := a) (b := b) (unit_turning h)
      rw [psi_medium he m ht a b F h]
      have q3 := mul_le_mul_of_nonneg_left q1 hk.le
      refine ⟨by linarith, fun h0 => ?_, fun ⟨h0, ha, hb⟩ => ?_⟩
      · have r1 := p2.1 (by linarith)
        have r2 := q2.1 (mul_left_cancel₀ hk.ne' (by linarith))
        obtain ⟨-, -, hl, ht2⟩ := isRotation_plane r1
        rw [hl, ht2] at r2
        refine ⟨r1, ?_, ?_⟩
        · have := r2.1
          simp only [of_apply] at this
          rw [mul_div_cancel_left₀ _ (two_ne_zero)] at this
          exact this
        · have := r2.2
          simp only [of_apply] at this
          rw [mul_div_cancel_left₀ _ (two_ne_zero)] at this
          exact this
      · obtain ⟨-, -, hl, ht2⟩ := isRotation_plane h0
        rw [p2.2 h0, zero_add]
        congr 1
        apply q2.2
        rw [hl, ht2]
        simp only [of_apply]
        rw [mul_div_cancel_left₀ _ (two_ne_zero), mul_div_cancel_left₀ _ (two_ne_zero)]
        exact ⟨ha, hb⟩
    refine ⟨?_, fun ht => ?_, hmed⟩
    · rcases lt_or_ge (1 / 2) theta with ht | ht
      · rw [psi_solid eigh m ht]
        exact (planeEnergy_facts hK hG h).1
      · exact le_trans (by positivity) (hmed ht).1
    · rw [psi_solid eigh m ht]
      exact (planeEnergy_facts hK hG h).2.1
  refine ⟨main, fun B => ?_⟩
  set g := min m.G (m.soft * m.G) with hg
  have hg0 : 0 < g := lt_min hG hsG
  set M := max (2 * B / g + 3) 3 with hM
  have hM3 : 3 ≤ M := le_max_right _ _
  have hMB : 2 * B / g + 3 ≤ M := le_max_left _ _
  have hMB' : B ≤ g / 2 * (M - 3) := by
    have : 2 * B / g ≤ M - 3 := by linarith
    rw [div_le_iff₀ hg0] at this
    linarith
  refine ⟨M ^ (-3 / 2 : ℝ), by positivity, fun theta a b F h hd => ?_⟩
  have hj : M ≤ (of F).det ^ (-2 / 3 : ℝ) := by
    have h3 := Real.rpow_le_rpow_of_nonpos h hd.le (by norm_num : (-2 / 3 : ℝ) ≤ 0)
    rw [← Real.rpow_mul (by linarith)] at h3
    rwa [show (-3 / 2 * (-2 / 3) : ℝ) = 1 by norm_num, Real.rpow_one] at h3
  have step : ∀ G : ℝ, g ≤ G → B ≤ G / 2 * ((of F).det ^ (-2 / 3 : ℝ) - 3) := by
    intro G hGg
    have a1 : g / 2 * (M - 3) ≤ G / 2 * (M - 3) := mul_le_mul_of_nonneg_right (by linarith) (by linarith)
    have a2 : G / 2 * (M - 3) ≤ G / 2 * ((of F).det ^ (-2 / 3 : ℝ) - 3) := mul_le_mul_of_nonneg_left (by linarith) (by linarith)
    linarith
  rcases lt_or_ge (1 / 2) theta with ht | ht
  · rw [psi_solid eigh m ht]
    exact le_trans (step _ (min_le_left _ _)) (planeEnergy_facts hK hG h).2.2
  · rw [psi_medium he m ht a b F h]
    have b1 := le_trans (step _ (min_le_right _ _)) (planeEnergy_facts le_rfl hsG h).2.2
    have b2 : 0 ≤ m.kR * (((turning (of F)).1 / turningLength (of F) - a) ^ 2
        + ((turning (of F)).2 / turningLength (of F) - b) ^ 2) := by positivity
    linarith

/-- **C94 (frame indifference).** Turning the deformed body and the old rotations by the same rotation of the plane
does not change the energy. -/
theorem C94_frame (eigh : Eigh) (he : ∀ x, IsEigh x (eigh x).1 (eigh x).2) (m : Mat) (theta : ℝ) (Rold : M3)
    (F : Fin 2 → Fin 2 → ℝ) (h : (of F).det ≠ 0) (c s : ℝ) (hc : c ^ 2 + s ^ 2 = 1) :
    psi eigh m theta (planeRotation c s * Rold) (fun i j => (planeRotation2 c s * of F) i j) = psi eigh m theta Rold F := by
  have hQ : (planeRotation c s).transpose * planeRotation c s = 1 := by
    ext i j
    fin_cases i <;> fin_cases j <;> simp [planeRotation, mul_apply, Fin.sum_univ_three] <;> nlinarith [hc]
  have hdet : (planeRotation c s).det = 1 := by
    rw [planeRotation, det_fin_three]
    simp
    linarith
  have hS : setBlock (fun i j => (planeRotation2 c s * of F) i j) = planeRotation c s * setBlock F := by
    rw [setBlock_eq, setBlock_eq]
    ext i j
    fin_cases i <;> fin_cases j <;> simp [planeRotation, planeRotation2, mul_apply, Fin.sum_univ_three, Fin.sum_univ_two]
  have hd3 : (setBlock F).det ≠ 0 := by rwa [det_setBlock]
  have hR := ((C94_polar eigh he (setBlock F) hd3).2.2.2 _ hQ).1
  have hT : (planeRotation c s * setBlock F).transpose * (planeRotation c s * setBlock F)
      = (setBlock F).transpose * setBlock F := by
    rw [transpose_mul]
    calc (setBlock F).transpose * (planeRotation c s).transpose * (planeRotation c s * setBlock F)
        = (setBlock F).transpose * ((planeRotation c s).transpose * planeRotation c s) * setBlock F := by
          simp only [Matrix.mul_assoc]
      _ = _ := by rw [hQ, Matrix.mul_one]
  have hQ' : planeRotation c s * (planeRotation c s).transpose = 1 := mul_eq_one_comm.1 hQ
  have hreg : ∀ R, psiReg m.kR (planeRotation c s * R) (planeRotation c s * Rold) = psiReg m.kR R Rold := by
    intro R
    have e : 1 - planeRotation c s * R * (planeRotation c s * Rold).transpose
        = planeRotation c s * (1 - R * Rold.transpose) * (planeRotation c s).transpose := by
      rw [Matrix.mul_sub, Matrix.sub_mul, Matrix.mul_one, hQ', transpose_mul]
      simp only [Matrix.mul_assoc]
    rw [psiReg, psiReg, e]
    congr 1
    rw [transpose_mul, transpose_mul, transpose_transpose]
    set A := 1 - R * Rold.transpose
    set Q := planeRotation c s
    have : Q * A * Q.transpose * (Q * (A.transpose * Q.transpose)) = Q * (A * A.transpose * Q.transpose) := by
      calc Q * A * Q.transpose * (Q * (A.transpose * Q.transpose))
          = Q * A * (Q.transpose * Q) * (A.transpose * Q.transpose) := by simp only [Matrix.mul_assoc]
        _ = _ := by rw [hQ, Matrix.mul_one]; simp only [Matrix.mul_assoc]
    rw [this, trace_mul_comm, Matrix.mul_assoc, hQ, Matrix.mul_one]
  simp only [psi, hS, hR, hT, det_mul, hdet, one_mul, hreg]

/-- **C94 (stress).** Where the determinant of the deformation gradient is positive, the energy is differentiable and
`first_PK_stress` is `K ln J F⁻ᵀ + G J^(-2/3) (F - (|F|² + 1)/3 F⁻ᵀ)` in the solid, where `P Fᵀ` is symmetric. In
the medium the volumetric part is missing, the isochoric part is scaled, and the regularisation adds a stress. Then
`P Fᵀ` is symmetric exactly when the rotation has the direction of the old rotation `(a, b)` or the opposite one:
the medium can carry moments. -/
theorem C94_stress (eigh : Eigh) (he : ∀ x, IsEigh x (eigh x).1 (eigh x).2) (m : Mat) (noise uGrad : Fin 2 → Fin 2 → ℝ)
    (theta a b : ℝ) :
    let F := of (planeGrad noise uGrad)
    let P := of (firstPKStress eigh m noise uGrad theta (planeRotation a b))
    0 < F.det →
    DifferentiableAt ℝ (psi eigh m theta (planeRotation a b)) (planeGrad noise uGrad) ∧
    (1 / 2 < theta → P = planePiola (m.E / (3 * (1 - 2 * m.nu))) (m.E / (2 * (1 + m.nu))) F ∧ (P * F.transpose).transpose = P * F.transpose) ∧
    (theta ≤ 1 / 2 → P = planePiola 0 (m.soft * (m.E / (2 * (1 + m.nu)))) F + couplePiola m.kR a b F ∧
      (m.kR ≠ 0 → ((P * F.transpose).transpose = P * F.transpose ↔ (turning F).2 * a = (turning F).1 * b))) := by
  intro F P h
  have hP1 : 1 / 2 < theta → P = planePiola m.K m.G F := fun ht => by
    have := grad_of_deriv (psi_deriv_solid eigh m ht (planeRotation a b) (planeGrad noise uGrad) h)
    ext i j
    exact congrFun (congrFun this i) j
  have hP2 : theta ≤ 1 / 2 → P = planePiola 0 (m.soft * m.G) F + couplePiola m.kR a b F := fun ht => by
    have := grad_of_deriv (psi_deriv_medium he m ht a b (planeGrad noise uGrad) h)
    ext i j
    exact congrFun (congrFun this i) j
  refine ⟨?_, fun ht => ⟨hP1 ht, ?_⟩, fun ht => ⟨hP2 ht, fun hk => ?_⟩⟩
  · rcases lt_or_ge (1 / 2) theta with ht | ht
    · exact (psi_deriv_solid eigh m ht (planeRotation a b) (planeGrad noise uGrad) h).differentiableAt
    · exact (psi_deriv_medium he m ht a b (planeGrad noise uGrad) h).differentiableAt
  · rw [hP1 ht]
    exact planePiola_symm m.K m.G h.ne'
  · have hs := planePiola_symm 0 (m.soft * m.G) h.ne'
    have hm := couple_moment m.kR a b h
    rw [hP2 ht, Matrix.add_mul, transpose_add, hs]
    have key : (couplePiola m.kR a b F * F.transpose).transpose = couplePiola m.kR a b F * F.transpose ↔
        (turning F).2 * a = (turning F).1 * b := by
      have hl := (turning_pos h).ne'
      constructor
      · intro h0
        have h1 := congrFun (congrFun h0 0) 1
        rw [transpose_apply] at h1
        rw [h1, sub_self, eq_comm, div_eq_zero_iff] at hm
        rcases hm with hm | hm
        · rcases mul_eq_zero.1 hm with h2 | h2
          · exact absurd h2 (mul_ne_zero two_ne_zero hk)
          · linarith
        · exact absurd hm hl
      · intro h0
        rw [show (turning F).2 * a - (turning F).1 * b = 0 by linarith, mul_zero, zero_div] at hm
        ext i j
        rw [transpose_apply]
        fin_cases i <;> fin_cases j
        · rfl
        · exact sub_eq_zero.1 hm
        · exact (sub_eq_zero.1 hm).symm
        · rfl
    rw [← key]
    exact add_right_inj _

end JaxFem.Contact
