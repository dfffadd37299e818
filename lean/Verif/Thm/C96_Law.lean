import Verif.Thm.C96_Network
import Verif.Spec.Surrogate
import Verif.Spec.Hyper
import Mathlib.Analysis.Calculus.MeanValue
import Mathlib.Analysis.SpecialFunctions.Sqrt
import Mathlib.Analysis.Calculus.FDeriv.Prod
import Mathlib.Analysis.Calculus.Deriv.Prod

/-!
# C96: the stress of the surrogate model
-/

namespace JaxFem.Surrogate

open scoped BigOperators
open Matrix

/-! ### Helper lemmas -/

/-- The linear form with coefficients `v`. -/
noncomputable def gradL (v : Fin 3 → ℝ) : (Fin 3 → ℝ) →L[ℝ] ℝ :=
  ∑ i, v i • ContinuousLinearMap.proj (R := ℝ) (φ := fun _ : Fin 3 => ℝ) i

theorem gradL_apply (v d : Fin 3 → ℝ) : gradL v d = v 0 * d 0 + v 1 * d 1 + v 2 * d 2 := by
  simp [gradL, Fin.sum_univ_three]

theorem gradL_eq {v : Fin 3 → ℝ} {L : (Fin 3 → ℝ) →L[ℝ] ℝ} (h : ∀ d, L d = v 0 * d 0 + v 1 * d 1 + v 2 * d 2) :
    L = gradL v := by
  ext d
  rw [h, gradL_apply]

theorem linear_grad (v e : Fin 3 → ℝ) :
    HasFDerivAt (fun e : Fin 3 → ℝ => v 0 * e 0 + v 1 * e 1 + v 2 * e 2) (gradL v) e := by
  have : (fun e : Fin 3 → ℝ => v 0 * e 0 + v 1 * e 1 + v 2 * e 2) = gradL v := by
    funext d; rw [gradL_apply]
  rw [this]
  exact (gradL v).hasFDerivAt

theorem isStrain_open : IsOpen {e : Fin 3 → ℝ | IsStrain e} := by
  have h1 : IsOpen {e : Fin 3 → ℝ | 0 < 1 + 2 * e 0} := isOpen_lt (by fun_prop) (by fun_prop)
  have h2 : IsOpen {e : Fin 3 → ℝ | 4 * e 1 ^ 2 < (1 + 2 * e 0) * (1 + 2 * e 2)} := isOpen_lt (by fun_prop) (by fun_prop)
  exact h1.inter h2

theorem isStrain_second {e : Fin 3 → ℝ} (h : IsStrain e) : 0 < 1 + 2 * e 2 := by
  have h1 := h.1
  have h2 := h.2
  have h3 : 0 < (1 + 2 * e 0) * (1 + 2 * e 2) := lt_of_le_of_lt (by positivity) h2
  exact (pos_iff_pos_of_mul_pos h3).1 h1

theorem product_mean {a b c d y t : ℝ} (ha : 0 < a) (hb : 0 < b) (hc : 0 < c) (hd : 0 < d) (h1 : y ^ 2 < a * b)
    (h2 : y ^ 2 < c * d) (ht : 0 ≤ t) (ht' : t ≤ 1) : y ^ 2 < (a + t * (c - a)) * (b + t * (d - b)) := by
  have key : 2 * y ^ 2 ≤ a * d + b * c := by
    have h3 : y ^ 2 * y ^ 2 ≤ (a * b) * (c * d) :=
      mul_le_mul h1.le h2.le (sq_nonneg y) (by positivity)
    have h4 : (2 * y ^ 2) ^ 2 ≤ (a * d + b * c) ^ 2 := by nlinarith [sq_nonneg (a * d - b * c)]
    exact le_of_sq_le_sq h4 (by positivity)
  have e : (a + t * (c - a)) * (b + t * (d - b))
      = (1 - t) ^ 2 * (a * b) + t * (1 - t) * (a * d + b * c) + t ^ 2 * (c * d) := by ring
  rw [e]
  have s : 0 ≤ 1 - t := by linarith
  have k1 : (1 - t) ^ 2 * y ^ 2 ≤ (1 - t) ^ 2 * (a * b) := mul_le_mul_of_nonneg_left h1.le (by positivity)
  have k2 : t * (1 - t) * (2 * y ^ 2) ≤ t * (1 - t) * (a * d + b * c) := mul_le_mul_of_nonneg_left key (by positivity)
  have k3 : t ^ 2 * y ^ 2 ≤ t ^ 2 * (c * d) := mul_le_mul_of_nonneg_left h2.le (by positivity)
  rcases ht.eq_or_lt with h | h
  · subst h; simpa using h1
  · have k4 : t ^ 2 * y ^ 2 < t ^ 2 * (c * d) := mul_lt_mul_of_pos_left h2 (by positivity)
    nlinarith

theorem segment_strain {e e' : Fin 3 → ℝ} (h : IsStrain e) (h' : IsStrain e') (hy : e' 1 = e 1) {t : ℝ} (ht : 0 ≤ t)
    (ht' : t ≤ 1) : IsStrain fun i => e i + t * (e' i - e i) := by
  have a := isStrain_second h
  have a' := isStrain_second h'
  refine ⟨?_, ?_⟩
  · have h1 := h.1
    have h1' := h'.1
    have : 1 + 2 * (e 0 + t * (e' 0 - e 0)) = (1 - t) * (1 + 2 * e 0) + t * (1 + 2 * e' 0) := by ring
    rw [this]
    rcases ht.eq_or_lt with k | k
    · subst k; simpa using h1
    · have : 0 ≤ (1 - t) * (1 + 2 * e 0) := mul_nonneg (by linarith) h1.le
      have : 0 < t * (1 + 2 * e' 0) := mul_pos k h1'
      linarith
  · have h2 := h.2
    have h2' := h'.2
    rw [hy] at h2'
    have := product_mean (y := 2 * e 1) h.1 a h'.1 a' (by nlinarith) (by nlinarith) ht ht'
    dsimp only
    rw [hy, sub_self, mul_zero, add_zero]
    nlinarith

theorem shear_strain {e : Fin 3 → ℝ} (h : IsStrain e) {t : ℝ} (ht : 0 ≤ t) (ht' : t ≤ 1) :
    IsStrain ![e 0, t * e 1, e 2] := by
  refine ⟨by simpa using h.1, ?_⟩
  have h2 := h.2
  have : (t * e 1) ^ 2 ≤ e 1 ^ 2 := by
    rw [mul_pow]
    have : t ^ 2 ≤ 1 := pow_le_one₀ ht ht'
    nlinarith [sq_nonneg (e 1)]
  simp
  linarith

theorem const_line {f : ℝ → ℝ} (h : ∀ t, 0 ≤ t → t ≤ 1 → HasDerivAt f 0 t) : f 1 = f 0 := by
  have := (convex_Icc (0 : ℝ) 1).norm_image_sub_le_of_norm_hasDerivWithin_le (f := f) (f' := fun _ => 0) (C := 0)
    (fun t ht => (h t ht.1 ht.2).hasDerivWithinAt) (fun _ _ => by simp) (Set.left_mem_Icc.2 zero_le_one)
    (Set.right_mem_Icc.2 zero_le_one)
  simpa [sub_eq_zero] using this

theorem along {f : (Fin 3 → ℝ) → ℝ} {v e d : Fin 3 → ℝ} {t : ℝ} (c : ℝ → Fin 3 → ℝ) (hc : ∀ i, HasDerivAt (fun t => c t i) (d i) t)
    (hv : HasFDerivAt f (gradL v) e) (he : c t = e) : HasDerivAt (fun t => f (c t)) (v 0 * d 0 + v 1 * d 1 + v 2 * d 2) t := by
  have h1 : HasDerivAt c d t := hasDerivAt_pi.2 hc
  have := HasFDerivAt.comp_hasDerivAt (f := c) t (he ▸ hv) h1
  rwa [gradL_apply] at this

/-- A function without derivatives with respect to the normal strains depends on the shear strain only. -/
theorem const_slice {f : (Fin 3 → ℝ) → ℝ} {v : (Fin 3 → ℝ) → ℝ}
    (hf : ∀ e, IsStrain e → HasFDerivAt f (gradL ![0, v e, 0]) e) {e e' : Fin 3 → ℝ} (h : IsStrain e) (h' : IsStrain e')
    (hy : e' 1 = e 1) : f e' = f e := by
  have key := const_line (f := fun t => f fun i => e i + t * (e' i - e i)) fun t ht ht' => by
    have := along (t := t) (d := fun i => e' i - e i) (fun t i => e i + t * (e' i - e i))
      (fun i => by simpa using ((hasDerivAt_id t).mul_const (e' i - e i)).const_add (e i)) (hf _ (segment_strain h h' hy ht ht')) rfl
    simpa [hy] using this
  simpa using key

/-- A function without derivative with respect to the shear strain depends on the normal strains only. -/
theorem const_shear {f : (Fin 3 → ℝ) → ℝ} {v v' : (Fin 3 → ℝ) → ℝ}
    (hf : ∀ e, IsStrain e → HasFDerivAt f (gradL ![v e, 0, v' e]) e) {e : Fin 3 → ℝ} (h : IsStrain e) :
    f e = f ![e 0, 0, e 2] := by
  have key := const_line (f := fun t => f ![e 0, t * e 1, e 2]) fun t ht ht' => by
    have := along (t := t) (d := ![0, e 1, 0]) (fun t => ![e 0, t * e 1, e 2])
      (fun i => by
        fin_cases i
        · simpa using hasDerivAt_const t (e 0)
        · simpa using (hasDerivAt_id t).mul_const (e 1)
        · simpa using hasDerivAt_const t (e 2)) (hf _ (shear_strain h ht ht')) rfl
    simpa using this
  simp only [one_mul, zero_mul] at key
  rw [← key]
  congr 1
  funext i
  fin_cases i <;> rfl

theorem separable_iff (c : ℝ) (hc : c ≠ 1) (phi : (Fin 3 → ℝ) → ℝ) (g : (Fin 3 → ℝ) → Fin 3 → ℝ)
    (hg : ∀ e, IsStrain e → HasFDerivAt phi (gradL (g e)) e) :
    (∃ psi : (Fin 3 → ℝ) → ℝ, ∀ e, IsStrain e → HasFDerivAt psi (gradL ![g e 0, c * g e 1, g e 2]) e) ↔ Separable phi := by
  have hc' : c - 1 ≠ 0 := sub_ne_zero.2 hc
  constructor
  · rintro ⟨psi, hpsi⟩
    have h1 : ∀ e, IsStrain e → HasFDerivAt (fun e => (c - 1)⁻¹ * (psi e - phi e)) (gradL ![0, g e 1, 0]) e := by
      intro e he
      have := ((hpsi e he).sub (hg e he)).const_mul (c - 1)⁻¹
      refine this.congr_fderiv (gradL_eq fun d => ?_)
      simp only [_root_.smul_apply, _root_.sub_apply, gradL_apply, smul_eq_mul]
      simp
      field_simp
    have h2 : ∀ e, IsStrain e → HasFDerivAt (fun e => phi e - (c - 1)⁻¹ * (psi e - phi e)) (gradL ![g e 0, 0, g e 2]) e := by
      intro e he
      refine ((hg e he).sub (h1 e he)).congr_fderiv (gradL_eq fun d => ?_)
      simp only [_root_.sub_apply, gradL_apply]
      simp
      ring
    refine ⟨fun x z => phi ![x, 0, z] - (c - 1)⁻¹ * (psi ![x, 0, z] - phi ![x, 0, z]),
      fun y => (c - 1)⁻¹ * (psi ![|y|, y, |y|] - phi ![|y|, y, |y|]), fun e he => ?_⟩
    have hs : IsStrain ![|e 1|, e 1, |e 1|] := by
      refine ⟨by simp; positivity, ?_⟩
      simp
      nlinarith [sq_abs (e 1), abs_nonneg (e 1)]
    have k1 := const_slice h1 he hs (by simp)
    have k2 := const_shear h2 he
    dsimp only at k1 k2 ⊢
    rw [k1, ← k2]
    ring
  · rintro ⟨a, b, hab⟩
    refine ⟨fun e => c * phi e - (c - 1) * phi ![e 0, 0, e 2], fun e he => ?_⟩
    have hs : IsStrain ![e 0, 0, e 2] := by simpa using shear_strain he le_rfl zero_le_one
    have hm : HasFDerivAt (fun e : Fin 3 → ℝ => phi ![e 0, 0, e 2])
        (gradL ![g ![e 0, 0, e 2] 0, 0, g ![e 0, 0, e 2] 2]) e := by
      have hp : HasFDerivAt (fun e : Fin 3 → ℝ => ![e 0, 0, e 2])
          (ContinuousLinearMap.pi ![ContinuousLinearMap.proj (R := ℝ) (φ := fun _ : Fin 3 => ℝ) 0, 0,
            ContinuousLinearMap.proj (R := ℝ) (φ := fun _ : Fin 3 => ℝ) 2]) e := by
        rw [hasFDerivAt_pi']
        intro i
        fin_cases i
        · exact hasFDerivAt_apply 0 e
        · exact hasFDerivAt_const (0 : ℝ) e
        · exact hasFDerivAt_apply 2 e
      refine (HasFDerivAt.comp (f := fun e : Fin 3 → ℝ => ![e 0, 0, e 2]) e (hg _ hs) hp).congr_fderiv (gradL_eq fun d => ?_)
      rw [ContinuousLinearMap.comp_apply, gradL_apply]
      simp
    -- the difference depends on the shear strain only
    have hd := (hg e he).sub hm
    have hv : ∀ d : Fin 3 → ℝ, d 1 = 0 → (gradL (g e) - gradL ![g ![e 0, 0, e 2] 0, 0, g ![e 0, 0, e 2] 2]) d = 0 := by
      intro d hd1
      have hl : HasDerivAt (fun t : ℝ => e + t • d) d 0 := by
        simpa using ((hasDerivAt_id (0 : ℝ)).smul_const d).const_add e
      have h0 : e + (0 : ℝ) • d = e := by simp
      have h1 := HasFDerivAt.comp_hasDerivAt (f := fun t : ℝ => e + t • d) (0 : ℝ) (by rw [h0]; exact hd) hl
      have hcont : Filter.Tendsto (fun t : ℝ => e + t • d) (nhds 0) (nhds e) := by
        have := hl.continuousAt.tendsto
        rwa [h0] at this
      have hev : ∀ᶠ t in nhds (0 : ℝ), IsStrain (e + t • d) := hcont (isStrain_open.mem_nhds he)
      have h2 : HasDerivAt (fun _ : ℝ => b (e 1) - b 0) 0 0 := hasDerivAt_const _ _
      refine h1.unique (h2.congr_of_eventuallyEq ?_)
      filter_upwards [hev] with t ht
      have hs' : IsStrain ![(e + t • d) 0, 0, (e + t • d) 2] := by simpa using shear_strain ht le_rfl zero_le_one
      have k1 := hab _ ht
      have k2 := hab _ hs'
      have k3 : (e + t • d) 1 = e 1 := by simp [hd1]
      simp only [Function.comp_apply, Pi.sub_apply]
      rw [k1, k2, k3]
      simp
    have h0 := hv ![1, 0, 0] rfl
    have h2 := hv ![0, 0, 1] rfl
    simp only [_root_.sub_apply, gradL_apply] at h0 h2
    simp at h0 h2
    refine (((hg e he).const_mul c).sub (hm.const_mul (c - 1))).congr_fderiv (gradL_eq fun d => ?_)
    simp only [_root_.smul_apply, _root_.sub_apply, gradL_apply, smul_eq_mul]
    simp
    have k0 : g ![e 0, 0, e 2] 0 = g e 0 := by linarith
    have k2 : g ![e 0, 0, e 2] 2 = g e 2 := by linarith
    rw [k0, k2]
    ring


/-! #### Strain and stress of a deformation gradient -/

/-- `F - I`. -/
def dispGrad (F : Fin 2 → Fin 2 → ℝ) : Fin 2 → Fin 2 → ℝ := fun i j => F i j - if i = j then 1 else 0

theorem disp_add (F : Fin 2 → Fin 2 → ℝ) : of (dispGrad F) + 1 = of F := by
  ext i j
  simp [dispGrad, Matrix.one_apply]

theorem disp_grad (G : Fin 2 → Fin 2 → ℝ) : dispGrad (fun i j => G i j + if i = j then 1 else 0) = G := by
  funext i j
  simp [dispGrad]

theorem stress_eq (g : (Fin 3 → ℝ) → Fin 3 → ℝ) (p0 : Fin 3 → ℝ) (F : Fin 2 → Fin 2 → ℝ) :
    firstPKStress g p0 (dispGrad F) = of F * !![g (greenStrain F) 0 - p0 0, g (greenStrain F) 1 - p0 1;
      g (greenStrain F) 1 - p0 1, g (greenStrain F) 2 - p0 2] := by
  have h : ![((1 / 2 : ℝ) • ((of F).transpose * of F - 1)) 0 0, ((1 / 2 : ℝ) • ((of F).transpose * of F - 1)) 0 1,
      ((1 / 2 : ℝ) • ((of F).transpose * of F - 1)) 1 1] = greenStrain F := by
    funext i
    fin_cases i <;> simp [greenStrain, Matrix.mul_apply, Fin.sum_univ_two] <;> ring
  unfold firstPKStress pk2
  dsimp only
  rw [disp_add, h]

theorem green_strain {F : Fin 2 → Fin 2 → ℝ} (h : F 0 0 * F 1 1 - F 0 1 * F 1 0 ≠ 0) : IsStrain (greenStrain F) := by
  have h2 : 0 < (F 0 0 * F 1 1 - F 0 1 * F 1 0) ^ 2 := by positivity
  refine ⟨?_, ?_⟩
  · have : F 0 0 ≠ 0 ∨ F 1 0 ≠ 0 := by
      by_contra hc
      push Not at hc
      apply h
      rw [hc.1, hc.2]
      ring
    have h3 : 1 + 2 * greenStrain F 0 = F 0 0 ^ 2 + F 1 0 ^ 2 := by simp [greenStrain]; ring
    rw [h3]
    rcases this with h | h <;> positivity
  · have : (1 + 2 * greenStrain F 0) * (1 + 2 * greenStrain F 2) - 4 * greenStrain F 1 ^ 2
        = (F 0 0 * F 1 1 - F 0 1 * F 1 0) ^ 2 := by
      simp [greenStrain]; ring
    linarith

/-- Rate of the strain in the direction `H`. -/
noncomputable def strainRate (F H : Fin 2 → Fin 2 → ℝ) : Fin 3 → ℝ :=
  ![F 0 0 * H 0 0 + F 1 0 * H 1 0, (F 0 0 * H 0 1 + H 0 0 * F 0 1 + (F 1 0 * H 1 1 + H 1 0 * F 1 1)) / 2,
    F 0 1 * H 0 1 + F 1 1 * H 1 1]

theorem poly_deriv (a b c : ℝ) : HasDerivAt (fun t : ℝ => a + b * t + c * t ^ 2) b 0 := by
  have h := (((hasDerivAt_id (0 : ℝ)).const_mul b).const_add a).add (((hasDerivAt_id (0 : ℝ)).pow 2).const_mul c)
  refine h.congr_deriv ?_
  simp

theorem green_deriv (F : Fin 2 → Fin 2 → ℝ) : ∃ L : (Fin 2 → Fin 2 → ℝ) →L[ℝ] (Fin 3 → ℝ), HasFDerivAt greenStrain L F ∧
    ∀ H, L H = strainRate F H := by
  have hd : DifferentiableAt ℝ greenStrain F := by
    refine differentiableAt_pi.2 fun i => ?_
    fin_cases i <;> simp only [greenStrain] <;> simp <;> fun_prop
  refine ⟨fderiv ℝ greenStrain F, hd.hasFDerivAt, fun H => ?_⟩
  have hl : HasDerivAt (fun t : ℝ => F + t • H) H 0 := by
    simpa using ((hasDerivAt_id (0 : ℝ)).smul_const H).const_add F
  have h0 : F + (0 : ℝ) • H = F := by simp
  have h1 := HasFDerivAt.comp_hasDerivAt (f := fun t : ℝ => F + t • H) (0 : ℝ) (by rw [h0]; exact hd.hasFDerivAt) hl
  have h2 := hasDerivAt_pi.1 h1
  funext i
  refine (h2 i).unique ?_
  fin_cases i
  · refine (poly_deriv (greenStrain F 0) (strainRate F H 0) ((H 0 0 ^ 2 + H 1 0 ^ 2) / 2)).congr_of_eventuallyEq
      (Filter.Eventually.of_forall fun t => ?_)
    simp [greenStrain, strainRate]
    ring
  · refine (poly_deriv (greenStrain F 1) (strainRate F H 1) ((H 0 0 * H 0 1 + H 1 0 * H 1 1) / 2)).congr_of_eventuallyEq
      (Filter.Eventually.of_forall fun t => ?_)
    simp [greenStrain, strainRate]
    ring
  · refine (poly_deriv (greenStrain F 2) (strainRate F H 2) ((H 0 1 ^ 2 + H 1 1 ^ 2) / 2)).congr_of_eventuallyEq
      (Filter.Eventually.of_forall fun t => ?_)
    simp [greenStrain, strainRate]
    ring

/-- The power of the stress `F S` is the power of `S` on the strain. -/
theorem power_eq (s : Fin 3 → ℝ) (F H : Fin 2 → Fin 2 → ℝ) :
    ∑ i, ∑ j, (of F * !![s 0, s 1; s 1, s 2]) i j * H i j
      = s 0 * strainRate F H 0 + 2 * s 1 * strainRate F H 1 + s 2 * strainRate F H 2 := by
  simp [Fin.sum_univ_two, Matrix.mul_apply, strainRate]
  ring

/-- Upper triangular factor of `I + 2 E`. -/
noncomputable def chol (e : Fin 3 → ℝ) : Fin 2 → Fin 2 → ℝ :=
  ![![Real.sqrt (1 + 2 * e 0), 2 * e 1 / Real.sqrt (1 + 2 * e 0)],
    ![0, Real.sqrt (1 + 2 * e 2 - 4 * e 1 ^ 2 / (1 + 2 * e 0))]]

theorem chol_pos {e : Fin 3 → ℝ} (h : IsStrain e) : 0 < 1 + 2 * e 2 - 4 * e 1 ^ 2 / (1 + 2 * e 0) := by
  rw [sub_pos, div_lt_iff₀ h.1]
  linarith [h.2]

theorem chol_green {e : Fin 3 → ℝ} (h : IsStrain e) : greenStrain (chol e) = e := by
  have h1 := Real.sqrt_pos.2 h.1
  have e1 := Real.sq_sqrt h.1.le
  have e2 := Real.sq_sqrt (chol_pos h).le
  funext i
  fin_cases i
  · simp only [greenStrain, chol]
    simp
    rw [e1]
    ring
  · simp only [greenStrain, chol]
    simp
    field_simp
  · simp only [greenStrain, chol]
    simp
    rw [div_pow, e1, e2]
    ring

theorem chol_det {e : Fin 3 → ℝ} (h : IsStrain e) : 0 < chol e 0 0 * chol e 1 1 - chol e 0 1 * chol e 1 0 := by
  simp only [chol]
  simp
  exact mul_pos (Real.sqrt_pos.2 h.1) (Real.sqrt_pos.2 (chol_pos h))

theorem chol_diff {e : Fin 3 → ℝ} (h : IsStrain e) : DifferentiableAt ℝ chol e := by
  have h1 : (1 + 2 * e 0) ≠ 0 := h.1.ne'
  have h2 := (chol_pos h).ne'
  have h3 : Real.sqrt (1 + 2 * e 0) ≠ 0 := (Real.sqrt_pos.2 h.1).ne'
  have d1 : DifferentiableAt ℝ (fun e : Fin 3 → ℝ => Real.sqrt (1 + 2 * e 0)) e :=
    DifferentiableAt.sqrt (by fun_prop) h1
  have n1 : DifferentiableAt ℝ (fun e : Fin 3 → ℝ => 2 * e 1) e := by fun_prop
  have n2 : DifferentiableAt ℝ (fun e : Fin 3 → ℝ => 1 + 2 * e 2) e := by fun_prop
  have n3 : DifferentiableAt ℝ (fun e : Fin 3 → ℝ => 4 * e 1 ^ 2) e := by fun_prop
  have n4 : DifferentiableAt ℝ (fun e : Fin 3 → ℝ => 1 + 2 * e 0) e := by fun_prop
  refine differentiableAt_pi.2 fun i => differentiableAt_pi.2 fun j => ?_
  fin_cases i <;> fin_cases j <;> simp only [chol] <;> simp
  · exact d1
  · simp only [div_eq_mul_inv]
    exact n1.fun_mul (d1.fun_inv h3)
  · have n5 : DifferentiableAt ℝ (fun e : Fin 3 → ℝ => 4 * e 1 ^ 2 / (1 + 2 * e 0)) e := by
      simp only [div_eq_mul_inv]
      exact n3.fun_mul (n4.fun_inv h1)
    exact DifferentiableAt.sqrt (n2.fun_sub n5) h2

/-- A law `P = F S(E)` is hyperelastic exactly if the components `S₀₀`, `2 S₀₁`, `S₁₁` are the derivatives of a function of the strain. -/
theorem hyperelastic_iff (s : (Fin 3 → ℝ) → Fin 3 → ℝ) (P : (Fin 2 → Fin 2 → ℝ) → Fin 2 → Fin 2 → ℝ)
    (h : ∀ F i j, P F i j
      = (of F * !![s (greenStrain F) 0, s (greenStrain F) 1; s (greenStrain F) 1, s (greenStrain F) 2]) i j) :
    IsHyperelastic P ↔
      ∃ psi : (Fin 3 → ℝ) → ℝ, ∀ e, IsStrain e → HasFDerivAt psi (gradL ![s e 0, 2 * s e 1, s e 2]) e := by
  constructor
  · rintro ⟨W, hW⟩
    refine ⟨fun e => W (chol e), fun e he => ?_⟩
    obtain ⟨L, hL, hP⟩ := hW (chol e) (chol_det he)
    have hc := (chol_diff he).hasFDerivAt
    refine (HasFDerivAt.comp e hL hc).congr_fderiv (gradL_eq fun d => ?_)
    rw [ContinuousLinearMap.comp_apply, hP]
    simp only [h]
    rw [power_eq, chol_green he]
    obtain ⟨G, hG, hGr⟩ := green_deriv (chol e)
    have hid : HasFDerivAt (fun e => greenStrain (chol e)) (ContinuousLinearMap.id ℝ (Fin 3 → ℝ)) e := by
      refine (hasFDerivAt_id e).congr_of_eventuallyEq ?_
      filter_upwards [isStrain_open.mem_nhds he] with y hy
      exact chol_green hy
    have hu := (HasFDerivAt.comp e hG hc).unique hid
    have hd : strainRate (chol e) (fderiv ℝ chol e d) = d := by
      rw [← hGr]
      exact congrArg (fun M : (Fin 3 → ℝ) →L[ℝ] (Fin 3 → ℝ) => M d) hu
    rw [hd]
    simp
  · rintro ⟨psi, hpsi⟩
    refine ⟨fun F => psi (greenStrain F), fun F hF => ?_⟩
    obtain ⟨G, hG, hGr⟩ := green_deriv F
    refine ⟨_, HasFDerivAt.comp F (hpsi _ (green_strain hF.ne')) hG, fun H => ?_⟩
    simp only [h]
    rw [ContinuousLinearMap.comp_apply, gradL_apply, hGr, power_eq]
    simp

theorem separable_shift (phi : (Fin 3 → ℝ) → ℝ) (p : Fin 3 → ℝ) :
    Separable (fun e => phi e - (p 0 * e 0 + p 1 * e 1 + p 2 * e 2)) ↔ Separable phi := by
  constructor
  · rintro ⟨a, b, h⟩
    refine ⟨fun x z => a x z + p 0 * x + p 2 * z, fun y => b y + p 1 * y, fun e he => ?_⟩
    have := h e he
    dsimp only at this ⊢
    linarith
  · rintro ⟨a, b, h⟩
    refine ⟨fun x z => a x z - p 0 * x - p 2 * z, fun y => b y - p 1 * y, fun e he => ?_⟩
    have := h e he
    dsimp only at this ⊢
    linarith

theorem grad_of {phi : (Fin 3 → ℝ) → ℝ} {v e : Fin 3 → ℝ}
    (h : ∃ L : (Fin 3 → ℝ) →L[ℝ] ℝ, HasFDerivAt phi L e ∧ ∀ d, L d = ∑ i, v i * d i) : HasFDerivAt phi (gradL v) e := by
  obtain ⟨L, hL, hd⟩ := h
  exact hL.congr_fderiv (gradL_eq fun d => by rw [hd, Fin.sum_univ_three])

theorem network_gradL {w : Nat} (p : Params w) (e : Fin 3 → ℝ) :
    HasFDerivAt (fun x => network p x 0) (gradL (inputGradient p e)) e :=
  grad_of (C96_network p e).2.1

/-! ### Property theorems -/

/-- C96. For all weights the law is frame indifferent: a rotation of the deformed body rotates the stress. -/
theorem C96_frame {w : Nat} (p : Params w) (Q F : Matrix (Fin 2) (Fin 2) ℝ) (hQ : Q.transpose * Q = 1) :
    stress p (fun i j => (Q * F) i j - (1 : Matrix (Fin 2) (Fin 2) ℝ) i j)
      = Q * of (stress p fun i j => F i j - (1 : Matrix (Fin 2) (Fin 2) ℝ) i j) := by
  have e : ∀ A : Matrix (Fin 2) (Fin 2) ℝ, (fun i j => A i j - (1 : Matrix (Fin 2) (Fin 2) ℝ) i j) = dispGrad A := by
    intro A
    funext i j
    simp [dispGrad, Matrix.one_apply]
  have hc : (Q * F).transpose * (Q * F) = F.transpose * F := by
    rw [Matrix.transpose_mul, Matrix.mul_assoc, ← Matrix.mul_assoc Q.transpose, hQ, Matrix.one_mul]
  have hg : greenStrain (Q * F) = greenStrain F := by
    have h : ∀ A : Matrix (Fin 2) (Fin 2) ℝ, greenStrain A = ![((A.transpose * A) 0 0 - 1) / 2, (A.transpose * A) 0 1 / 2,
        ((A.transpose * A) 1 1 - 1) / 2] := by
      intro A
      funext i
      fin_cases i <;> simp [greenStrain, Matrix.mul_apply, Fin.sum_univ_two] <;> ring
    rw [h, h, hc]
  rw [e, e]
  unfold stress
  refine (stress_eq _ _ (Q * F)).trans ?_
  refine Eq.trans ?_ (congrArg (fun M : Matrix (Fin 2) (Fin 2) ℝ => Q * M) (stress_eq _ _ F)).symm
  rw [hg]
  exact Matrix.mul_assoc Q F _

/-- C96. For all weights `P Fᵀ` (the Kirchhoff stress) is symmetric. -/
theorem C96_moment {w : Nat} (p : Params w) (G : Fin 2 → Fin 2 → ℝ) :
    (of (stress p G) * (1 + of G).transpose).transpose = of (stress p G) * (1 + of G).transpose := by
  have key : ∀ F : Fin 2 → Fin 2 → ℝ, (of (stress p (dispGrad F)) * (of F).transpose).transpose
      = of (stress p (dispGrad F)) * (of F).transpose := by
    intro F
    have h := stress_eq (inputGradient p) (inputGradient p ![0, 0, 0]) F
    have h' : of (stress p (dispGrad F)) = of F * _ := h
    rw [h', Matrix.transpose_mul, Matrix.transpose_mul, Matrix.transpose_transpose, Matrix.mul_assoc]
    congr 2
    ext i j
    fin_cases i <;> fin_cases j <;> rfl
  have e2 : (1 : Matrix (Fin 2) (Fin 2) ℝ) + of G = of (fun i j => G i j + if i = j then 1 else 0) := by
    ext i j
    simp [Matrix.one_apply, add_comm]
  have := key fun i j => G i j + if i = j then 1 else 0
  rw [disp_grad] at this
  rw [e2]
  exact this

/-- C96. For all weights the undeformed body and every rotation of it are free of stress: `p_initial` is subtracted. -/
theorem C96_reference {w : Nat} (p : Params w) :
    stress p (fun _ _ => 0) = (fun _ _ => 0) ∧
    ∀ R : Matrix (Fin 2) (Fin 2) ℝ, R.transpose * R = 1 →
      stress p (fun i j => R i j - (1 : Matrix (Fin 2) (Fin 2) ℝ) i j) = fun _ _ => 0 := by
  have h0 : stress p (fun _ _ => 0) = (fun _ _ => 0) := by
    have e : (fun _ _ => 0 : Fin 2 → Fin 2 → ℝ) = dispGrad (fun i j => if i = j then 1 else 0) := by
      funext i j
      simp [dispGrad]
    have hg : greenStrain (fun i j => if i = j then 1 else 0) = ![0, 0, 0] := by
      funext i
      fin_cases i <;> simp [greenStrain]
    conv_lhs => rw [e]
    unfold stress
    rw [stress_eq, hg]
    funext i j
    simp only [sub_self]
    fin_cases i <;> fin_cases j <;> simp [Matrix.mul_apply]
  refine ⟨h0, fun R hR => ?_⟩
  have := C96_frame p R 1 hR
  rw [Matrix.mul_one] at this
  rw [this]
  have e : (fun i j => (1 : Matrix (Fin 2) (Fin 2) ℝ) i j - (1 : Matrix (Fin 2) (Fin 2) ℝ) i j) = fun _ _ => (0 : ℝ) := by
    funext i j; simp
  rw [e, h0]
  funext i j
  simp [Matrix.mul_apply]

/-- C96. Where the law agrees with the energy it was derived from: at an invertible deformation gradient the stress is the
derivative of `Φ(E) - p₀·E` (the network without its initial gradient) exactly if the shear component `∂Φ/∂E₀₁ - p₀₁` vanishes there.
The derivative of the network with respect to `E₀₁` counts both shear components of the strain, the stress uses it in both. -/
theorem C96_energy {w : Nat} (p : Params w) (F : Fin 2 → Fin 2 → ℝ) (hF : F 0 0 * F 1 1 - F 0 1 * F 1 0 ≠ 0) :
    (∃ L : (Fin 2 → Fin 2 → ℝ) →L[ℝ] ℝ,
      HasFDerivAt (fun F => network p (greenStrain F) 0 - ∑ i, inputGradient p ![0, 0, 0] i * greenStrain F i) L F ∧
      ∀ H, L H = ∑ i, ∑ j, stress p (fun i j => F i j - if i = j then 1 else 0) i j * H i j) ↔
    inputGradient p (greenStrain F) 1 = inputGradient p ![0, 0, 0] 1 := by
  set p0 := inputGradient p ![0, 0, 0] with hp0
  obtain ⟨G, hG, hGr⟩ := green_deriv F
  have h1 := (network_gradL p (greenStrain F)).sub (linear_grad p0 (greenStrain F))
  have h2 := HasFDerivAt.comp F h1 hG
  have ef : (fun F => network p (greenStrain F) 0 - ∑ i, p0 i * greenStrain F i)
      = ((fun x => network p x 0) - fun e => p0 0 * e 0 + p0 1 * e 1 + p0 2 * e 2) ∘ greenStrain := by
    funext F
    simp [Fin.sum_univ_three]
  rw [ef]
  have hpow : ∀ H, ∑ i, ∑ j, stress p (dispGrad F) i j * H i j = (inputGradient p (greenStrain F) 0 - p0 0) * strainRate F H 0
      + 2 * (inputGradient p (greenStrain F) 1 - p0 1) * strainRate F H 1
      + (inputGradient p (greenStrain F) 2 - p0 2) * strainRate F H 2 := by
    intro H
    unfold stress
    rw [stress_eq]
    exact power_eq (fun i => inputGradient p (greenStrain F) i - p0 i) F H
  have hL : ∀ H, ((gradL (inputGradient p (greenStrain F)) - gradL p0).comp G) H
      = (inputGradient p (greenStrain F) 0 - p0 0) * strainRate F H 0
      + (inputGradient p (greenStrain F) 1 - p0 1) * strainRate F H 1
      + (inputGradient p (greenStrain F) 2 - p0 2) * strainRate F H 2 := by
    intro H
    rw [ContinuousLinearMap.comp_apply, _root_.sub_apply, gradL_apply, gradL_apply, hGr]
    ring
  constructor
  · rintro ⟨L, hd, hH⟩
    have hu := hd.unique h2
    have k := hH ![![F 0 1, F 0 0], ![F 1 1, F 1 0]]
    rw [hu, hL] at k
    have k' := k.trans (hpow _)
    have hs : strainRate F ![![F 0 1, F 0 0], ![F 1 1, F 1 0]] 1 ≠ 0 := by
      have : strainRate F ![![F 0 1, F 0 0], ![F 1 1, F 1 0]] 1 = (F 0 0 ^ 2 + F 0 1 ^ 2 + F 1 0 ^ 2 + F 1 1 ^ 2) / 2 := by
        simp [strainRate]; ring
      rw [this]
      intro h0
      apply hF
      have e1 : F 0 0 ^ 2 + F 0 1 ^ 2 + F 1 0 ^ 2 + F 1 1 ^ 2 = 0 := by linarith
      have a : F 0 0 = 0 := by nlinarith [sq_nonneg (F 0 0), sq_nonneg (F 0 1), sq_nonneg (F 1 0), sq_nonneg (F 1 1)]
      have b : F 1 0 = 0 := by nlinarith [sq_nonneg (F 0 0), sq_nonneg (F 0 1), sq_nonneg (F 1 0), sq_nonneg (F 1 1)]
      rw [a, b]; ring
    have : (inputGradient p (greenStrain F) 1 - p0 1) * strainRate F ![![F 0 1, F 0 0], ![F 1 1, F 1 0]] 1 = 0 := by linarith
    exact sub_eq_zero.1 ((mul_eq_zero.1 this).resolve_right hs)
  · intro h
    refine ⟨_, h2, fun H => ?_⟩
    rw [hL]
    refine Eq.trans ?_ (hpow H).symm
    rw [h]
    ring

/-- C96. The law is hyperelastic (the derivative of some energy on the deformation gradients with positive determinant) exactly if the
network is, on the strains of deformations, a sum of a function of the normal strains and a function of the shear strain. -/
theorem C96_hyperelastic {w : Nat} (p : Params w) :
    IsHyperelastic (fun F => stress p fun i j => F i j - if i = j then 1 else 0) ↔ Separable fun e => network p e 0 := by
  refine Iff.trans (hyperelastic_iff (fun e i => inputGradient p e i - inputGradient p ![0, 0, 0] i) _
    fun F i j => congrFun (congrFun (stress_eq (inputGradient p) (inputGradient p ![0, 0, 0]) F) i) j) ?_
  set p0 := inputGradient p ![0, 0, 0]
  rw [← separable_shift (fun e => network p e 0) p0]
  refine separable_iff 2 (by norm_num) _ (fun e i => inputGradient p e i - p0 i) fun e _ => ?_
  refine ((network_gradL p e).sub (linear_grad p0 e)).congr_fderiv (gradL_eq fun d => ?_)
  rw [_root_.sub_apply, gradL_apply, gradL_apply]
  ring

/-- C96. What the training asks for: let `S` be the stress of an energy `psi` of the strain. There is a differentiable function whose gradient is
the label (`S₀₀`, `S₁₀`, `S₁₁`) at every strain exactly if `psi` is a sum of a function of the normal strains and a function of the shear strain. -/
theorem C96_fit (S : (Fin 3 → ℝ) → Fin 2 → Fin 2 → ℝ) (psi : (Fin 3 → ℝ) → ℝ) (hS : IsStressOf S psi) :
    (∃ phi : (Fin 3 → ℝ) → ℝ, ∀ e, IsStrain e → ∃ L : (Fin 3 → ℝ) →L[ℝ] ℝ, HasFDerivAt phi L e ∧
      ∀ d, L d = ∑ i, label (S e) i * d i) ↔ Separable psi := by
  have hg : ∀ e, IsStrain e → HasFDerivAt psi (gradL ![S e 0 0, 2 * S e 1 0, S e 1 1]) e := by
    intro e he
    obtain ⟨hs, L, hL, hd⟩ := hS e he
    refine hL.congr_fderiv (gradL_eq fun d => ?_)
    rw [hd]
    simp [Fin.sum_univ_two, hs]
    ring
  rw [← separable_iff (1 / 2) (by norm_num) psi (fun e => ![S e 0 0, 2 * S e 1 0, S e 1 1]) hg]
  have hv : ∀ e, ![(![S e 0 0, 2 * S e 1 0, S e 1 1] : Fin 3 → ℝ) 0, 1 / 2 * (![S e 0 0, 2 * S e 1 0, S e 1 1] : Fin 3 → ℝ) 1,
      (![S e 0 0, 2 * S e 1 0, S e 1 1] : Fin 3 → ℝ) 2] = label (S e) := by
    intro e
    funext i
    fin_cases i <;> simp [label]
  simp only [hv]
  refine exists_congr fun phi => forall_congr' fun e => imp_congr_right fun _ => ?_
  constructor
  · exact grad_of
  · intro h
    exact ⟨_, h, fun d => by rw [gradL_apply, Fin.sum_univ_three]⟩

/-- C96. No weights reproduce the stress of a nonseparable energy at all strains, however wide the network is. -/
theorem C96_unfit {w : Nat} (S : (Fin 3 → ℝ) → Fin 2 → Fin 2 → ℝ) (psi : (Fin 3 → ℝ) → ℝ) (hS : IsStressOf S psi)
    (h : ¬ Separable psi) (p : Params w) : ∃ e, IsStrain e ∧ inputGradient p e ≠ label (S e) := by
  by_contra hc
  push Not at hc
  apply h
  rw [← C96_fit S psi hS]
  refine ⟨fun x => network p x 0, fun e he => ?_⟩
  rw [← hc e he]
  exact (C96_network p e).2.1

/-! ### Examples -/

/-- The St. Venant–Kirchhoff solid is separable: the network can learn its stress. -/
theorem C96_svk (lam mu : ℝ) : IsStressOf (svkStress lam mu) (svkEnergy lam mu) ∧ Separable (svkEnergy lam mu) := by
  refine ⟨fun e _ => ⟨rfl, ?_⟩, fun x z => lam / 2 * (x + z) ^ 2 + mu * (x ^ 2 + z ^ 2), fun y => 2 * mu * y ^ 2, fun e _ => ?_⟩
  · have hd : DifferentiableAt ℝ (svkEnergy lam mu) e := by
      unfold svkEnergy; fun_prop
    refine ⟨_, hd.hasFDerivAt, fun d => ?_⟩
    have hl : HasDerivAt (fun t : ℝ => e + t • d) d 0 := by
      simpa using ((hasDerivAt_id (0 : ℝ)).smul_const d).const_add e
    have h0 : e + (0 : ℝ) • d = e := by simp
    have h1 := HasFDerivAt.comp_hasDerivAt (f := fun t : ℝ => e + t • d) (0 : ℝ) (by rw [h0]; exact hd.hasFDerivAt) hl
    refine h1.unique ((poly_deriv (svkEnergy lam mu e) _ (svkEnergy lam mu d)).congr_of_eventuallyEq
      (Filter.Eventually.of_forall fun t => ?_))
    simp [svkEnergy, svkStress, Fin.sum_univ_two]
    ring
  · simp only [svkEnergy]
    ring

/-- An energy of the change of area is not separable: no network learns its stress. -/
theorem C96_area : IsStressOf areaStress areaEnergy ∧ ¬ Separable areaEnergy := by
  refine ⟨fun e _ => ⟨rfl, ?_⟩, ?_⟩
  · have hd : DifferentiableAt ℝ areaEnergy e := by
      unfold areaEnergy; fun_prop
    refine ⟨_, hd.hasFDerivAt, fun d => ?_⟩
    have hl : HasDerivAt (fun t : ℝ => e + t • d) d 0 := by
      simpa using ((hasDerivAt_id (0 : ℝ)).smul_const d).const_add e
    have h0 : e + (0 : ℝ) • d = e := by simp
    have h1 := HasFDerivAt.comp_hasDerivAt (f := fun t : ℝ => e + t • d) (0 : ℝ) (by rw [h0]; exact hd.hasFDerivAt) hl
    set k := (1 + 2 * e 0) * (1 + 2 * e 2) - 4 * e 1 ^ 2 - 1 with hk
    set a := 2 * d 0 * (1 + 2 * e 2) + 2 * d 2 * (1 + 2 * e 0) - 8 * e 1 * d 1 with ha
    set b := 4 * d 0 * d 2 - 4 * d 1 ^ 2 with hb
    have h2 : HasDerivAt (fun t : ℝ => (k + a * t + b * t ^ 2) ^ 2 / 4) (k * a / 2) 0 := by
      refine (((poly_deriv k a b).pow 2).div_const 4).congr_deriv ?_
      simp
      ring
    refine (h1.unique (h2.congr_of_eventuallyEq (Filter.Eventually.of_forall fun t => ?_))).trans ?_
    · simp [areaEnergy, hk, ha, hb]
      ring
    · simp [areaStress, Fin.sum_univ_two, ← hk, ha]
      ring
  · rintro ⟨a, b, h⟩
    have h1 := h ![0, 0, 0] (by constructor <;> simp)
    have h2 := h ![1, 0, 0] (by constructor <;> simp <;> norm_num)
    have h3 := h ![0, 1 / 4, 0] (by constructor <;> simp <;> norm_num)
    have h4 := h ![1, 1 / 4, 0] (by constructor <;> simp <;> norm_num)
    simp [areaEnergy] at h1 h2 h3 h4
    norm_num at h1 h2 h3 h4
    linarith

example (p : Params 128) : ∃ e, IsStrain e ∧ inputGradient p e ≠ label (areaStress e) :=
  C96_unfit areaStress areaEnergy C96_area.1 C96_area.2 p

/-- Weights with one unit per layer: all kernels 1, all biases 0. -/
def onesParams : Params 1 where
  kernel0 := fun _ _ => 1
  bias0 := fun _ => 0
  kernel1 := fun _ _ => 1
  bias1 := fun _ => 0
  kernel2 := fun _ _ => 1
  bias2 := fun _ => 0
  kernel3 := fun _ _ => 1
  bias3 := fun _ => 0

/-- C96. Both cases occur: the law of `unitParams` is hyperelastic, the law of `onesParams` is not, it does work in closed cycles. -/
theorem C96_cases : IsHyperelastic (fun F => stress unitParams fun i j => F i j - if i = j then 1 else 0) ∧
    ¬ IsHyperelastic (fun F => stress onesParams fun i j => F i j - if i = j then 1 else 0) := by
  rw [C96_hyperelastic, C96_hyperelastic]
  constructor
  · refine ⟨fun x _ => elu (elu (elu x)), fun _ => 0, fun e _ => ?_⟩
    simp [network, dense, unitParams]
  · rintro ⟨a, b, h⟩
    have hn : ∀ e, network onesParams e 0 = elu (elu (elu (e 0 + e 1 + e 2))) := by
      intro e
      simp [network, dense, onesParams, Fin.sum_univ_three]
    simp only [hn] at h
    have h1 := h ![0, 0, 0] (by constructor <;> simp)
    have h2 := h ![-1 / 4, 0, 0] (by constructor <;> simp <;> norm_num)
    have h3 := h ![0, 1 / 4, 0] (by constructor <;> simp <;> norm_num)
    have h4 := h ![-1 / 4, 1 / 4, 0] (by constructor <;> simp <;> norm_num)
    simp only [cons_val_zero, cons_val_one, cons_val, add_zero, zero_add] at h1 h2 h3 h4
    have e0 : elu 0 = 0 := by simp [elu]
    have e1 : elu (1 / 4) = 1 / 4 := by norm_num [elu]
    have hlt : ∀ x : ℝ, x < 0 → x < elu x ∧ elu x < 0 := by
      intro x hx
      have : elu x = Real.exp x - 1 := by simp [elu, not_lt.2 hx.le]
      rw [this]
      have k1 := Real.add_one_lt_exp hx.ne
      have k2 : Real.exp x < 1 := Real.exp_zero ▸ Real.exp_lt_exp.2 hx
      constructor <;> linarith
    have k1 := hlt (-1 / 4) (by norm_num)
    have k2 := hlt _ k1.2
    have k3 := hlt _ k2.2
    rw [show (-1 / 4 + 1 / 4 : ℝ) = 0 by norm_num] at h4
    rw [e0, e0, e0] at h1 h4
    rw [e1, e1, e1] at h3
    linarith [k1.1, k2.1, k3.1]

end JaxFem.Surrogate
