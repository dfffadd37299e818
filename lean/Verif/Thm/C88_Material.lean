import Verif.Model.Hyper
import Verif.Model.Elastic
import Verif.Spec.Hyper
import Verif.Thm.C84_MeshGradient
import Verif.Thm.C87_Stress
import Mathlib.LinearAlgebra.Matrix.Charpoly.Coeff
import Mathlib.Analysis.SpecialFunctions.Pow.Deriv
import Mathlib.Analysis.MeanInequalities
import Mathlib.Analysis.Matrix.PosDef
import Mathlib.Analysis.Calculus.Deriv.Polynomial
import Mathlib.Algebra.Order.Star.Real

/-!
# C88: neo-Hookean solids — energy and stress
-/

namespace JaxFem.Hyper

open Fracture (conL con_single con_add con_smul con_sub)

variable {n : Nat}

/-! ### Helper lemmas -/

theorem hasFDerivAt_det (F : Fin n → Fin n → ℝ) (h : (Matrix.of F).det ≠ 0) :
    HasFDerivAt (fun x : Fin n → Fin n → ℝ => (Matrix.of x).det)
      (conL fun i j => (Matrix.of F).det * (Matrix.of F)⁻¹ j i) F := by
  have hd : DifferentiableAt ℝ (fun x : Fin n → Fin n → ℝ => (Matrix.of x).det) F :=
    (contDiffAt_det (fun x : Fin n → Fin n → ℝ => Matrix.of x) F fun i j =>
      contDiffAt_pi.1 (contDiffAt_pi.1 contDiffAt_id i) j).differentiableAt one_ne_zero
  have key : ∀ H : Fin n → Fin n → ℝ, fderiv ℝ (fun x : Fin n → Fin n → ℝ => (Matrix.of x).det) F H
      = contract (fun i j => (Matrix.of F).det * (Matrix.of F)⁻¹ j i) H := by
    intro H
    have h1 : HasDerivAt (fun t : ℝ => F + t • H) H 0 := by
      have := ((hasDerivAt_id (0 : ℝ)).smul_const H).const_add F
      simpa using this
    have hF : F + (0 : ℝ) • H = F := by simp
    have h2 := HasFDerivAt.comp_hasDerivAt (f := fun t : ℝ => F + t • H) (0 : ℝ) (by rw [hF]; exact hd.hasFDerivAt) h1
    have e : ((fun x : Fin n → Fin n → ℝ => (Matrix.of x).det) ∘ fun t : ℝ => F + t • H)
        = fun t => (Matrix.of F).det * (1 + ((Matrix.of F)⁻¹ * Matrix.of H).trace * t
          + (Matrix.det (1 + (Polynomial.X : Polynomial ℝ) • ((Matrix.of F)⁻¹ * Matrix.of H).map Polynomial.C)).divX.divX.eval t
            * t ^ 2) := by
      funext t
      rw [← Matrix.det_one_add_smul, ← Matrix.det_mul, Matrix.mul_add, Matrix.mul_one, Matrix.mul_smul, ← Matrix.mul_assoc,
        Matrix.mul_nonsing_inv _ h.isUnit, Matrix.one_mul]
      rfl
    have h3 : HasDerivAt (fun t : ℝ => (Matrix.of F).det * (1 + ((Matrix.of F)⁻¹ * Matrix.of H).trace * t
          + (Matrix.det (1 + (Polynomial.X : Polynomial ℝ) • ((Matrix.of F)⁻¹ * Matrix.of H).map Polynomial.C)).divX.divX.eval t
            * t ^ 2)) ((Matrix.of F).det * ((Matrix.of F)⁻¹ * Matrix.of H).trace) 0 := by
      have a := ((hasDerivAt_id (0 : ℝ)).const_mul ((Matrix.of F)⁻¹ * Matrix.of H).trace).const_add 1
      have b := (Polynomial.hasDerivAt (Matrix.det (1 + (Polynomial.X : Polynomial ℝ) •
        ((Matrix.of F)⁻¹ * Matrix.of H).map Polynomial.C)).divX.divX (0 : ℝ)).mul ((hasDerivAt_id (0 : ℝ)).fun_pow 2)
      have c := (a.add b).const_mul (Matrix.of F).det
      refine c.congr_deriv ?_
      simp
    rw [e] at h2
    rw [h2.unique h3, Matrix.trace, contract, Finset.sum_comm, Finset.mul_sum]
    refine Finset.sum_congr rfl fun i _ => ?_
    simp only [Matrix.diag_apply, Matrix.mul_apply, Matrix.of_apply, Finset.mul_sum, mul_assoc]
  have := hd.hasFDerivAt
  have e : fderiv ℝ (fun x : Fin n → Fin n → ℝ => (Matrix.of x).det) F
      = conL fun i j => (Matrix.of F).det * (Matrix.of F)⁻¹ j i := by
    ext H
    exact key H
  rwa [e] at this

theorem trace_eq (F : Matrix (Fin n) (Fin n) ℝ) : (F.transpose * F).trace = ∑ i, ∑ j, F i j ^ 2 := by
  rw [Finset.sum_comm, Matrix.trace]
  refine Finset.sum_congr rfl fun i _ => ?_
  simp only [Matrix.diag_apply, Matrix.mul_apply, Matrix.transpose_apply]
  exact Finset.sum_congr rfl fun j _ => (sq _).symm

theorem hasFDerivAt_sq (F : Fin n → Fin n → ℝ) :
    HasFDerivAt (fun x : Fin n → Fin n → ℝ => ∑ i, ∑ j, x i j ^ 2) (conL fun i j => 2 * F i j) F := by
  have h : HasFDerivAt (fun x : Fin n → Fin n → ℝ => ∑ i, ∑ j, x i j ^ 2)
      (∑ i, ∑ j, (2 * F i j) • ((ContinuousLinearMap.proj (R := ℝ) (φ := fun _ : Fin n => ℝ) j).comp
        (ContinuousLinearMap.proj (R := ℝ) (φ := fun _ : Fin n => Fin n → ℝ) i))) F := by
    refine HasFDerivAt.fun_sum fun i _ => HasFDerivAt.fun_sum fun j _ => ?_
    have h1 : HasFDerivAt (fun x : Fin n → Fin n → ℝ => x i j)
        ((ContinuousLinearMap.proj (R := ℝ) (φ := fun _ : Fin n => ℝ) j).comp
          (ContinuousLinearMap.proj (R := ℝ) (φ := fun _ : Fin n => Fin n → ℝ) i)) F :=
      ((ContinuousLinearMap.proj (R := ℝ) (φ := fun _ : Fin n => ℝ) j).comp
          (ContinuousLinearMap.proj (R := ℝ) (φ := fun _ : Fin n => Fin n → ℝ) i)).hasFDerivAt
    have := h1.pow 2
    simpa using this
  refine h.congr_fderiv ?_
  ext H
  simp [conL, contract]

theorem psi_eq (d mu kappa : ℝ) (F : Fin n → Fin n → ℝ) :
    psi d mu kappa F = mu / 2 * ((Matrix.of F).det ^ (-2 / d) * (∑ i, ∑ j, F i j ^ 2) - d)
      + kappa / 2 * ((Matrix.of F).det - 1) ^ 2 := by
  simp only [psi, trace_eq, Matrix.of_apply]

theorem psi_deriv (d mu kappa : ℝ) (F : Fin n → Fin n → ℝ) (h : 0 < (Matrix.of F).det ∨ (d = 2 ∧ (Matrix.of F).det ≠ 0)) :
    HasFDerivAt (psi d mu kappa) (conL fun i j => neoHookePiola d mu kappa (Matrix.of F) i j) F := by
  have h0 : (Matrix.of F).det ≠ 0 := h.elim ne_of_gt And.right
  have hd := hasFDerivAt_det F h0
  have hp : HasFDerivAt (fun x : Fin n → Fin n → ℝ => (Matrix.of x).det ^ (-2 / d)) _ F :=
    hd.rpow_const (p := -2 / d) (.inl h0)
  have := (((hp.mul (hasFDerivAt_sq F)).sub_const d).const_mul (mu / 2)).add (((hd.sub_const 1).pow 2).const_mul (kappa / 2))
  have e : (psi d mu kappa : (Fin n → Fin n → ℝ) → ℝ) = fun F => mu / 2 * ((Matrix.of F).det ^ (-2 / d) * (∑ i, ∑ j, F i j ^ 2) - d)
      + kappa / 2 * ((Matrix.of F).det - 1) ^ 2 := funext fun F => psi_eq d mu kappa F
  rw [e]
  refine this.congr_fderiv ?_
  have hr : (Matrix.of F).det ^ (-2 / d - 1) * (Matrix.of F).det = (Matrix.of F).det ^ (-2 / d) := by
    rcases h with h | ⟨rfl, h⟩
    · rw [← Real.rpow_add_one h0, sub_add_cancel]
    · have e1 : (-2 / 2 : ℝ) = ((-1 : ℤ) : ℝ) := by norm_num
      have e2 : (-2 / 2 - 1 : ℝ) = ((-2 : ℤ) : ℝ) := by norm_num
      rw [e1, show ((-1 : ℤ) : ℝ) - 1 = ((-2 : ℤ) : ℝ) by norm_num, Real.rpow_intCast, Real.rpow_intCast, zpow_neg, zpow_neg]
      field_simp
  ext H
  have c1 : ∀ (a : ℝ) (A : Fin n → Fin n → ℝ), contract (fun i j => a * A i j) H = a * contract A H := fun a A => con_smul a A H
  have lhs : contract (fun i j => neoHookePiola d mu kappa (Matrix.of F) i j) H
      = mu * (Matrix.of F).det ^ (-2 / d) * (contract F H - (∑ i, ∑ j, F i j ^ 2) / d * contract (fun i j => (Matrix.of F)⁻¹ j i) H)
        + kappa * (Matrix.of F).det * ((Matrix.of F).det - 1) * contract (fun i j => (Matrix.of F)⁻¹ j i) H := by
    rw [mul_sub, ← mul_assoc, ← con_smul, ← con_smul, ← con_smul, ← con_sub, ← con_add]
    congr 1
    funext i j
    simp only [neoHookePiola, Matrix.add_apply, Matrix.smul_apply, Matrix.sub_apply, Matrix.transpose_apply, smul_eq_mul,
      Matrix.of_apply, Pi.add_apply, Pi.sub_apply, Pi.smul_apply]
    ring
  have hcon : ∀ A : Fin n → Fin n → ℝ, conL A H = contract A H := fun A => rfl
  simp only [add_apply, smul_apply, smul_eq_mul, hcon, lhs, c1, nsmul_eq_mul]
  rw [← hr]
  push_cast
  simp only [pow_one]
  ring

theorem grad_of_deriv {W : (Fin n → Fin n → ℝ) → ℝ} {A F : Fin n → Fin n → ℝ} (h : HasFDerivAt W (conL A) F) :
    grad W F = A := by
  funext i j
  rw [grad, h.fderiv]
  exact con_single A i j

/-- The deformation gradient of a displacement gradient. -/
theorem shift_eq (G : Fin n → Fin n → ℝ) :
    (fun i j => G i j + if i = j then 1 else 0) = fun i j => (1 + Matrix.of G : Matrix (Fin n) (Fin n) ℝ) i j := by
  funext i j
  rw [Matrix.add_apply, Matrix.one_apply, add_comm]
  rfl

theorem firstPK_psi (d mu kappa : ℝ) (G : Fin n → Fin n → ℝ)
    (h : 0 < (1 + Matrix.of G).det ∨ (d = 2 ∧ (1 + Matrix.of G).det ≠ 0)) :
    firstPK (psi d mu kappa) G = fun i j => neoHookePiola d mu kappa (1 + Matrix.of G) i j := by
  rw [firstPK, shift_eq]
  exact grad_of_deriv (psi_deriv d mu kappa (fun i j => (1 + Matrix.of G : Matrix (Fin n) (Fin n) ℝ) i j) h)

theorem det_embed (F : Fin 2 → Fin 2 → ℝ) : (Matrix.of (embed F)).det = (Matrix.of F).det := by
  rw [Matrix.det_fin_three, Matrix.det_fin_two]
  simp [embed]

/-- The part of `embed` that depends on the argument. -/
noncomputable def embedL : (Fin 2 → Fin 2 → ℝ) →L[ℝ] (Fin 3 → Fin 3 → ℝ) :=
  LinearMap.toContinuousLinearMap
    { toFun := fun H => ![![H 0 0, H 0 1, 0], ![H 1 0, H 1 1, 0], ![0, 0, 0]]
      map_add' := fun v w => by
        funext i j
        fin_cases i <;> fin_cases j <;> simp
      map_smul' := fun c v => by
        funext i j
        fin_cases i <;> fin_cases j <;> simp }

theorem embed_eq (F : Fin 2 → Fin 2 → ℝ) : embed F = embedL F + ![![0, 0, 0], ![0, 0, 0], ![0, 0, 1]] := by
  have : embedL F = ![![F 0 0, F 0 1, 0], ![F 1 0, F 1 1, 0], ![0, 0, 0]] := rfl
  rw [this]
  funext i j
  fin_cases i <;> fin_cases j <;> simp [embed]

theorem con_embed (A : Fin 3 → Fin 3 → ℝ) (H : Fin 2 → Fin 2 → ℝ) :
    contract A (embedL H) = contract (fun i j : Fin 2 => A i.castSucc j.castSucc) H := by
  have : embedL H = ![![H 0 0, H 0 1, 0], ![H 1 0, H 1 1, 0], ![0, 0, 0]] := rfl
  rw [this]
  simp [contract, Fin.sum_univ_three, Fin.sum_univ_two]

theorem psiPlane_deriv (mu kappa : ℝ) (F : Fin 2 → Fin 2 → ℝ) (h : 0 < (Matrix.of F).det) :
    HasFDerivAt (psiPlane mu kappa)
      (conL fun i j => neoHookePiola 3 mu kappa (Matrix.of (embed F)) i.castSucc j.castSucc) F := by
  have h1 : HasFDerivAt embed embedL F := by
    have : (embed : (Fin 2 → Fin 2 → ℝ) → _) = fun F => embedL F + ![![0, 0, 0], ![0, 0, 0], ![0, 0, 1]] :=
      funext embed_eq
    rw [this]
    exact embedL.hasFDerivAt.add_const _
  have h2 := (psi_deriv 3 mu kappa (embed F) (.inl (by rwa [det_embed]))).comp F h1
  refine h2.congr_fderiv ?_
  ext H
  exact con_embed _ H

theorem firstPK_plane (mu kappa : ℝ) (G : Fin 2 → Fin 2 → ℝ) (h : 0 < (1 + Matrix.of G).det) :
    firstPK (psiPlane mu kappa) G = fun i j =>
      neoHookePiola 3 mu kappa (Matrix.of (embed fun i j => (1 + Matrix.of G : Matrix _ _ ℝ) i j)) i.castSucc j.castSucc := by
  rw [firstPK, shift_eq]
  exact grad_of_deriv (psiPlane_deriv mu kappa (fun i j => (1 + Matrix.of G : Matrix _ _ ℝ) i j) h)

theorem firstPK_inverse (E nu rho : ℝ) (G : Fin n → Fin n → ℝ) (h : 1 / 10 ^ 14 < (1 + Matrix.of G).det) :
    firstPK (psiInverse E nu rho) G = firstPK (psi 3 (muOf (E * rho) nu) (kappaOf (E * rho) nu)) G := by
  rw [firstPK, firstPK]
  funext i j
  rw [grad, grad]
  congr 1
  refine Filter.EventuallyEq.fderiv_eq ?_
  have hc : ContinuousAt (fun x : Fin n → Fin n → ℝ => (Matrix.of x).det) (fun i j => G i j + if i = j then 1 else 0) :=
    (contDiffAt_det (fun x : Fin n → Fin n → ℝ => Matrix.of x) _ fun i j =>
      contDiffAt_pi.1 (contDiffAt_pi.1 contDiffAt_id i) j).continuousAt
  have : (1 / 10 ^ 14 : ℝ) < (Matrix.of fun i j => G i j + if i = j then 1 else 0).det := by
    rw [shift_eq]; exact h
  filter_upwards [hc.eventually (lt_mem_nhds this)] with x hx
  simp only [psiInverse, psi, max_eq_left hx.le]

theorem rotation_inv {Q : Matrix (Fin n) (Fin n) ℝ} (h : IsRotation Q) : Q⁻¹ = Q.transpose ∧ Q * Q.transpose = 1 := by
  have : Q * Q.transpose = 1 := mul_eq_one_comm.1 h.1
  exact ⟨Matrix.inv_eq_right_inv this, this⟩

theorem sumsq_left {Q : Matrix (Fin n) (Fin n) ℝ} (h : IsRotation Q) (F : Matrix (Fin n) (Fin n) ℝ) :
    ∑ i, ∑ j, (Q * F) i j ^ 2 = ∑ i, ∑ j, F i j ^ 2 := by
  rw [← trace_eq, ← trace_eq, Matrix.transpose_mul, Matrix.mul_assoc, ← Matrix.mul_assoc Q.transpose, h.1, Matrix.one_mul]

theorem sumsq_right {Q : Matrix (Fin n) (Fin n) ℝ} (h : IsRotation Q) (F : Matrix (Fin n) (Fin n) ℝ) :
    ∑ i, ∑ j, (F * Q) i j ^ 2 = ∑ i, ∑ j, F i j ^ 2 := by
  rw [← trace_eq, ← trace_eq, Matrix.transpose_mul, Matrix.mul_assoc, Matrix.trace_mul_comm, Matrix.mul_assoc, Matrix.mul_assoc,
    (rotation_inv h).2, Matrix.mul_one]

theorem piola_left {Q : Matrix (Fin n) (Fin n) ℝ} (h : IsRotation Q) (d mu kappa : ℝ) (F : Matrix (Fin n) (Fin n) ℝ) :
    neoHookePiola d mu kappa (Q * F) = Q * neoHookePiola d mu kappa F := by
  have e : (Q * F)⁻¹.transpose = Q * F⁻¹.transpose := by
    rw [Matrix.mul_inv_rev, Matrix.transpose_mul, (rotation_inv h).1, Matrix.transpose_transpose]
  simp only [neoHookePiola, e, Matrix.det_mul, h.2, one_mul, sumsq_left h, Matrix.mul_add, Matrix.mul_smul, Matrix.mul_sub]

theorem piola_right {Q : Matrix (Fin n) (Fin n) ℝ} (h : IsRotation Q) (d mu kappa : ℝ) (F : Matrix (Fin n) (Fin n) ℝ) :
    neoHookePiola d mu kappa (F * Q) = neoHookePiola d mu kappa F * Q := by
  have e : (F * Q)⁻¹.transpose = F⁻¹.transpose * Q := by
    rw [Matrix.mul_inv_rev, Matrix.transpose_mul, (rotation_inv h).1, Matrix.transpose_transpose]
  simp only [neoHookePiola, e, Matrix.det_mul, h.2, mul_one, sumsq_right h, Matrix.add_mul, Matrix.smul_mul, Matrix.sub_mul]

theorem kirchhoff_eq (d mu kappa : ℝ) (F : Matrix (Fin n) (Fin n) ℝ) (h : F.det ≠ 0) :
    neoHookePiola d mu kappa F * F.transpose
      = (mu * F.det ^ (-2 / d)) • (F * F.transpose - ((∑ i, ∑ j, F i j ^ 2) / d) • 1) + (kappa * F.det * (F.det - 1)) • 1 := by
  have e : F⁻¹.transpose * F.transpose = 1 := by
    rw [← Matrix.transpose_mul, Matrix.mul_nonsing_inv _ h.isUnit, Matrix.transpose_one]
  simp only [neoHookePiola, Matrix.add_mul, Matrix.smul_mul, Matrix.sub_mul, e]

/-! The energy. -/

theorem amgm (hn : 0 < n) (F : Matrix (Fin n) (Fin n) ℝ) (h : 0 < F.det) :
    n ≤ F.det ^ (-2 / (n : ℝ)) * ∑ i, ∑ j, F i j ^ 2 ∧
    (F.det ^ (-2 / (n : ℝ)) * ∑ i, ∑ j, F i j ^ 2 = n → F.det = 1 → F.transpose * F = 1) := by
  have hps : (F.transpose * F).PosSemidef := by
    have := Matrix.posSemidef_conjTranspose_mul_self F
    rwa [Matrix.conjTranspose_eq_transpose_of_trivial] at this
  set hC := hps.isHermitian
  have hev := hps.eigenvalues_nonneg
  have hdet : ∏ i, hC.eigenvalues i = F.det ^ 2 := by
    have := hC.det_eq_prod_eigenvalues
    rw [Matrix.det_mul, Matrix.det_transpose] at this
    simpa [sq] using this.symm
  have htr : ∑ i, hC.eigenvalues i = ∑ i, ∑ j, F i j ^ 2 := by
    have := hC.trace_eq_sum_eigenvalues
    rw [trace_eq] at this
    simpa using this.symm
  have hn' : (0 : ℝ) < n := by exact_mod_cast hn
  have hw : ∑ _i : Fin n, (1 / n : ℝ) = 1 := by simp [hn'.ne']
  have hgm : ∏ i, hC.eigenvalues i ^ (1 / n : ℝ) = F.det ^ (2 / (n : ℝ)) := by
    rw [Real.finsetProd_rpow _ _ fun i _ => hev i, hdet, ← Real.rpow_natCast, ← Real.rpow_mul h.le]
    congr 1
    push_cast
    ring
  have ham : ∑ i, (1 / n : ℝ) * hC.eigenvalues i = (∑ i, ∑ j, F i j ^ 2) / n := by
    rw [← Finset.mul_sum, htr]
    ring
  have hle := Real.geom_mean_le_arith_mean_weighted Finset.univ (fun _ => (1 / n : ℝ)) hC.eigenvalues (fun _ _ => by positivity) hw
    (fun i _ => hev i)
  have heq := Real.geom_mean_eq_arith_mean_weighted_iff_of_pos' Finset.univ (fun _ => (1 / n : ℝ)) hC.eigenvalues
    (fun _ _ => by positivity) hw (fun i _ => hev i)
  rw [hgm, ham] at hle heq
  have hpow : F.det ^ (-2 / (n : ℝ)) * F.det ^ (2 / (n : ℝ)) = 1 := by
    rw [← Real.rpow_add h]
    ring_nf
    exact Real.rpow_zero _
  have hpos : 0 < F.det ^ (-2 / (n : ℝ)) := Real.rpow_pos_of_pos h _
  constructor
  · have := mul_le_mul_of_nonneg_left hle hpos.le
    rw [hpow, ← mul_div_assoc, le_div_iff₀ hn', one_mul] at this
    exact this
  · intro h1 h2
    rw [h2, Real.one_rpow, one_mul] at h1
    have h3 : ∀ j, hC.eigenvalues j = 1 := by
      intro j
      have := heq.1 (by rw [h1, h2, Real.one_rpow, div_self hn'.ne']) j (Finset.mem_univ j)
      rw [this, h1, div_self hn'.ne']
    have h4 := hC.spectral_theorem
    have h5 : (RCLike.ofReal ∘ hC.eigenvalues : Fin n → ℝ) = fun _ => 1 := by
      funext j
      simp [h3]
    rw [h5, Matrix.diagonal_one, map_one] at h4
    exact h4

/-! The linearisation. -/

theorem det_line (H : Matrix (Fin n) (Fin n) ℝ) : HasDerivAt (fun t : ℝ => (1 + t • H).det) H.trace 0 := by
  have h1 : (Matrix.of fun i j => (1 : Matrix (Fin n) (Fin n) ℝ) i j).det ≠ 0 := by
    have : (Matrix.of fun i j => (1 : Matrix (Fin n) (Fin n) ℝ) i j) = 1 := rfl
    rw [this, Matrix.det_one]
    exact one_ne_zero
  have h2 : HasDerivAt (fun t : ℝ => (fun i j => (1 + t • H : Matrix (Fin n) (Fin n) ℝ) i j)) (fun i j => H i j) 0 := by
    refine hasDerivAt_pi.2 fun i => hasDerivAt_pi.2 fun j => ?_
    have := ((hasDerivAt_id (0 : ℝ)).mul_const (H i j)).const_add ((1 : Matrix (Fin n) (Fin n) ℝ) i j)
    simpa using this
  have hz : (fun i j => (1 + (0 : ℝ) • H : Matrix (Fin n) (Fin n) ℝ) i j) = fun i j => (1 : Matrix (Fin n) (Fin n) ℝ) i j := by
    funext i j; simp
  have h3 := HasFDerivAt.comp_hasDerivAt (f := fun t : ℝ => (fun i j => (1 + t • H : Matrix (Fin n) (Fin n) ℝ) i j)) (0 : ℝ)
    (by rw [hz]; exact hasFDerivAt_det _ h1) h2
  refine HasDerivAt.congr_deriv h3 ?_
  have e : (Matrix.of fun i j => (1 : Matrix (Fin n) (Fin n) ℝ) i j) = 1 := rfl
  have hcon : ∀ A B : Fin n → Fin n → ℝ, conL A B = contract A B := fun A B => rfl
  rw [hcon, e]
  simp only [contract, Matrix.det_one, inv_one, one_mul, Matrix.one_apply, ite_mul, zero_mul, Finset.sum_ite_eq,
    Finset.sum_ite_eq', Finset.mem_univ, if_true]
  rfl

theorem inv_line (H : Matrix (Fin n) (Fin n) ℝ) (i j : Fin n) :
    HasDerivAt (fun t : ℝ => (1 + t • H)⁻¹ i j) (- H i j) 0 := by
  have hsm : ∀ i j, ContDiffAt ℝ 1 (fun t : ℝ => (1 + t • H)⁻¹ i j) 0 := by
    refine contDiffAt_inv (fun t : ℝ => 1 + t • H) 0 (fun i j => ?_) (by simp)
    simp only [Matrix.add_apply, Matrix.smul_apply, smul_eq_mul]
    exact contDiffAt_const.add (contDiffAt_id.mul contDiffAt_const)
  have hg : HasDerivAt (fun t : ℝ => ∑ k, H i k * (1 + t • H)⁻¹ k j) _ 0 :=
    ((DifferentiableAt.fun_sum fun k _ => ((hsm k j).differentiableAt one_ne_zero).const_mul (H i k))).hasDerivAt
  have h1 := (((hasDerivAt_id (0 : ℝ)).mul hg).neg).const_add ((1 : Matrix (Fin n) (Fin n) ℝ) i j)
  have hev : ∀ᶠ t in nhds (0 : ℝ), (1 + t • H)⁻¹ i j
      = (1 : Matrix (Fin n) (Fin n) ℝ) i j + -(id t * ∑ k, H i k * (1 + t • H)⁻¹ k j) := by
    have hc := (det_line H).continuousAt
    have : (1 + (0 : ℝ) • H).det ≠ 0 := by simp
    filter_upwards [hc.eventually_ne this] with t ht
    have e := Matrix.mul_nonsing_inv (1 + t • H) ht.isUnit
    have e' := congrFun (congrFun e i) j
    rw [Matrix.add_mul, Matrix.one_mul, Matrix.smul_mul, Matrix.add_apply, Matrix.smul_apply, smul_eq_mul, Matrix.mul_apply] at e'
    rw [← e', id]
    ring
  refine (h1.congr_of_eventuallyEq hev).congr_deriv ?_
  simp [Matrix.one_apply]

theorem piola_line (hn : 0 < n) (mu kappa : ℝ) (H : Matrix (Fin n) (Fin n) ℝ) (i j : Fin n) :
    HasDerivAt (fun t : ℝ => neoHookePiola n mu kappa (1 + t • H) i j)
      (mu * (H i j + H j i - 2 / n * H.trace * (1 : Matrix (Fin n) (Fin n) ℝ) i j)
        + kappa * H.trace * (1 : Matrix (Fin n) (Fin n) ℝ) i j) 0 := by
  have hn' : (n : ℝ) ≠ 0 := by exact_mod_cast hn.ne'
  have hz : (1 + (0 : ℝ) • H) = 1 := by simp
  have hJ := det_line H
  have hP : HasDerivAt (fun t : ℝ => (1 + t • H).det ^ (-2 / (n : ℝ))) _ 0 :=
    hJ.rpow_const (p := -2 / (n : ℝ)) (.inl (by simp))
  have hI := inv_line H j i
  have hF : ∀ a b, HasDerivAt (fun t : ℝ => (1 + t • H : Matrix (Fin n) (Fin n) ℝ) a b) (H a b) 0 := by
    intro a b
    have := ((hasDerivAt_id (0 : ℝ)).mul_const (H a b)).const_add ((1 : Matrix (Fin n) (Fin n) ℝ) a b)
    simpa using this
  have hS : HasDerivAt (fun t : ℝ => ∑ a, ∑ b, (1 + t • H : Matrix (Fin n) (Fin n) ℝ) a b ^ 2) (2 * H.trace) 0 := by
    have : HasDerivAt (fun t : ℝ => ∑ a, ∑ b, (1 + t • H : Matrix (Fin n) (Fin n) ℝ) a b ^ 2)
        (∑ a, ∑ b, 2 * (1 : Matrix (Fin n) (Fin n) ℝ) a b * H a b) 0 := by
      refine HasDerivAt.fun_sum fun a _ => HasDerivAt.fun_sum fun b _ => ?_
      have := (hF a b).fun_pow 2
      simpa [hz] using this
    refine this.congr_deriv ?_
    simp only [Matrix.one_apply, mul_ite, mul_one, mul_zero, ite_mul, zero_mul, Finset.sum_ite_eq, Finset.mem_univ, if_true,
      Matrix.trace, Matrix.diag_apply, Finset.mul_sum]
  have hs0 : ∑ a, ∑ b, (1 : Matrix (Fin n) (Fin n) ℝ) a b ^ 2 = n := by
    simp [Matrix.one_apply]
  have h1 := ((hP.const_mul mu).mul ((hF i j).sub ((hS.div_const (n : ℝ)).mul hI))).add
    (((hJ.const_mul kappa).mul (hJ.sub_const 1)).mul hI)
  refine (h1.congr_of_eventuallyEq (.of_forall fun t => ?_)).congr_deriv ?_
  · simp only [neoHookePiola, Matrix.add_apply, Matrix.smul_apply, Matrix.sub_apply, Matrix.transpose_apply, smul_eq_mul,
      Pi.mul_apply, Pi.sub_apply, Pi.add_apply]
  · simp only [hz, Matrix.det_one, inv_one, hs0, Real.one_rpow, div_self hn', Pi.mul_apply, Pi.sub_apply]
    by_cases hij : i = j
    · subst hij
      simp only [Matrix.one_apply_eq]
      field_simp
      ring
    · rw [Matrix.one_apply_ne hij, Matrix.one_apply_ne (Ne.symm hij)]
      field_simp
      ring

/-! ### Property theorems -/

/-- **C88 (stress).** Where the determinant of the deformation gradient is positive (for `d = 2`: not zero) the energy is
differentiable and `first_PK_stress` is the neo-Hookean stress; the Kirchhoff stress is symmetric; superposed rotations
leave the energy alone and rotate the stress; rotations of the reference configuration do too (isotropy). -/
theorem C88_stress (d mu kappa : ℝ) (G : Fin n → Fin n → ℝ)
    (h : 0 < (1 + Matrix.of G).det ∨ (d = 2 ∧ (1 + Matrix.of G).det ≠ 0)) :
    let F := 1 + Matrix.of G
    let P := Matrix.of (firstPK (psi d mu kappa) G)
    DifferentiableAt ℝ (psi d mu kappa) (fun i j => F i j) ∧
    P = neoHookePiola d mu kappa F ∧
    (P * F.transpose).transpose = P * F.transpose ∧
    ∀ Q : Matrix (Fin n) (Fin n) ℝ, IsRotation Q →
      (∀ G' : Fin n → Fin n → ℝ, 1 + Matrix.of G' = Q * F →
        psi d mu kappa (fun i j => (Q * F) i j) = psi d mu kappa (fun i j => F i j) ∧
        Matrix.of (firstPK (psi d mu kappa) G') = Q * P) ∧
      (∀ G' : Fin n → Fin n → ℝ, 1 + Matrix.of G' = F * Q →
        psi d mu kappa (fun i j => (F * Q) i j) = psi d mu kappa (fun i j => F i j) ∧
        Matrix.of (firstPK (psi d mu kappa) G') = P * Q) := by
  intro F P
  have h0 : F.det ≠ 0 := h.elim ne_of_gt And.right
  have hP : P = neoHookePiola d mu kappa F := by
    have := firstPK_psi d mu kappa G h
    show Matrix.of (firstPK (psi d mu kappa) G) = _
    rw [this]
    rfl
  have hof : ∀ A : Matrix (Fin n) (Fin n) ℝ, (Matrix.of fun i j => A i j) = A := fun A => rfl
  refine ⟨(psi_deriv d mu kappa (fun i j => F i j) h).differentiableAt, hP, ?_, ?_⟩
  · rw [hP, kirchhoff_eq d mu kappa F h0]
    simp [Matrix.transpose_add, Matrix.transpose_smul, Matrix.transpose_sub, Matrix.transpose_mul]
  · intro Q hQ
    have hr : ∀ A : Matrix (Fin n) (Fin n) ℝ, A.det = F.det → ∀ G' : Fin n → Fin n → ℝ, 1 + Matrix.of G' = A →
        Matrix.of (firstPK (psi d mu kappa) G') = neoHookePiola d mu kappa A := by
      intro A hA G' hG
      have := firstPK_psi d mu kappa G' (by rw [hG, hA]; exact h)
      rw [this, hG]
      rfl
    have d1 : (Q * F).det = F.det := by rw [Matrix.det_mul, hQ.2, one_mul]
    have d2 : (F * Q).det = F.det := by rw [Matrix.det_mul, hQ.2, mul_one]
    refine ⟨fun G' hG => ⟨?_, ?_⟩, fun G' hG => ⟨?_, ?_⟩⟩
    · rw [psi_eq, psi_eq, hof, hof, d1, sumsq_left hQ]
    · rw [hr _ d1 G' hG, hP, piola_left hQ]
    · rw [psi_eq, psi_eq, hof, hof, d2, sumsq_right hQ]
    · rw [hr _ d2 G' hG, hP, piola_right hQ]

/-- **C88 (variants).** In plane strain the stress is the in-plane part of the three-dimensional stress; with the floor
for the determinant nothing changes above the floor. -/
theorem C88_variants (E nu rho mu kappa : ℝ) :
    (∀ (G : Fin 2 → Fin 2 → ℝ) (G3 : Fin 3 → Fin 3 → ℝ), 0 < (1 + Matrix.of G).det →
      (∀ i j : Fin 2, G3 i.castSucc j.castSucc = G i j) → (∀ i : Fin 3, G3 i 2 = 0 ∧ G3 2 i = 0) →
      (1 + Matrix.of G3).det = (1 + Matrix.of G).det ∧
      ∀ i j : Fin 2, firstPK (psiPlane mu kappa) G i j = firstPK (psi 3 mu kappa) G3 i.castSucc j.castSucc) ∧
    (∀ G : Fin n → Fin n → ℝ, 1 / 10 ^ 14 < (1 + Matrix.of G).det →
      firstPK (psiInverse E nu rho) G = firstPK (psi 3 (muOf (E * rho) nu) (kappaOf (E * rho) nu)) G) := by
  refine ⟨?_, fun G h => firstPK_inverse E nu rho G h⟩
  intro G G3 h h1 h2
  have e : Matrix.of (embed fun i j => (1 + Matrix.of G : Matrix _ _ ℝ) i j) = 1 + Matrix.of G3 := by
    have a := h1 0 0
    have b := h1 0 1
    have c := h1 1 0
    have d := h1 1 1
    simp only [Fin.castSucc_zero, Fin.castSucc_one] at a b c d
    ext i j
    fin_cases i <;> fin_cases j <;> simp [embed, (h2 _).1, (h2 _).2, a, b, c, d]
  have hd : (1 + Matrix.of G3).det = (1 + Matrix.of G).det := by
    rw [← e, det_embed]
    rfl
  refine ⟨hd, fun i j => ?_⟩
  rw [firstPK_plane mu kappa G h, firstPK_psi 3 mu kappa G3 (.inl (by rw [hd]; exact h)), e]

/-- Symmetry and objectivity of the stress in plane strain, from three dimensions. -/
theorem plane_facts (mu kappa : ℝ) (G : Fin 2 → Fin 2 → ℝ) (h : 0 < (1 + Matrix.of G).det) :
    ((Matrix.of (firstPK (psiPlane mu kappa) G) * (1 + Matrix.of G).transpose).transpose
      = Matrix.of (firstPK (psiPlane mu kappa) G) * (1 + Matrix.of G).transpose) ∧
    ∀ (Q : Matrix (Fin 2) (Fin 2) ℝ) (G' : Fin 2 → Fin 2 → ℝ), IsRotation Q → 1 + Matrix.of G' = Q * (1 + Matrix.of G) →
      Matrix.of (firstPK (psiPlane mu kappa) G') = Q * Matrix.of (firstPK (psiPlane mu kappa) G) := by
  -- shape of the three-dimensional stress
  have hshape : ∀ F : Matrix (Fin 2) (Fin 2) ℝ, F.det ≠ 0 → ∀ i : Fin 2,
      neoHookePiola 3 mu kappa (Matrix.of (embed fun i j => F i j)) i.castSucc 2 = 0 := by
    intro F hF i
    have hinv : (Matrix.of (embed fun i j => F i j))⁻¹ = Matrix.of (embed fun i j => F⁻¹ i j) := by
      refine Matrix.inv_eq_right_inv ?_
      have e := Matrix.mul_nonsing_inv F hF.isUnit
      have a := congrFun (congrFun e 0) 0
      have b := congrFun (congrFun e 0) 1
      have c := congrFun (congrFun e 1) 0
      have d := congrFun (congrFun e 1) 1
      simp [Matrix.mul_apply, Fin.sum_univ_two] at a b c d
      ext i j
      fin_cases i <;> fin_cases j <;> simp [embed, Matrix.mul_apply, Fin.sum_univ_three, a, b, c, d]
    rw [neoHookePiola, hinv]
    fin_cases i <;> simp [embed]
  have hgrad : ∀ F : Matrix (Fin 2) (Fin 2) ℝ, ∃ G3 : Fin 3 → Fin 3 → ℝ,
      1 + Matrix.of G3 = Matrix.of (embed fun i j => F i j) :=
    fun F => ⟨fun i j => Matrix.of (embed fun i j => F i j) i j - (1 : Matrix (Fin 3) (Fin 3) ℝ) i j, by ext i j; simp⟩
  obtain ⟨G3, hG3⟩ := hgrad (1 + Matrix.of G)
  have hd3 : (1 + Matrix.of G3).det = (1 + Matrix.of G).det := by
    rw [hG3, det_embed]
    rfl
  obtain ⟨-, s1, s2, s3⟩ := C88_stress 3 mu kappa G3 (.inl (by rw [hd3]; exact h))
  set S3 := neoHookePiola 3 mu kappa (1 + Matrix.of G3) with hS3
  rw [s1] at s2 s3
  have hS : ∀ i j : Fin 2, firstPK (psiPlane mu kappa) G i j = S3 i.castSucc j.castSucc := by
    intro i j
    rw [firstPK_plane mu kappa G h, hS3, hG3]
  have hz : ∀ i : Fin 2, S3 i.castSucc 2 = 0 := by
    intro i
    rw [hS3, hG3]
    exact hshape _ h.ne' i
  refine ⟨?_, ?_⟩
  · ext i j
    have e := congrFun (congrFun s2 i.castSucc) j.castSucc
    simp only [Matrix.transpose_apply, Matrix.mul_apply, Fin.sum_univ_castSucc (n := 2)] at e ⊢
    have hl : (Fin.last 2 : Fin 3) = 2 := rfl
    rw [hl, hz, hz] at e
    simp only [Matrix.of_apply, hS]
    have hF : ∀ a b : Fin 2, (1 + Matrix.of G3 : Matrix _ _ ℝ) a.castSucc b.castSucc = (1 + Matrix.of G : Matrix _ _ ℝ) a b := by
      intro a b
      rw [hG3]
      fin_cases a <;> fin_cases b <;> simp [embed]
    simp only [hF] at e
    simpa using e
  · intro Q G' hQ hG'
    obtain ⟨G3', hG3'⟩ := hgrad (1 + Matrix.of G')
    have hQ3 : IsRotation (Matrix.of (embed fun i j => Q i j)) := by
      refine ⟨?_, by rw [det_embed]; exact hQ.2⟩
      have a := congrFun (congrFun hQ.1 0) 0
      have b := congrFun (congrFun hQ.1 0) 1
      have c := congrFun (congrFun hQ.1 1) 0
      have d := congrFun (congrFun hQ.1 1) 1
      simp [Matrix.mul_apply, Fin.sum_univ_two] at a b c d
      ext i j
      fin_cases i <;> fin_cases j <;> simp [embed, Matrix.mul_apply, Fin.sum_univ_three, a, b, c, d]
    have hmul : 1 + Matrix.of G3' = Matrix.of (embed fun i j => Q i j) * (1 + Matrix.of G3) := by
      rw [hG3', hG3, hG']
      ext i j
      fin_cases i <;> fin_cases j <;> simp [embed, Matrix.mul_apply, Fin.sum_univ_three, Fin.sum_univ_two]
    have hd' : 0 < (1 + Matrix.of G').det := by
      rw [hG', Matrix.det_mul, hQ.2, one_mul]
      exact h
    have hd3' : (1 + Matrix.of G3').det = (1 + Matrix.of G').det := by
      rw [hG3', det_embed]
      rfl
    have e := ((s3 _ hQ3).1 G3' hmul).2
    ext i j
    have e' := congrFun (congrFun e i.castSucc) j.castSucc
    rw [Matrix.of_apply, firstPK_psi 3 mu kappa G3' (.inl (by rw [hd3']; exact hd'))] at e'
    rw [Matrix.of_apply, firstPK_plane mu kappa G' hd', ← hG3', e', Matrix.mul_apply, Matrix.mul_apply, Fin.sum_univ_castSucc]
    have hl : Matrix.of (embed fun i j => Q i j) i.castSucc (Fin.last 2) = 0 := by
      fin_cases i <;> rfl
    rw [hl, zero_mul, add_zero]
    refine Finset.sum_congr rfl fun k _ => ?_
    rw [Matrix.of_apply, Matrix.of_apply, hS]
    congr 1
    fin_cases i <;> fin_cases k <;> rfl

/-- **C88 (energy).** For positive moduli the energy of the `n`-dimensional solid is nonnegative and vanishes exactly for
rotations, and so does the energy in plane strain. But shrinking the body to a point costs the finite energy `κ/2` per
volume, and the two-dimensional energy takes arbitrarily negative values for negative determinants. -/
theorem C88_energy (mu kappa : ℝ) (hm : 0 < mu) (hk : 0 < kappa) :
    (∀ (n : Nat) (F : Fin n → Fin n → ℝ), 0 < n → 0 < (Matrix.of F).det →
      0 ≤ psi n mu kappa F ∧ (psi n mu kappa F = 0 ↔ IsRotation (Matrix.of F))) ∧
    (∀ F : Fin 2 → Fin 2 → ℝ, 0 < (Matrix.of F).det →
      0 ≤ psiPlane mu kappa F ∧ (psiPlane mu kappa F = 0 ↔ IsRotation (Matrix.of F))) ∧
    (∀ (n : Nat) (s : ℝ), 0 < n → 0 < s →
      psi n mu kappa (fun i j : Fin n => if i = j then s else 0) = kappa / 2 * (s ^ n - 1) ^ 2) ∧
    (∀ c : ℝ, ∃ F : Fin 2 → Fin 2 → ℝ, (Matrix.of F).det < 0 ∧ psi 2 mu kappa F < c) := by
  have main : ∀ (n : Nat) (F : Fin n → Fin n → ℝ), 0 < n → 0 < (Matrix.of F).det →
      0 ≤ psi n mu kappa F ∧ (psi n mu kappa F = 0 ↔ IsRotation (Matrix.of F)) := by
    intro n F hn hF
    obtain ⟨h1, h2⟩ := amgm hn (Matrix.of F) hF
    simp only [Matrix.of_apply] at h1 h2
    have a1 : 0 ≤ mu / 2 * ((Matrix.of F).det ^ (-2 / (n : ℝ)) * (∑ i, ∑ j, F i j ^ 2) - n) :=
      mul_nonneg (by linarith) (by linarith)
    have a2 : 0 ≤ kappa / 2 * ((Matrix.of F).det - 1) ^ 2 := by positivity
    rw [psi_eq]
    refine ⟨by linarith, fun h0 => ?_, fun h0 => ?_⟩
    · have b1 : mu / 2 * ((Matrix.of F).det ^ (-2 / (n : ℝ)) * (∑ i, ∑ j, F i j ^ 2) - n) = 0 := by linarith
      have b2 : kappa / 2 * ((Matrix.of F).det - 1) ^ 2 = 0 := by linarith
      have c1 : (Matrix.of F).det ^ (-2 / (n : ℝ)) * (∑ i, ∑ j, F i j ^ 2) = n := by
        have := (mul_eq_zero.1 b1).resolve_left (by positivity)
        linarith
      have c2 : (Matrix.of F).det = 1 := by
        have := pow_eq_zero_iff (two_ne_zero) |>.1 ((mul_eq_zero.1 b2).resolve_left (by positivity))
        linarith
      exact ⟨h2 c1 c2, c2⟩
    · have : ∑ i, ∑ j, F i j ^ 2 = n := by
        have := trace_eq (Matrix.of F)
        rw [h0.1, Matrix.trace_one] at this
        simpa using this.symm
      rw [h0.2, this]
      simp
  refine ⟨main, ?_, ?_, ?_⟩
  · intro F hF
    have h := main 3 (embed F) (by norm_num) (by rwa [det_embed])
    have e : psiPlane mu kappa F = psi ((3 : ℕ) : ℝ) mu kappa (embed F) := by rw [psiPlane]; norm_num
    rw [e]
    refine ⟨h.1, h.2.trans ?_⟩
    rw [IsRotation, IsRotation, det_embed]
    refine and_congr_left fun _ => ⟨fun h => ?_, fun h => ?_⟩
    · ext i j
      have := congrFun (congrFun h i.castSucc) j.castSucc
      fin_cases i <;> fin_cases j <;>
        simpa [embed, Matrix.mul_apply, Fin.sum_univ_three, Fin.sum_univ_two, Matrix.one_apply] using this
    · have a := congrFun (congrFun h 0) 0
      have b := congrFun (congrFun h 0) 1
      have c := congrFun (congrFun h 1) 0
      have d := congrFun (congrFun h 1) 1
      simp [Matrix.mul_apply, Fin.sum_univ_two] at a b c d
      ext i j
      fin_cases i <;> fin_cases j <;> simp [embed, Matrix.mul_apply, Fin.sum_univ_three, a, b, c, d]
  · intro n s hn hs
    have hn' : (n : ℝ) ≠ 0 := by exact_mod_cast hn.ne'
    have hd : (Matrix.of fun i j : Fin n => if i = j then s else 0).det = s ^ n := by
      have : (Matrix.of fun i j : Fin n => if i = j then s else 0) = Matrix.diagonal fun _ => s := by
        ext i j
        rw [Matrix.diagonal_apply]
        rfl
      rw [this, Matrix.det_diagonal]
      simp
    have hS : ∑ i : Fin n, ∑ j : Fin n, (if i = j then s else 0) ^ 2 = n * s ^ 2 := by
      simp [ite_pow]
    have hp : (s ^ n) ^ (-2 / (n : ℝ)) * s ^ 2 = 1 := by
      rw [← Real.rpow_natCast s n, ← Real.rpow_mul hs.le, mul_div_cancel₀ _ hn', ← Real.rpow_natCast s 2, ← Real.rpow_add hs]
      norm_num
    rw [psi_eq, hd, hS]
    have : (s ^ n) ^ (-2 / (n : ℝ)) * (n * s ^ 2) - n = 0 := by linear_combination (n : ℝ) * hp
    rw [this]
    ring
  · intro c
    -- diag (1, -e) with a small e
    set e : ℝ := min 1 (mu / 2 / (|c| + 2 * kappa + 1)) with he
    have hden : 0 < |c| + 2 * kappa + 1 := by positivity
    have e0 : 0 < e := lt_min one_pos (by positivity)
    have e1 : e ≤ 1 := min_le_left _ _
    have e2 : e * (|c| + 2 * kappa + 1) ≤ mu / 2 := by
      rw [← le_div_iff₀ hden]
      exact min_le_right _ _
    have hd : (Matrix.of ![![1, 0], ![0, -e]]).det = -e := by simp [Matrix.det_fin_two]
    refine ⟨![![1, 0], ![0, -e]], by rw [hd]; linarith, ?_⟩
    rw [psi_eq, hd]
    have hr : (-e) ^ (-2 / 2 : ℝ) = -(1 / e) := by
      rw [show (-2 / 2 : ℝ) = -1 by norm_num, Real.rpow_neg_one, inv_neg, one_div]
    have hS : ∑ i : Fin 2, ∑ j : Fin 2, (![![1, 0], ![0, -e]] : Fin 2 → Fin 2 → ℝ) i j ^ 2 = 1 + e ^ 2 := by
      simp [Fin.sum_univ_two]
    rw [hr, hS]
    have h1 : |c| + 2 * kappa + 1 ≤ mu / 2 * (1 / e) := by
      rw [mul_one_div, le_div_iff₀ e0]
      linarith
    have h2 : kappa / 2 * (-e - 1) ^ 2 ≤ 2 * kappa := by
      have : (-e - 1) ^ 2 ≤ 4 := by nlinarith
      nlinarith
    have h3 : mu / 2 * (-(1 / e) * (1 + e ^ 2) - 2) ≤ - (mu / 2 * (1 / e)) := by
      have : 0 ≤ 1 / e * e ^ 2 := by positivity
      nlinarith
    have := neg_abs_le c
    linarith

/-- **C88 (small strains).** Linearised at the undeformed state, the stress of the three-dimensional solid and that in plane
strain are the stresses of linear elasticity with the same Young's modulus and Poisson's ratio. The two-dimensional
solid is not: its first Lamé parameter is smaller by `μ/3`. -/
theorem C88_linear (E nu : ℝ) (h1 : nu ≠ -1) (h2 : nu ≠ 1 / 2) :
    (∀ (H : Fin 3 → Fin 3 → ℝ) (i j : Fin 3),
      HasDerivAt (fun t : ℝ => firstPK (psi 3 (muOf E nu) (kappaOf E nu)) (t • H) i j) (Elastic.stress E nu H i j) 0) ∧
    (∀ (H : Fin 2 → Fin 2 → ℝ) (i j : Fin 2),
      HasDerivAt (fun t : ℝ => firstPK (psiPlane (muOf E nu) (kappaOf E nu)) (t • H) i j) (Elastic.stress E nu H i j) 0) ∧
    (∀ (H : Fin 2 → Fin 2 → ℝ) (i j : Fin 2),
      HasDerivAt (fun t : ℝ => firstPK (psi 2 (muOf E nu) (kappaOf E nu)) (t • H) i j)
        (Elastic.stress E nu H i j - Elastic.mu E nu / 3 * (∑ k, H k k) * if i = j then 1 else 0) 0) := by
  have hpos : ∀ {m : Nat} (H : Fin m → Fin m → ℝ), ∀ᶠ t in nhds (0 : ℝ), 0 < (1 + Matrix.of (t • H)).det := by
    intro m H
    have hc := (det_line (Matrix.of H)).continuousAt
    exact hc.eventually (lt_mem_nhds (by simp))
  have hE1 : 1 + nu ≠ 0 := fun h => h1 (by linarith)
  have hE2 : 1 - 2 * nu ≠ 0 := fun h => h2 (by linarith)
  have hof : ∀ {m : Nat} (t : ℝ) (H : Fin m → Fin m → ℝ), (1 + Matrix.of (t • H)) = 1 + t • Matrix.of H := fun t H => rfl
  have key3 : ∀ (H : Matrix (Fin 3) (Fin 3) ℝ) (i j : Fin 3), HasDerivAt
      (fun t : ℝ => neoHookePiola 3 (muOf E nu) (kappaOf E nu) (1 + t • H) i j) (Elastic.stress E nu (fun i j => H i j) i j) 0 := by
    intro H i j
    have := piola_line (n := 3) (by norm_num) (muOf E nu) (kappaOf E nu) H i j
    push_cast at this
    refine this.congr_deriv ?_
    simp only [Elastic.stress, Elastic.mu, Elastic.lmbda, muOf, kappaOf, Matrix.one_apply, Matrix.trace, Matrix.diag_apply,
      Fin.sum_univ_three]
    split_ifs with hij
    · subst hij
      field_simp
      ring
    · field_simp
      ring
  refine ⟨?_, ?_, ?_⟩
  · intro H i j
    refine (key3 (Matrix.of H) i j).congr_of_eventuallyEq ?_
    filter_upwards [hpos H] with t ht
    rw [firstPK_psi _ _ _ _ (.inl ht), hof]
  · intro H i j
    have e : ∀ t : ℝ, Matrix.of (embed fun i j => (1 + Matrix.of (t • H) : Matrix _ _ ℝ) i j)
        = 1 + t • Matrix.of ![![H 0 0, H 0 1, 0], ![H 1 0, H 1 1, 0], ![0, 0, 0]] := by
      intro t
      ext a b
      fin_cases a <;> fin_cases b <;> simp [embed]
    have := key3 (Matrix.of ![![H 0 0, H 0 1, 0], ![H 1 0, H 1 1, 0], ![0, 0, 0]]) i.castSucc j.castSucc
    refine (this.congr_of_eventuallyEq ?_).congr_deriv ?_
    · filter_upwards [hpos H] with t ht
      rw [firstPK_plane _ _ _ ht, e]
    · fin_cases i <;> fin_cases j <;> simp [Elastic.stress, Fin.sum_univ_three, Fin.sum_univ_two]
  · intro H i j
    have := piola_line (n := 2) (by norm_num) (muOf E nu) (kappaOf E nu) (Matrix.of H) i j
    push_cast at this
    refine (this.congr_of_eventuallyEq ?_).congr_deriv ?_
    · filter_upwards [hpos H] with t ht
      rw [firstPK_psi _ _ _ _ (.inl ht), hof]
    · simp only [Elastic.stress, Elastic.mu, Elastic.lmbda, muOf, kappaOf, Matrix.one_apply, Matrix.trace, Matrix.diag_apply,
        Fin.sum_univ_two, Matrix.of_apply]
      split_ifs with hij
      · subst hij
        field_simp
        ring
      · field_simp
        ring

end JaxFem.Hyper
