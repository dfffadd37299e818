import Verif.Thm.C96_Law
import Verif.Thm.C94_Polar
import Verif.Thm.C86_Eigen

/-!
# C96: networks of the invariants of a solid (`multi_scale`)
-/

namespace JaxFem.Surrogate

open scoped BigOperators
open Matrix

/-! ### Helper lemmas -/

/-- Derivative of the six components of `FᵀF` in the direction `H`. -/
theorem gram_line (F H : Matrix (Fin 3) (Fin 3) ℝ) (k : Fin 6) :
    HasDerivAt (fun t : ℝ => tensorToFlat ((F + t • H).transpose * (F + t • H)) k)
      (tensorToFlat (F.transpose * H + H.transpose * F) k) 0 := by
  have e : ∀ t : ℝ, (F + t • H).transpose * (F + t • H)
      = F.transpose * F + t • (F.transpose * H + H.transpose * F) + t ^ 2 • (H.transpose * H) := by
    intro t
    rw [transpose_add, transpose_smul, Matrix.add_mul, Matrix.mul_add, Matrix.mul_add, Matrix.smul_mul, Matrix.smul_mul,
      Matrix.mul_smul, Matrix.mul_smul, smul_smul, smul_add, ← sq]
    abel
  have h := poly_deriv (tensorToFlat (F.transpose * F) k) (tensorToFlat (F.transpose * H + H.transpose * F) k)
    (tensorToFlat (H.transpose * H) k)
  refine h.congr_of_eventuallyEq (Filter.Eventually.of_forall fun t => ?_)
  dsimp only
  rw [e]
  fin_cases k <;> simp [tensorToFlat] <;> ring

/-- The matrix of derivatives of the energy with respect to `C`, times two. -/
def twice (g : Fin 6 → ℝ) : Matrix (Fin 3) (Fin 3) ℝ := !![2 * g 0, g 3, g 4; g 3, 2 * g 1, g 5; g 4, g 5, 2 * g 2]

/-- Gradient of a function of six numbers. -/
noncomputable def grad6 (nn : (Fin 6 → ℝ) → ℝ) (x : Fin 6 → ℝ) (k : Fin 6) : ℝ := fderiv ℝ nn x (Pi.single k 1)

theorem grad6_apply (nn : (Fin 6 → ℝ) → ℝ) (x d : Fin 6 → ℝ) : fderiv ℝ nn x d = ∑ k, grad6 nn x k * d k := by
  unfold grad6
  set L := fderiv ℝ nn x
  have : d = ∑ i, d i • (Pi.single i 1 : Fin 6 → ℝ) := by
    funext k
    simp [Finset.sum_apply, Pi.single_apply]
  conv_lhs => rw [this]
  rw [map_sum]
  refine Finset.sum_congr rfl fun i _ => ?_
  rw [map_smul, smul_eq_mul, mul_comm]

theorem psiNN_grad (nn : (Fin 6 → ℝ) → ℝ) (F : Matrix (Fin 3) (Fin 3) ℝ)
    (hd : DifferentiableAt ℝ nn (tensorToFlat (F.transpose * F))) (i j : Fin 3) :
    Hyper.grad (psiNN nn) (fun i j => F i j) i j = (F * twice (grad6 nn (tensorToFlat (F.transpose * F)))) i j := by
  set x := tensorToFlat (F.transpose * F) with hx
  have hc : DifferentiableAt ℝ (fun F : Fin 3 → Fin 3 → ℝ => tensorToFlat ((of F).transpose * of F)) (fun i j => F i j) := by
    refine differentiableAt_pi.2 fun k => ?_
    fin_cases k <;> simp only [tensorToFlat] <;> simp [Matrix.mul_apply, Fin.sum_univ_three] <;> fun_prop
  have h1 : HasFDerivAt nn (fderiv ℝ nn x) x := hd.hasFDerivAt
  have h2 : HasFDerivAt (psiNN nn) _ (fun i j => F i j) := HasFDerivAt.comp (fun i j => F i j) h1 hc.hasFDerivAt
  set H : Matrix (Fin 3) (Fin 3) ℝ := fun a b => (Pi.single i (Pi.single j (1 : ℝ)) : Fin 3 → Fin 3 → ℝ) a b with hH
  have hl : HasDerivAt (fun t : ℝ => (fun i j => F i j + t * H i j : Fin 3 → Fin 3 → ℝ)) (fun i j => H i j) 0 := by
    refine hasDerivAt_pi.2 fun a => hasDerivAt_pi.2 fun b => ?_
    simpa using ((hasDerivAt_id (0 : ℝ)).mul_const (H a b)).const_add (F a b)
  have h0 : (fun i j => F i j + (0 : ℝ) * H i j : Fin 3 → Fin 3 → ℝ) = fun i j => F i j := by simp
  have h3 := HasFDerivAt.comp_hasDerivAt (f := fun t : ℝ => (fun i j => F i j + t * H i j : Fin 3 → Fin 3 → ℝ)) (0 : ℝ)
    (by rw [h0]; exact h2) hl
  have h4 : HasDerivAt (fun t : ℝ => tensorToFlat ((F + t • H).transpose * (F + t • H)))
      (tensorToFlat (F.transpose * H + H.transpose * F)) 0 := hasDerivAt_pi.2 fun k => gram_line F H k
  have h5 := HasFDerivAt.comp_hasDerivAt (f := fun t : ℝ => tensorToFlat ((F + t • H).transpose * (F + t • H))) (0 : ℝ)
    (by rw [zero_smul, add_zero]; exact h1) h4
  have h6 := h3.unique h5
  rw [Hyper.grad, h2.fderiv]
  refine h6.trans ?_
  rw [grad6_apply]
  generalize grad6 nn x = g
  rw [Fin.sum_univ_six]
  have hv : ∀ a b, H a b = if a = i ∧ b = j then 1 else 0 := by
    intro a b
    rw [hH]
    by_cases ha : a = i
    · subst ha
      simp [Pi.single_apply]
    · simp [ha]
  fin_cases i <;> fin_cases j <;>
    simp [tensorToFlat, twice, Matrix.mul_apply, Fin.sum_univ_three, hv] <;> ring

theorem stressNN_eq (nn : (Fin 6 → ℝ) → ℝ) (F : Matrix (Fin 3) (Fin 3) ℝ)
    (hd : DifferentiableAt ℝ nn (tensorToFlat (F.transpose * F))) :
    of (stressNN nn fun i j => F i j - (1 : Matrix (Fin 3) (Fin 3) ℝ) i j)
      = F * twice (grad6 nn (tensorToFlat (F.transpose * F))) := by
  ext i j
  rw [of_apply, stressNN, Hyper.firstPK]
  have : (fun i j => F i j - (1 : Matrix (Fin 3) (Fin 3) ℝ) i j + if i = j then 1 else 0) = fun i j => F i j := by
    funext i j
    simp [Matrix.one_apply]
  rw [this]
  exact psiNN_grad nn F hd i j

theorem twice_symm (g : Fin 6 → ℝ) : (twice g).transpose = twice g := by
  ext i j
  fin_cases i <;> fin_cases j <;> rfl

theorem i1bar_conj (C Q : Matrix (Fin 3) (Fin 3) ℝ) (hQ : Q * Q.transpose = 1) :
    i1bar (Q.transpose * C * Q) = i1bar C ∧ i2bar (Q.transpose * C * Q) = i2bar C ∧ (Q.transpose * C * Q).det = C.det := by
  have hd : (Q.transpose * C * Q).det = C.det := by
    have h1 : Q.det * Q.det = 1 := by
      have := congrArg det hQ
      rwa [det_mul, det_transpose, det_one] at this
    rw [det_mul, det_mul, det_transpose]
    calc Q.det * C.det * Q.det = Q.det * Q.det * C.det := by ring
      _ = C.det := by rw [h1, one_mul]
  have ht : ∀ A : Matrix (Fin 3) (Fin 3) ℝ, (Q.transpose * A * Q).trace = A.trace := by
    intro A
    rw [trace_mul_comm, ← Matrix.mul_assoc, hQ, Matrix.one_mul]
  have h2 : Q.transpose * C * Q * (Q.transpose * C * Q) = Q.transpose * (C * C) * Q := by
    calc Q.transpose * C * Q * (Q.transpose * C * Q) = Q.transpose * C * (Q * Q.transpose) * (C * Q) := by
          simp only [Matrix.mul_assoc]
      _ = _ := by rw [hQ, Matrix.mul_one]; simp only [Matrix.mul_assoc]
  refine ⟨?_, ?_, hd⟩
  · rw [i1bar, i1bar, hd, ht]
  · rw [i2bar, i2bar, hd, ht, h2, ht]

/-! ### Property theorems -/

/-- C96. `flat_to_tensor` and `tensor_to_flat` are inverse to each other between six numbers and symmetric matrices; of a matrix that is not
symmetric the lower triangle is lost. -/
theorem C96_flat (x : Fin 6 → ℝ) (X : Matrix (Fin 3) (Fin 3) ℝ) :
    tensorToFlat (flatToTensor x) = x ∧ (flatToTensor x).transpose = flatToTensor x ∧
    (flatToTensor (tensorToFlat X) = X ↔ X.transpose = X) := by
  refine ⟨?_, ?_, fun h => ?_, fun h => ?_⟩
  · funext i
    fin_cases i <;> rfl
  · ext i j
    fin_cases i <;> fin_cases j <;> rfl
  · rw [← h]
    ext i j
    fin_cases i <;> fin_cases j <;> rfl
  · have h' : ∀ i j, X j i = X i j := fun i j => congrFun (congrFun h i) j
    ext i j
    fin_cases i <;> fin_cases j <;> simp [flatToTensor, tensorToFlat] <;> exact (h' _ _)

/-- C96. The samples of symmetric `H` reach every deformation: for every invertible `F` there are six numbers such that `H_to_C` returns `C = FᵀF`,
and they are unique if `I + H` is to be positive definite. -/
theorem C96_samples (F : Matrix (Fin 3) (Fin 3) ℝ) (hF : F.det ≠ 0) :
    ∃! h : Fin 6 → ℝ, (hToC h).2 = F.transpose * F ∧ (hToC h).1 = ![(F.transpose * F) 0 0, (F.transpose * F) 1 1,
      (F.transpose * F) 2 2, (F.transpose * F) 0 1, (F.transpose * F) 0 2, (F.transpose * F) 1 2] ∧
      ∀ v : Fin 3 → ℝ, v ≠ 0 → 0 < v ⬝ᵥ (flatToTensor h + 1).mulVec v := by
  classical
  choose evals evecs he using fun x : Fin 3 → Fin 3 → ℝ => Eigen.exists_eigh x
  obtain ⟨⟨p1, p2, p3, p4⟩, hu, -⟩ := Contact.C94_polar (fun x => (evals x, evecs x)) he F hF
  set R := Contact.rotation (fun x => (evals x, evecs x)) F
  set U := Contact.stretch (fun x => (evals x, evecs x)) F
  have hsym : (U - 1).transpose = U - 1 := by rw [transpose_sub, p2, transpose_one]
  have hflat : flatToTensor (tensorToFlat (U - 1)) = U - 1 := (C96_flat 0 (U - 1)).2.2.2 hsym
  have hC : F.transpose * F = U * U := by
    rw [p4, transpose_mul, p2]
    calc U * R.transpose * (R * U) = U * (R.transpose * R) * U := by simp only [Matrix.mul_assoc]
      _ = U * U := by rw [p1, Matrix.mul_one]
  refine ⟨tensorToFlat (U - 1), ⟨?_, ?_, ?_⟩, ?_⟩
  · simp only [hToC]
    rw [hflat, sub_add_cancel, p2, hC]
  · simp only [hToC]
    rw [hflat, sub_add_cancel, p2, ← hC]
    rfl
  · rw [hflat, sub_add_cancel]
    exact p3
  · rintro h ⟨h1, -, h3⟩
    simp only [hToC] at h1
    set V := flatToTensor h + 1 with hV
    have hVs : V.transpose = V := by rw [hV, transpose_add, (C96_flat h 0).2.1, transpose_one]
    have hVd : V.det ≠ 0 := by
      intro h0
      have := congrArg det h1
      rw [det_mul, det_mul, det_transpose, det_transpose, h0, zero_mul] at this
      exact hF (mul_self_eq_zero.1 this.symm)
    have hpol : IsPolar F (F * V⁻¹) V := by
      refine ⟨?_, hVs, h3, ?_⟩
      · rw [transpose_mul, transpose_nonsing_inv, hVs]
        calc V⁻¹ * F.transpose * (F * V⁻¹) = V⁻¹ * (F.transpose * F) * V⁻¹ := by simp only [Matrix.mul_assoc]
          _ = V⁻¹ * (V * V) * V⁻¹ := by rw [← h1, hVs]
          _ = (V⁻¹ * V) * (V * V⁻¹) := by simp only [Matrix.mul_assoc]
          _ = 1 := by rw [nonsing_inv_mul _ hVd.isUnit, mul_nonsing_inv _ hVd.isUnit, Matrix.mul_one]
      · rw [Matrix.mul_assoc, nonsing_inv_mul _ hVd.isUnit, Matrix.mul_one]
    have := (hu _ _ hpol).2
    rw [← this, hV, add_sub_cancel_right]
    exact (C96_flat h 0).1.symm

/-- C96. The law of `multi_scale` for any network of the six components of `C` that is differentiable at the deformation: closed form,
frame indifference of energy and stress, symmetry of the Kirchhoff stress. -/
theorem C96_invariant (nn : (Fin 6 → ℝ) → ℝ) (F : Matrix (Fin 3) (Fin 3) ℝ)
    (hd : DifferentiableAt ℝ nn (tensorToFlat (F.transpose * F))) :
    (∀ i j, stressNN nn (fun i j => F i j - (1 : Matrix (Fin 3) (Fin 3) ℝ) i j) i j
      = (F * twice fun k => fderiv ℝ nn (tensorToFlat (F.transpose * F)) (Pi.single k 1)) i j) ∧
    (∀ Q : Matrix (Fin 3) (Fin 3) ℝ, Q.transpose * Q = 1 →
      psiNN nn (fun i j => (Q * F) i j) = psiNN nn (fun i j => F i j) ∧
      of (stressNN nn fun i j => (Q * F) i j - (1 : Matrix (Fin 3) (Fin 3) ℝ) i j)
        = Q * of (stressNN nn fun i j => F i j - (1 : Matrix (Fin 3) (Fin 3) ℝ) i j)) ∧
    (of (stressNN nn fun i j => F i j - (1 : Matrix (Fin 3) (Fin 3) ℝ) i j) * F.transpose).transpose
      = of (stressNN nn fun i j => F i j - (1 : Matrix (Fin 3) (Fin 3) ℝ) i j) * F.transpose := by
  refine ⟨fun i j => ?_, fun Q hQ => ?_, ?_⟩
  · exact congrFun (congrFun (stressNN_eq nn F hd) i) j
  · have hc : (Q * F).transpose * (Q * F) = F.transpose * F := by
      rw [Matrix.transpose_mul, Matrix.mul_assoc, ← Matrix.mul_assoc Q.transpose, hQ, Matrix.one_mul]
    refine ⟨congrArg (fun C => nn (tensorToFlat C)) hc, ?_⟩
    rw [stressNN_eq nn (Q * F) (by rw [hc]; exact hd), stressNN_eq nn F hd, hc, Matrix.mul_assoc]
  · rw [stressNN_eq nn F hd, transpose_mul, transpose_mul, transpose_transpose, twice_symm, Matrix.mul_assoc]

/-- C96. In this law no initial stress is subtracted: the undeformed body is free of stress exactly if the gradient of the network vanishes at
`C = I`, which training with energies does not ensure. -/
theorem C96_initial (nn : (Fin 6 → ℝ) → ℝ) (hd : DifferentiableAt ℝ nn ![1, 1, 1, 0, 0, 0]) :
    stressNN nn (fun _ _ => 0) = (fun _ _ => 0) ↔ ∀ d : Fin 6 → ℝ, fderiv ℝ nn ![1, 1, 1, 0, 0, 0] d = 0 := by
  have hI : tensorToFlat ((1 : Matrix (Fin 3) (Fin 3) ℝ).transpose * 1) = ![1, 1, 1, 0, 0, 0] := by
    funext i
    fin_cases i <;> simp [tensorToFlat]
  have h := stressNN_eq nn 1 (by rw [hI]; exact hd)
  rw [hI, Matrix.one_mul] at h
  have e : (fun i j => (1 : Matrix (Fin 3) (Fin 3) ℝ) i j - (1 : Matrix (Fin 3) (Fin 3) ℝ) i j) = fun _ _ => (0 : ℝ) := by
    funext i j; simp
  rw [e] at h
  constructor
  · intro h0 d
    rw [h0] at h
    have hk : ∀ i j, twice (grad6 nn ![1, 1, 1, 0, 0, 0]) i j = 0 := fun i j => (congrFun (congrFun h i) j).symm
    have k0 := hk 0 0
    have k1 := hk 1 1
    have k2 := hk 2 2
    have k3 := hk 0 1
    have k4 := hk 0 2
    have k5 := hk 1 2
    simp [twice] at k0 k1 k2 k3 k4 k5
    rw [grad6_apply, Fin.sum_univ_six, k0, k1, k2, k3, k4, k5]
    ring
  · intro h0
    have hz : grad6 nn ![1, 1, 1, 0, 0, 0] = fun _ => 0 := funext fun k => h0 _
    rw [hz] at h
    funext i j
    have := congrFun (congrFun h i) j
    rw [of_apply] at this
    rw [this]
    fin_cases i <;> fin_cases j <;> simp [twice]

/-- C96. `poly_psi`: ten terms, invariant under rotations of the reference configuration. For a pure change of volume `C = s² I` the terms of the
distortion vanish, and the terms of the volume are powers of `J - 3` instead of `J - 1`: they do not vanish in the undeformed state and are smallest at
three times the volume. -/
theorem C96_poly (C Q : Matrix (Fin 3) (Fin 3) ℝ) (hQ : Q * Q.transpose = 1) (s : ℝ) (hs : 0 < s) :
    (polyPsi C).length = 10 ∧ polyPsi (Q.transpose * C * Q) = polyPsi C ∧
    polyPsi ((s ^ 2) • 1) = [0, 0, 0, 0, 0, 0, 0, 0, (s ^ 3 - 3) ^ 2, (s ^ 3 - 3) ^ 4] ∧
    polyPsi 1 = [0, 0, 0, 0, 0, 0, 0, 0, 4, 16] := by
  have key : ∀ s : ℝ, 0 < s → polyPsi ((s ^ 2) • 1) = [0, 0, 0, 0, 0, 0, 0, 0, (s ^ 3 - 3) ^ 2, (s ^ 3 - 3) ^ 4] := by
    intro s hs
    have hd : ((s ^ 2) • (1 : Matrix (Fin 3) (Fin 3) ℝ)).det = s ^ 6 := by
      rw [det_smul, det_one, Fintype.card_fin]; ring
    have ht : ((s ^ 2) • (1 : Matrix (Fin 3) (Fin 3) ℝ)).trace = 3 * s ^ 2 := by
      rw [trace_smul, trace_one, Fintype.card_fin, smul_eq_mul]; push_cast; ring
    have ht2 : ((s ^ 2) • (1 : Matrix (Fin 3) (Fin 3) ℝ) * (s ^ 2) • 1).trace = 3 * s ^ 4 := by
      rw [Matrix.smul_mul, Matrix.one_mul, smul_smul, trace_smul, trace_one, Fintype.card_fin, smul_eq_mul]; push_cast; ring
    have r1 : (s ^ 6 : ℝ) ^ (-1 / 3 : ℝ) = (s ^ 2)⁻¹ := by
      rw [← Real.rpow_natCast, ← Real.rpow_mul hs.le, ← Real.rpow_natCast, ← Real.rpow_neg hs.le]
      norm_num
    have r2 : (s ^ 6 : ℝ) ^ (-2 / 3 : ℝ) = (s ^ 4)⁻¹ := by
      rw [← Real.rpow_natCast, ← Real.rpow_mul hs.le, ← Real.rpow_natCast, ← Real.rpow_neg hs.le]
      norm_num
    have i1 : i1bar ((s ^ 2) • 1) = 3 := by
      rw [i1bar, hd, ht, r1]; field_simp
    have i2 : i2bar ((s ^ 2) • 1) = 3 := by
      rw [i2bar, hd, ht, ht2, r2]; field_simp; ring
    have hq : Real.sqrt (s ^ 6) = s ^ 3 := by
      rw [show s ^ 6 = (s ^ 3) ^ 2 by ring, Real.sqrt_sq (by positivity)]
    simp only [polyPsi, i1, i2, hd, hq]
    simp [List.range_succ, List.range', List.flatMap_cons]
  refine ⟨?_, ?_, key s hs, ?_⟩
  · simp [polyPsi]
  · obtain ⟨h1, h2, h3⟩ := i1bar_conj C Q hQ
    simp only [polyPsi, h1, h2, h3]
  · have := key 1 one_pos
    simp only [one_pow, one_smul] at this
    rw [this]
    norm_num

/-- A network for which the hypotheses hold. -/
example : stressNN (fun x => x 0 + x 1 + x 2) (fun _ _ => 0) ≠ fun _ _ => 0 := by
  have hd : DifferentiableAt ℝ (fun x : Fin 6 → ℝ => x 0 + x 1 + x 2) ![1, 1, 1, 0, 0, 0] := by fun_prop
  rw [Ne, C96_initial _ hd]
  intro h
  have h1 : HasFDerivAt (fun x : Fin 6 → ℝ => x 0 + x 1 + x 2) (ContinuousLinearMap.proj (R := ℝ) (φ := fun _ : Fin 6 => ℝ) 0
      + ContinuousLinearMap.proj (R := ℝ) (φ := fun _ : Fin 6 => ℝ) 1
      + ContinuousLinearMap.proj (R := ℝ) (φ := fun _ : Fin 6 => ℝ) 2) ![1, 1, 1, 0, 0, 0] :=
    ((hasFDerivAt_apply 0 _).add (hasFDerivAt_apply 1 _)).add (hasFDerivAt_apply 2 _)
  have := h ![1, 0, 0, 0, 0, 0]
  rw [h1.fderiv] at this
  simp at this

end JaxFem.Surrogate
