import Verif.Model.Contact
import Verif.Spec.Contact
import Verif.Thm.C86_Eigen
import Verif.Spec.Hyper
import Mathlib.Analysis.Matrix.PosDef
import Mathlib.Tactic.FinCases
import Mathlib.Tactic.Positivity

/-!
# C94: third medium contact — the rotation
-/

namespace JaxFem.Contact

open Matrix JaxFem.Eigen

/-! ### Helper lemmas -/

theorem stretch_eq (eigh : Eigh) (F : M3) :
    stretch eigh F = of (eigenF Real.sqrt (eigh (F.transpose * F))) := by
  rw [eigenF_eq]
  rfl

theorem gram_symm {n : Nat} (F : Matrix (Fin n) (Fin n) ℝ) (i j : Fin n) :
    (F.transpose * F) j i = (F.transpose * F) i j := by
  simp only [mul_apply, transpose_apply]
  exact Finset.sum_congr rfl fun k _ => mul_comm _ _

/-- Positive eigenvalues of a positive definite symmetric matrix. -/
theorem eigh_pos {n : Nat} {x : Matrix (Fin n) (Fin n) ℝ} {e : (Fin n → ℝ) × (Fin n → Fin n → ℝ)}
    (h : IsEigh x e.1 e.2) (hs : x.transpose = x) (hp : ∀ v : Fin n → ℝ, v ≠ 0 → 0 < v ⬝ᵥ x.mulVec v) (k : Fin n) :
    0 < e.1 k := by
  have hx : ∀ i j, (x i j + x j i) / 2 = x i j := by
    intro i j
    have : x j i = x i j := congrFun (congrFun hs i) j
    rw [this]; ring
  have ho : ∑ i, e.2 i k * e.2 i k = 1 := by rw [h.orth, if_pos rfl]
  have hv : (fun i => e.2 i k) ≠ 0 := by
    intro h0
    have : ∀ i, e.2 i k = 0 := fun i => congrFun h0 i
    simp [this] at ho
  have h1 := hp _ hv
  have h2 : x.mulVec (fun i => e.2 i k) = fun i => e.1 k * e.2 i k := by
    funext i
    rw [← h.eigen i k]
    refine Eq.trans (b := ∑ j, x i j * e.2 j k) rfl ?_
    exact Finset.sum_congr rfl fun j _ => by rw [hx]
  rw [h2] at h1
  have h3 : (fun i => e.2 i k) ⬝ᵥ (fun i => e.1 k * e.2 i k) = e.1 k * ∑ i, e.2 i k * e.2 i k := by
    rw [dotProduct, Finset.mul_sum]
    exact Finset.sum_congr rfl fun i _ => by ring
  rwa [h3, ho, mul_one] at h1

/-- Positive definiteness from positive eigenvalues. -/
theorem eigenF_pos {n : Nat} {x : Fin n → Fin n → ℝ} {e : (Fin n → ℝ) × (Fin n → Fin n → ℝ)}
    (h : IsEigh x e.1 e.2) (f : ℝ → ℝ) (hf : ∀ k, 0 < f (e.1 k)) :
    (of (eigenF f e)).transpose = of (eigenF f e) ∧ ∀ v : Fin n → ℝ, v ≠ 0 → 0 < v ⬝ᵥ (of (eigenF f e)).mulVec v := by
  constructor
  · ext i j
    simp only [transpose_apply, of_apply, eigenF, proj]
    exact Finset.sum_congr rfl fun b _ => by ring
  · intro v hv
    set y : Fin n → ℝ := (vecs e).transpose.mulVec v with hy
    have hy0 : y ≠ 0 := by
      intro h0
      apply hv
      have : (vecs e).mulVec y = v := by rw [hy, mulVec_mulVec, h.mult, one_mulVec]
      rw [← this, h0, mulVec_zero]
    have h1 : v ⬝ᵥ (of (eigenF f e)).mulVec v = ∑ k, f (e.1 k) * y k ^ 2 := by
      rw [eigenF_eq, ← mulVec_mulVec, ← mulVec_mulVec, dotProduct_mulVec, ← mulVec_transpose, ← hy, dotProduct]
      refine Finset.sum_congr rfl fun k _ => ?_
      rw [mulVec_diagonal]
      ring
    rw [h1]
    obtain ⟨k, hk⟩ : ∃ k, y k ≠ 0 := by
      by_contra hc
      push Not at hc
      exact hy0 (funext hc)
    refine Finset.sum_pos' (fun k _ => mul_nonneg (hf k).le (sq_nonneg _)) ⟨k, Finset.mem_univ _, ?_⟩
    exact mul_pos (hf k) (by positivity)

theorem det_ne_of_pos {n : Nat} {U : Matrix (Fin n) (Fin n) ℝ} (hp : ∀ v : Fin n → ℝ, v ≠ 0 → 0 < v ⬝ᵥ U.mulVec v) :
    U.det ≠ 0 := by
  intro h0
  obtain ⟨v, hv, h1⟩ := exists_mulVec_eq_zero_iff.2 h0
  have := hp v hv
  rw [h1, dotProduct_zero] at this
  exact lt_irrefl _ this

/-- The square root of `C` is unique. -/
theorem eigenF_sqrt_unique {n : Nat} {C U : Matrix (Fin n) (Fin n) ℝ} {e : (Fin n → ℝ) × (Fin n → Fin n → ℝ)}
    (h : IsEigh C e.1 e.2) (hs : U.transpose = U) (hp : ∀ v : Fin n → ℝ, v ≠ 0 → 0 < v ⬝ᵥ U.mulVec v)
    (hC : C = U * U) : of (eigenF Real.sqrt e) = U := by
  obtain ⟨mu, V, hV⟩ := exists_eigh (U : Fin n → Fin n → ℝ)
  have hmu : ∀ k, 0 < mu k := fun k => eigh_pos (e := (mu, V)) hV hs hp k
  have hx : ∀ i j, (U i j + U j i) / 2 = U i j := by
    intro i j
    have : U j i = U i j := congrFun (congrFun hs i) j
    rw [this]; ring
  have hcs : ∀ i j, (C i j + C j i) / 2 = C i j := by
    intro i j
    have : C j i = C i j := by
      have h1 : C.transpose = C := by rw [hC, transpose_mul, hs]
      exact congrFun (congrFun h1 i) j
    rw [this]; ring
  have hm : ∀ i a, ∑ j, U i j * V j a = mu a * V i a := fun i a => by
    rw [← hV.eigen i a]
    exact Finset.sum_congr rfl fun j _ => by rw [hx]
  have h2 : IsEigh C (fun k => mu k ^ 2) V := by
    refine ⟨hV.orth, fun i a => ?_⟩
    calc ∑ j, (C i j + C j i) / 2 * V j a = ∑ j, ∑ k, U i k * (U k j * V j a) := by
            refine Finset.sum_congr rfl fun j _ => ?_
            rw [hcs, hC, mul_apply, Finset.sum_mul]
            exact Finset.sum_congr rfl fun k _ => by ring
      _ = ∑ k, U i k * ∑ j, U k j * V j a := by
            rw [Finset.sum_comm]
            exact Finset.sum_congr rfl fun k _ => by rw [Finset.mul_sum]
      _ = mu a * ∑ k, U i k * V k a := by
            rw [Finset.mul_sum]
            exact Finset.sum_congr rfl fun k _ => by rw [hm]; ring
      _ = mu a ^ 2 * V i a := by rw [hm]; ring
  have h3 := C86_well_defined Real.sqrt C e (fun k => mu k ^ 2, V) h h2
  rw [h3]
  ext i j
  have h4 := (C86_calculus (U : Fin n → Fin n → ℝ) (mu, V) hV).2.1 i j
  rw [hx] at h4
  rw [← h4, of_apply]
  simp only [eigenF]
  exact Finset.sum_congr rfl fun b _ => by
    rw [Real.sqrt_sq (hmu b).le]

theorem gram_pos {F : M3} (hF : F.det ≠ 0) (v : Fin 3 → ℝ) (hv : v ≠ 0) : 0 < v ⬝ᵥ (F.transpose * F).mulVec v := by
  have h1 : v ⬝ᵥ (F.transpose * F).mulVec v = ∑ i, (F.mulVec v i) ^ 2 := by
    rw [← mulVec_mulVec, dotProduct_mulVec, ← mulVec_transpose, transpose_transpose, dotProduct]
    exact Finset.sum_congr rfl fun i _ => (sq _).symm
  rw [h1]
  have h2 : F.mulVec v ≠ 0 := fun h0 => hF (exists_mulVec_eq_zero_iff.1 ⟨v, hv, h0⟩)
  obtain ⟨i, hi⟩ : ∃ i, F.mulVec v i ≠ 0 := by
    by_contra hc
    push Not at hc
    exact h2 (funext hc)
  exact Finset.sum_pos' (fun i _ => sq_nonneg _) ⟨i, Finset.mem_univ _, by positivity⟩

theorem polar_exists {eigh : Eigh} (he : ∀ x, IsEigh x (eigh x).1 (eigh x).2) {F : M3} (hF : F.det ≠ 0) :
    IsPolar F (rotation eigh F) (stretch eigh F) := by
  have hC := he (F.transpose * F)
  have hs : (F.transpose * F).transpose = F.transpose * F := by rw [transpose_mul, transpose_transpose]
  have hpos := eigh_pos hC hs (gram_pos hF)
  obtain ⟨h1, h2⟩ := eigenF_pos hC Real.sqrt fun k => Real.sqrt_pos.2 (hpos k)
  rw [← stretch_eq] at h1 h2
  have hu : IsUnit (stretch eigh F).det := isUnit_iff_ne_zero.2 (det_ne_of_pos h2)
  have hsq : stretch eigh F * stretch eigh F = F.transpose * F := by
    rw [stretch_eq]
    ext i j
    have h3 := (C86_calculus _ _ hC).1 Real.sqrt Real.sqrt i j
    have h4 := (C86_calculus _ _ hC).2.1 i j
    rw [gram_symm F i j] at h4
    rw [mul_apply]
    simp only [of_apply]
    rw [h3]
    have h5 : eigenF (fun t => Real.sqrt t * Real.sqrt t) (eigh (F.transpose * F)) i j =
        eigenF (fun t => t) (eigh (F.transpose * F)) i j := by
      simp only [eigenF]
      exact Finset.sum_congr rfl fun b _ => by rw [Real.mul_self_sqrt (hpos b).le]
    rw [h5, h4]
    ring
  refine ⟨?_, h1, h2, ?_⟩
  · rw [rotation, transpose_mul, transpose_nonsing_inv, h1]
    calc (stretch eigh F)⁻¹ * F.transpose * (F * (stretch eigh F)⁻¹)
        = (stretch eigh F)⁻¹ * (F.transpose * F) * (stretch eigh F)⁻¹ := by simp only [Matrix.mul_assoc]
      _ = ((stretch eigh F)⁻¹ * stretch eigh F) * (stretch eigh F * (stretch eigh F)⁻¹) := by
          rw [← hsq]; simp only [Matrix.mul_assoc]
      _ = 1 := by rw [nonsing_inv_mul _ hu, mul_nonsing_inv _ hu, Matrix.one_mul]
  · rw [rotation, Matrix.mul_assoc, nonsing_inv_mul _ hu, Matrix.mul_one]

theorem polar_unique {eigh : Eigh} (he : ∀ x, IsEigh x (eigh x).1 (eigh x).2) {F R U : M3} (h : IsPolar F R U) :
    rotation eigh F = R ∧ stretch eigh F = U := by
  obtain ⟨h1, h2, h3, h4⟩ := h
  have hC : F.transpose * F = U * U := by
    rw [h4, transpose_mul, h2]
    calc U * R.transpose * (R * U) = U * (R.transpose * R) * U := by simp only [Matrix.mul_assoc]
      _ = U * U := by rw [h1, Matrix.mul_one]
  have hU : stretch eigh F = U := by
    rw [stretch_eq]
    exact eigenF_sqrt_unique (he _) h2 h3 hC
  refine ⟨?_, hU⟩
  rw [rotation, hU, h4, Matrix.mul_assoc, mul_nonsing_inv _ (isUnit_iff_ne_zero.2 (det_ne_of_pos h3)), Matrix.mul_one]

/-! Plane deformations. -/

theorem turning_pos {F : Matrix (Fin 2) (Fin 2) ℝ} (h : 0 < F.det) : 0 < turningLength F := by
  rw [det_fin_two] at h
  apply Real.sqrt_pos.2
  simp only [turning]
  nlinarith [sq_nonneg (F 0 0 - F 1 1), sq_nonneg (F 1 0 + F 0 1)]

theorem turning_sq (F : Matrix (Fin 2) (Fin 2) ℝ) :
    turningLength F ^ 2 = (turning F).1 ^ 2 + (turning F).2 ^ 2 := by
  rw [turningLength, Real.sq_sqrt (by positivity)]

theorem setBlock_eq (F : Fin 2 → Fin 2 → ℝ) : setBlock F = !![F 0 0, F 0 1, 0; F 1 0, F 1 1, 0; 0, 0, 1] := by
  ext i j
  fin_cases i <;> fin_cases j <;> simp [setBlock]

theorem det_setBlock (F : Fin 2 → Fin 2 → ℝ) : (setBlock F).det = (of F).det := by
  rw [setBlock_eq, det_fin_three, det_fin_two]
  simp

/-- Polar decomposition in the plane. -/
theorem polar_plane {F : Matrix (Fin 2) (Fin 2) ℝ} (h : 0 < F.det) :
    ∃ U, IsPolar (setBlock fun i j => F i j) (planeRotation ((turning F).1 / turningLength F) ((turning F).2 / turningLength F)) U := by
  have hs := turning_pos h
  have hq := turning_sq F
  have hs0 := hs.ne'
  set s := turningLength F
  have hc : ((turning F).1 / s) ^ 2 + ((turning F).2 / s) ^ 2 = 1 := by
    field_simp
    linarith
  set c := (turning F).1 / s with hcd
  set t := (turning F).2 / s with htd
  have hp : F 0 0 + F 1 1 = c * s := by rw [hcd]; field_simp; rfl
  have hq' : F 1 0 - F 0 1 = t * s := by rw [htd]; field_simp; rfl
  have hU01 : c * F 0 1 + t * F 1 1 = -t * F 0 0 + c * F 1 0 := by
    linear_combination t * hp - c * hq'
  have htr : (c * F 0 0 + t * F 1 0) + (-t * F 0 1 + c * F 1 1) = s := by
    linear_combination c * hp + t * hq' + s * hc
  have hdet : (c * F 0 0 + t * F 1 0) * (-t * F 0 1 + c * F 1 1) - (c * F 0 1 + t * F 1 1) * (-t * F 0 0 + c * F 1 0) = F.det := by
    rw [det_fin_two]
    linear_combination (F 0 0 * F 1 1 - F 0 1 * F 1 0) * hc
  set u00 := c * F 0 0 + t * F 1 0 with h00
  set u11 := -t * F 0 1 + c * F 1 1 with h11
  set u01 := c * F 0 1 + t * F 1 1 with h01
  rw [← hU01] at hdet
  have hpos : 0 < u00 := by
    by_contra hn
    push Not at hn
    nlinarith [mul_self_nonneg u01]
  refine ⟨!![u00, u01, 0; u01, u11, 0; 0, 0, 1], ?_, ?_, ?_, ?_⟩
  · ext i j
    fin_cases i <;> fin_cases j <;> simp [planeRotation, mul_apply, Fin.sum_univ_three] <;> nlinarith [hc]
  · ext i j
    fin_cases i <;> fin_cases j <;> rfl
  · intro x hx
    have e : x ⬝ᵥ (!![u00, u01, 0; u01, u11, 0; 0, 0, 1] : M3).mulVec x
        = u00 * x 0 ^ 2 + 2 * u01 * x 0 * x 1 + u11 * x 1 ^ 2 + x 2 ^ 2 := by
      simp [dotProduct, mulVec, Fin.sum_univ_three]
      ring
    have e' : u00 * (u00 * x 0 ^ 2 + 2 * u01 * x 0 * x 1 + u11 * x 1 ^ 2 + x 2 ^ 2)
        = (u00 * x 0 + u01 * x 1) ^ 2 + F.det * x 1 ^ 2 + u00 * x 2 ^ 2 := by
      rw [← hdet]; ring
    rw [e]
    refine pos_of_mul_pos_right (a := u00) ?_ hpos.le
    rw [e']
    by_contra hn
    push Not at hn
    have a1 := sq_nonneg (u00 * x 0 + u01 * x 1)
    have a2 := mul_nonneg h.le (sq_nonneg (x 1))
    have a3 := mul_nonneg hpos.le (sq_nonneg (x 2))
    have b1 : F.det * x 1 ^ 2 = 0 := by linarith
    have b2 : u00 * x 2 ^ 2 = 0 := by linarith
    have b3 : (u00 * x 0 + u01 * x 1) ^ 2 = 0 := by linarith
    have c1 : x 1 = 0 := by simpa [h.ne'] using b1
    have c2 : x 2 = 0 := by simpa [hpos.ne'] using b2
    have c0 : x 0 = 0 := by simpa [c1, hpos.ne'] using b3
    apply hx
    funext i
    fin_cases i <;> simp [c0, c1, c2]
  · rw [setBlock_eq]
    have e1 : F 0 0 = c * u00 - t * u01 := by
      rw [h00, hU01]; linear_combination (-F 0 0) * hc
    have e2 : F 0 1 = c * u01 - t * u11 := by
      rw [h01, h11]; linear_combination (-F 0 1) * hc
    have e3 : F 1 0 = t * u00 + c * u01 := by
      rw [h00, hU01]; linear_combination (-F 1 0) * hc
    have e4 : F 1 1 = t * u01 + c * u11 := by
      rw [h01, h11]; linear_combination (-F 1 1) * hc
    ext i j
    fin_cases i <;> fin_cases j <;> simp [planeRotation, mul_apply, Fin.sum_univ_three] <;> linarith

theorem rotation_plane {eigh : Eigh} (he : ∀ x, IsEigh x (eigh x).1 (eigh x).2) {F : Matrix (Fin 2) (Fin 2) ℝ}
    (h : 0 < F.det) : rotation eigh (setBlock fun i j => F i j) =
      planeRotation ((turning F).1 / turningLength F) ((turning F).2 / turningLength F) := by
  obtain ⟨U, hU⟩ := polar_plane h
  exact (polar_unique he hU).1

theorem unit_turning {F : Matrix (Fin 2) (Fin 2) ℝ} (h : 0 < F.det) :
    ((turning F).1 / turningLength F) ^ 2 + ((turning F).2 / turningLength F) ^ 2 = 1 := by
  have hs := (turning_pos h).ne'
  have hq := turning_sq F
  field_simp
  linarith

/-! ### Property theorems -/

/-- **C94 (polar decomposition).** Whatever eigenvectors `eigh` chooses, `rotation` and `stretch` of an invertible matrix
are its polar decomposition `F = R U` with `R` orthogonal and `U` symmetric positive definite, and this decomposition is
unique; therefore a superposed rigid motion `Q` turns the rotation into `Q R`. -/
theorem C94_polar (eigh : Eigh) (he : ∀ x, IsEigh x (eigh x).1 (eigh x).2) (F : M3) (hF : F.det ≠ 0) :
    IsPolar F (rotation eigh F) (stretch eigh F) ∧
    (∀ R U, IsPolar F R U → R = rotation eigh F ∧ U = stretch eigh F) ∧
    (0 < F.det → IsRotation (rotation eigh F)) ∧
    ∀ Q : M3, Q.transpose * Q = 1 →
      rotation eigh (Q * F) = Q * rotation eigh F ∧ stretch eigh (Q * F) = stretch eigh F := by
  have hp := polar_exists he hF
  refine ⟨hp, fun R U h => ?_, fun h => ⟨hp.1, ?_⟩, fun Q hQ => ?_⟩
  · obtain ⟨a, b⟩ := polar_unique he h
    exact ⟨a.symm, b.symm⟩
  · have h1 : (rotation eigh F).det ^ 2 = 1 := by
      have := congrArg det hp.1
      rwa [det_mul, det_transpose, det_one, ← sq] at this
    have h2 : F.det = (rotation eigh F).det * (stretch eigh F).det := by
      have := congrArg det hp.2.2.2
      rwa [det_mul] at this
    have h3 : 0 < (stretch eigh F).det := by
      have hps : (stretch eigh F).PosDef := by
        refine Matrix.PosDef.of_dotProduct_mulVec_pos ?_ fun x hx => ?_
        · rw [IsHermitian, conjTranspose_eq_transpose_of_trivial]
          exact hp.2.1
        · simpa using hp.2.2.1 x hx
      exact hps.det_pos
    rcases sq_eq_sq_iff_eq_or_eq_neg.1 (h1.trans (one_pow 2).symm) with h4 | h4
    · exact h4
    · rw [h4] at h2
      nlinarith
  · refine polar_unique he ⟨?_, hp.2.1, hp.2.2.1, ?_⟩
    · rw [transpose_mul]
      calc (rotation eigh F).transpose * Q.transpose * (Q * rotation eigh F)
          = (rotation eigh F).transpose * (Q.transpose * Q) * rotation eigh F := by simp only [Matrix.mul_assoc]
        _ = 1 := by rw [hQ, Matrix.mul_one, hp.1]
    · rw [Matrix.mul_assoc, ← hp.2.2.2]

/-- **C94 (plane rotations).** A plane deformation with positive determinant is turned about the third axis by the angle of
the vector `(F₀₀ + F₁₁, F₁₀ - F₀₁)`. -/
theorem C94_plane (eigh : Eigh) (he : ∀ x, IsEigh x (eigh x).1 (eigh x).2) (F : Matrix (Fin 2) (Fin 2) ℝ) (h : 0 < F.det) :
    0 < turningLength F ∧
    rotation eigh (setBlock fun i j => F i j) = planeRotation ((turning F).1 / turningLength F) ((turning F).2 / turningLength F) :=
  ⟨turning_pos h, rotation_plane he h⟩

end JaxFem.Contact
