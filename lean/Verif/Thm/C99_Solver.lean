import Verif.Thm.C99_Modal
import Mathlib.Analysis.Matrix.Spectrum
import Mathlib.Analysis.Matrix.Order
import Mathlib.Data.Fin.Tuple.Sort

/-!
# C99: what is assumed about the eigensolver can be met
-/

namespace JaxFem.Modal

open scoped BigOperators Topology MatrixOrder

theorem nearest_exists {N : Nat} {K M : Matrix (Fin N) (Fin N) ℝ} (hK : K.IsSymm) (hM : M.IsSymm)
    (hd : ∀ v, v ≠ 0 → 0 < dotProduct v (M.mulVec v)) (tau : ℝ) : ∃ pair, Nearest K M tau N pair := by
  have hMp : M.PosSemidef := by
    refine Matrix.PosSemidef.of_dotProduct_mulVec_nonneg ?_ fun x => ?_
    · rw [Matrix.IsHermitian, Matrix.conjTranspose_eq_transpose_of_trivial]
      exact hM
    · by_cases hx : x = 0
      · simp [hx]
      · exact (hd x hx).le
  obtain ⟨L, hL⟩ := CStarAlgebra.nonneg_iff_eq_star_mul_self.1 hMp.nonneg
  rw [Matrix.star_eq_conjTranspose, Matrix.conjTranspose_eq_transpose_of_trivial] at hL
  have hLM : ∀ x y, dotProduct x (M.mulVec y) = dotProduct (L.mulVec x) (L.mulVec y) := fun x y => by
    rw [hL, ← Matrix.mulVec_mulVec, Matrix.dotProduct_mulVec, Matrix.vecMul_transpose]
  have hinj : Function.Injective L.mulVec := by
    intro x y hxy
    by_contra hne
    have h1 := hd (x - y) (sub_ne_zero.2 hne)
    rw [hLM, Matrix.mulVec_sub, sub_eq_zero.2 hxy, zero_dotProduct] at h1
    exact lt_irrefl _ h1
  have hu : IsUnit L := Matrix.mulVec_injective_iff_isUnit.1 hinj
  have hdet : IsUnit L.det := (Matrix.isUnit_iff_isUnit_det L).1 hu
  have hc1 : ∀ y, L.mulVec (L⁻¹.mulVec y) = y := fun y => by
    rw [Matrix.mulVec_mulVec, Matrix.mul_nonsing_inv _ hdet, Matrix.one_mulVec]
  have hc2 : L.transpose * L⁻¹.transpose = 1 := by
    rw [← Matrix.transpose_mul, Matrix.nonsing_inv_mul _ hdet, Matrix.transpose_one]
  let A := L⁻¹.transpose * K * L⁻¹
  have hA : A.IsHermitian := by
    rw [Matrix.IsHermitian, Matrix.conjTranspose_eq_transpose_of_trivial]
    simp only [A, Matrix.transpose_mul, Matrix.transpose_transpose, hK.eq, Matrix.mul_assoc]
  let y : Fin N → Fin N → ℝ := fun i => (hA.eigenvectorBasis i).ofLp
  have hy : ∀ i, A.mulVec (y i) = hA.eigenvalues i • y i := fun i => hA.mulVec_eigenvectorBasis i
  have hyo : ∀ i j, dotProduct (y i) (y j) = if i = j then 1 else 0 := fun i j => by
    have h1 := orthonormal_iff_ite.1 hA.eigenvectorBasis.orthonormal i j
    rw [← h1, EuclideanSpace.inner_eq_star_dotProduct]
    rw [dotProduct_comm]
    rfl
  let v : Fin N → Fin N → ℝ := fun i => L⁻¹.mulVec (y i)
  have hv : ∀ i, L.mulVec (v i) = y i := fun i => hc1 _
  have hyne : ∀ i, y i ≠ 0 := fun i h => by
    have := hyo i i
    rw [h, if_pos rfl, zero_dotProduct] at this
    exact zero_ne_one this
  have heig : ∀ i, IsEigenpair K M (hA.eigenvalues i) (v i) := by
    intro i
    refine ⟨fun h => hyne i (by rw [← hv, h, Matrix.mulVec_zero]), ?_⟩
    have h1 : L.transpose.mulVec (A.mulVec (y i)) = K.mulVec (v i) := by
      simp only [A, v, Matrix.mulVec_mulVec]
      rw [← Matrix.mul_assoc, ← Matrix.mul_assoc, hc2, Matrix.one_mul]
    rw [← h1, hy, Matrix.mulVec_smul, hL, ← Matrix.mulVec_mulVec, hv]
  let d : Fin N → ℝ := fun i => |hA.eigenvalues i - tau|
  let s := Tuple.sort d
  have hs : Monotone (d ∘ s) := Tuple.monotone_sort d
  refine ⟨fun k => if hk : k < N then (hA.eigenvalues (s ⟨k, hk⟩), v (s ⟨k, hk⟩)) else (0, 0), ?_, ?_, ?_, ?_⟩
  · intro i hi
    rw [dif_pos hi]
    exact heig _
  · intro i hi j hj
    rw [dif_pos hi, dif_pos hj, hLM, hv, hv, hyo]
    simp only [s.injective.eq_iff, Fin.mk.injEq]
  · intro i hi j hj hij
    rw [dif_pos hi, dif_pos hj]
    exact hs (show (⟨i, hi⟩ : Fin N) ≤ ⟨j, hj⟩ from hij)
  · intro mu w hw ho
    exfalso
    refine hw.1 (hinj ?_)
    rw [Matrix.mulVec_zero]
    have h0 : ∀ i, dotProduct (L.mulVec w) (y i) = 0 := fun i => by
      have := ho (s.symm i) (s.symm i).2
      rw [dif_pos (s.symm i).2] at this
      simp only [Fin.eta, Equiv.apply_symm_apply] at this
      rw [hLM, hv] at this
      exact this
    have h1 : WithLp.toLp 2 (L.mulVec w) = (0 : EuclideanSpace ℝ (Fin N)) := by
      rw [← hA.eigenvectorBasis.sum_repr' (WithLp.toLp 2 (L.mulVec w))]
      refine Finset.sum_eq_zero fun i _ => ?_
      rw [EuclideanSpace.inner_eq_star_dotProduct]
      exact (congrArg (fun c : ℝ => c • hA.eigenvectorBasis i) (h0 i)).trans (zero_smul _ _)
    exact congrArg WithLp.ofLp h1

/-- **C99 (eigensolver).** For positive densities a complete list of eigenpairs as expected from the eigensolver exists:
as many as degrees of freedom, so that the constraints are computed for every mesh with five nodes or more. -/
theorem C99_solver {nq nfq nn : Nat} {B : Problem1 (List ℝ) nq nfq nn 2 2} (h : FreeBody B)
    (rho : Fin B.cells.length → ℝ) (hr : ∀ c, 0 < rho c)
    (K M : Matrix (Fin (totalDofs B.fes)) (Fin (totalDofs B.fes)) ℝ)
    (hK : HasJacobianAt (residual (problemK B) (column rho)) K 0)
    (hM : HasJacobianAt (residual (problemM B) (column rho)) M 0) :
    ∃ pair, Nearest K M 10 (totalDofs B.fes) pair ∧
      (5 ≤ B.numTotalNodes → ∃ c, computeConstraints B rho (totalDofs B.fes) pair = .ok c) := by
  obtain rfl := (stiffness_jacobian B h.wf h.positive rho).1 K 0 hK
  obtain rfl := (mass_jacobian B h.wf h.positive rho).1 M 0 hM
  have hp := free_pencil h rho hr
  obtain ⟨pair, hn⟩ := nearest_exists hp.symmK hp.symmM hp.def' 10
  refine ⟨pair, hn, fun h5 => (C99_errors B rho _ pair).2.2 ?_⟩
  rw [totalDofs_single]
  omega

end JaxFem.Modal
