import Mathlib.Tactic.LinearCombination
import Mathlib.Tactic.Positivity
import Mathlib.Tactic.FieldSimp
import Verif.Thm.C10_Patch
import Verif.Spec.Measure

/-!
# C12: the Nanson factor is the surface measure
-/

namespace JaxFem

variable {nn : Nat}

/-! ### Helper lemmas -/

theorem sqrt_mul_det {A B C d : ℝ} (hA : 0 ≤ A) (h : A * d ^ 2 * B = C) :
    Real.sqrt A * |d| * Real.sqrt B = Real.sqrt C := by
  rw [← h, ← Real.sqrt_sq_eq_abs, ← Real.sqrt_mul hA, ← Real.sqrt_mul (by positivity)]

theorem det_mul_inv_apply {d : Nat} (J : Matrix (Fin d) (Fin d) ℝ) (h : J.det ≠ 0) (k j : Fin d) :
    J.det * J⁻¹ k j = J.adjugate k j := by
  rw [Matrix.inv_def, Matrix.smul_apply, smul_eq_mul, Ring.inverse_eq_inv', ← mul_assoc,
    mul_inv_cancel₀ h, one_mul]

theorem nanson_sum_sq {d : Nat} (J : Matrix (Fin d) (Fin d) ℝ) (h : J.det ≠ 0) (n : Fin d → ℝ) :
    (∑ j, (∑ k, n k * J⁻¹ k j) ^ 2) * J.det ^ 2 = ∑ j, (∑ k, n k * J.adjugate k j) ^ 2 := by
  rw [Finset.sum_mul]
  refine Finset.sum_congr rfl fun j _ => ?_
  rw [← mul_pow, Finset.sum_mul]
  congr 1
  refine Finset.sum_congr rfl fun k _ => ?_
  rw [← det_mul_inv_apply J h]; ring

theorem nanson_edge_abs (X g : Fin nn → Fin 2 → ℝ) (n t : Fin 2 → ℝ) (w : ℝ)
    (hdet : (jacobianDxDeta X g).det ≠ 0) (hn : n ⬝ᵥ n = 1) (hnt : n ⬝ᵥ t = 0) :
    Real.sqrt (∑ j, (∑ k, n k * (jacobianDxDeta X g)⁻¹ k j) ^ 2) * |(jacobianDxDeta X g).det|
      * Real.sqrt (t 0 ^ 2 + t 1 ^ 2) = mappedLength (jacobianDxDeta X g) t := by
  refine sqrt_mul_det (by positivity) ?_
  rw [nanson_sum_sq _ hdet]
  generalize jacobianDxDeta X g = J
  simp only [dotProduct, Fin.sum_univ_two] at hn hnt
  simp only [Fin.sum_univ_two, Matrix.adjugate_fin_two, dotProduct, Matrix.mulVec, Matrix.of_apply,
    Matrix.cons_val', Matrix.cons_val_zero, Matrix.cons_val_one, Matrix.cons_val_fin_one]
  have h0 : t 0 = -(n 0 * t 1 - n 1 * t 0) * n 1 := by linear_combination (-t 0) * hn + (n 0) * hnt
  have h1 : t 1 = (n 0 * t 1 - n 1 * t 0) * n 0 := by linear_combination (-t 1) * hn + (n 1) * hnt
  generalize n 0 * t 1 - n 1 * t 0 = α at h0 h1
  rw [h0, h1]
  linear_combination (α ^ 2 * ((n 0 * J 1 1 + n 1 * -J 1 0) ^ 2 + (n 0 * -J 0 1 + n 1 * J 0 0) ^ 2))
    * hn

theorem nanson_face_abs (X g : Fin nn → Fin 3 → ℝ) (n t s : Fin 3 → ℝ)
    (hdet : (jacobianDxDeta X g).det ≠ 0) (hn : n ⬝ᵥ n = 1) (hnt : n ⬝ᵥ t = 0)
    (hns : n ⬝ᵥ s = 0) :
    Real.sqrt (∑ j, (∑ k, n k * (jacobianDxDeta X g)⁻¹ k j) ^ 2) * |(jacobianDxDeta X g).det|
      * Real.sqrt ((t 1 * s 2 - t 2 * s 1) ^ 2 + (t 2 * s 0 - t 0 * s 2) ^ 2
        + (t 0 * s 1 - t 1 * s 0) ^ 2) = mappedArea (jacobianDxDeta X g) t s := by
  refine sqrt_mul_det (by positivity) ?_
  rw [nanson_sum_sq _ hdet]
  generalize jacobianDxDeta X g = J
  simp only [dotProduct, Fin.sum_univ_three] at hn hnt hns
  have hcross : ∀ u v : Fin 3 → ℝ, crossProduct u v
      = ![u 1 * v 2 - u 2 * v 1, u 2 * v 0 - u 0 * v 2, u 0 * v 1 - u 1 * v 0] :=
    fun u v => cross_apply u v
  rw [hcross]
  simp only [dotProduct, Fin.sum_univ_three, Matrix.mulVec, Matrix.cons_val_zero,
    Matrix.cons_val_one, Matrix.cons_val]
  have hadj : J.adjugate = !![J 1 1 * J 2 2 - J 1 2 * J 2 1, -(J 0 1 * J 2 2) + J 0 2 * J 2 1,
      J 0 1 * J 1 2 - J 0 2 * J 1 1;
      -(J 1 0 * J 2 2) + J 1 2 * J 2 0, J 0 0 * J 2 2 - J 0 2 * J 2 0,
      -(J 0 0 * J 1 2) + J 0 2 * J 1 0;
      J 1 0 * J 2 1 - J 1 1 * J 2 0, -(J 0 0 * J 2 1) + J 0 1 * J 2 0,
      J 0 0 * J 1 1 - J 0 1 * J 1 0] := Matrix.adjugate_fin_three J
  rw [hadj]
  simp only [Matrix.of_apply, Matrix.cons_val', Matrix.cons_val_zero, Matrix.cons_val_one,
    Matrix.cons_val]
  -- the cross product of two tangents is parallel to the normal
  set β := n 0 * (t 1 * s 2 - t 2 * s 1) + n 1 * (t 2 * s 0 - t 0 * s 2)
    + n 2 * (t 0 * s 1 - t 1 * s 0) with hβ
  have c0 : t 1 * s 2 - t 2 * s 1 = β * n 0 := by
    rw [hβ]
    linear_combination (-(t 1 * s 2 - t 2 * s 1)) * hn + (n 1 * s 2 - n 2 * s 1) * hnt
      + (-(n 1 * t 2 - n 2 * t 1)) * hns
  have c1 : t 2 * s 0 - t 0 * s 2 = β * n 1 := by
    rw [hβ]
    linear_combination (-(t 2 * s 0 - t 0 * s 2)) * hn + (n 2 * s 0 - n 0 * s 2) * hnt
      + (-(n 2 * t 0 - n 0 * t 2)) * hns
  have c2 : t 0 * s 1 - t 1 * s 0 = β * n 2 := by
    rw [hβ]
    linear_combination (-(t 0 * s 1 - t 1 * s 0)) * hn + (n 0 * s 1 - n 1 * s 0) * hnt
      + (-(n 0 * t 1 - n 1 * t 0)) * hns
  clear_value β
  -- cofactor identity, component by component
  have k0 : (J 1 0 * t 0 + J 1 1 * t 1 + J 1 2 * t 2) * (J 2 0 * s 0 + J 2 1 * s 1 + J 2 2 * s 2)
      - (J 2 0 * t 0 + J 2 1 * t 1 + J 2 2 * t 2) * (J 1 0 * s 0 + J 1 1 * s 1 + J 1 2 * s 2)
      = β * (n 0 * (J 1 1 * J 2 2 - J 1 2 * J 2 1) + n 1 * (-(J 1 0 * J 2 2) + J 1 2 * J 2 0)
        + n 2 * (J 1 0 * J 2 1 - J 1 1 * J 2 0)) := by
    linear_combination (J 1 1 * J 2 2 - J 1 2 * J 2 1) * c0
      + (-(J 1 0 * J 2 2) + J 1 2 * J 2 0) * c1 + (J 1 0 * J 2 1 - J 1 1 * J 2 0) * c2
  have k1 : (J 2 0 * t 0 + J 2 1 * t 1 + J 2 2 * t 2) * (J 0 0 * s 0 + J 0 1 * s 1 + J 0 2 * s 2)
      - (J 0 0 * t 0 + J 0 1 * t 1 + J 0 2 * t 2) * (J 2 0 * s 0 + J 2 1 * s 1 + J 2 2 * s 2)
      = β * (n 0 * (-(J 0 1 * J 2 2) + J 0 2 * J 2 1) + n 1 * (J 0 0 * J 2 2 - J 0 2 * J 2 0)
        + n 2 * (-(J 0 0 * J 2 1) + J 0 1 * J 2 0)) := by
    linear_combination (-(J 0 1 * J 2 2) + J 0 2 * J 2 1) * c0
      + (J 0 0 * J 2 2 - J 0 2 * J 2 0) * c1 + (-(J 0 0 * J 2 1) + J 0 1 * J 2 0) * c2
  have k2 : (J 0 0 * t 0 + J 0 1 * t 1 + J 0 2 * t 2) * (J 1 0 * s 0 + J 1 1 * s 1 + J 1 2 * s 2)
      - (J 1 0 * t 0 + J 1 1 * t 1 + J 1 2 * t 2) * (J 0 0 * s 0 + J 0 1 * s 1 + J 0 2 * s 2)
      = β * (n 0 * (J 0 1 * J 1 2 - J 0 2 * J 1 1) + n 1 * (-(J 0 0 * J 1 2) + J 0 2 * J 1 0)
        + n 2 * (J 0 0 * J 1 1 - J 0 1 * J 1 0)) := by
    linear_combination (J 0 1 * J 1 2 - J 0 2 * J 1 1) * c0
      + (-(J 0 0 * J 1 2) + J 0 2 * J 1 0) * c1 + (J 0 0 * J 1 1 - J 0 1 * J 1 0) * c2
  rw [k0, k1, k2, c0, c1, c2]
  generalize n 0 * (J 1 1 * J 2 2 - J 1 2 * J 2 1) + n 1 * (-(J 1 0 * J 2 2) + J 1 2 * J 2 0)
        + n 2 * (J 1 0 * J 2 1 - J 1 1 * J 2 0) = a0
  generalize n 0 * (-(J 0 1 * J 2 2) + J 0 2 * J 2 1) + n 1 * (J 0 0 * J 2 2 - J 0 2 * J 2 0)
        + n 2 * (-(J 0 0 * J 2 1) + J 0 1 * J 2 0) = a1
  generalize n 0 * (J 0 1 * J 1 2 - J 0 2 * J 1 1) + n 1 * (-(J 0 0 * J 1 2) + J 0 2 * J 1 0)
        + n 2 * (J 0 0 * J 1 1 - J 0 1 * J 1 0) = a2
  linear_combination ((a0 ^ 2 + a1 ^ 2 + a2 ^ 2) * β ^ 2) * hn

/-! ### Property theorems -/

/-- **C12 (2-D).** On an edge with tangent `t` and unit normal `n`, the factor used for surface
integrals (with the face weight computed by `basis.py`) is the reference weight times the physical
line element if the element is not inverted, and minus it if it is inverted. -/
theorem C12_edge (X g : Fin nn → Fin 2 → ℝ) (n t : Fin 2 → ℝ) (w : ℝ) (hn : n ⬝ᵥ n = 1)
    (hnt : n ⬝ᵥ t = 0) :
    (0 < (jacobianDxDeta X g).det →
      nansonScale X g n (faceWeight2 w t) = w * mappedLength (jacobianDxDeta X g) t) ∧
    ((jacobianDxDeta X g).det < 0 →
      nansonScale X g n (faceWeight2 w t) = -(w * mappedLength (jacobianDxDeta X g) t)) := by
  constructor
  · intro hd
    rw [← nanson_edge_abs X g n t w hd.ne' hn hnt, abs_of_pos hd, nansonScale, faceWeight2]
    ring
  · intro hd
    rw [← nanson_edge_abs X g n t w hd.ne hn hnt, abs_of_neg hd, nansonScale, faceWeight2]
    ring

/-- **C12 (3-D).** On a face with tangents `t, s` and unit normal `n`, the factor used for surface
integrals is the reference weight times the physical area element if the element is not inverted,
and minus it if it is inverted. -/
theorem C12_face (X g : Fin nn → Fin 3 → ℝ) (n t s : Fin 3 → ℝ) (w : ℝ) (hn : n ⬝ᵥ n = 1)
    (hnt : n ⬝ᵥ t = 0) (hns : n ⬝ᵥ s = 0) :
    (0 < (jacobianDxDeta X g).det →
      nansonScale X g n (faceWeight3 w t s) = w * mappedArea (jacobianDxDeta X g) t s) ∧
    ((jacobianDxDeta X g).det < 0 →
      nansonScale X g n (faceWeight3 w t s) = -(w * mappedArea (jacobianDxDeta X g) t s)) := by
  constructor
  · intro hd
    rw [← nanson_face_abs X g n t s hd.ne' hn hnt hns, abs_of_pos hd, nansonScale, faceWeight3]
    ring
  · intro hd
    rw [← nanson_face_abs X g n t s hd.ne hn hnt hns, abs_of_neg hd, nansonScale, faceWeight3]
    ring

theorem edge_length_aux {nfq : Nat} (G : (Fin 2 → ℝ) → Fin nn → Fin 2 → ℝ) (va vb : Fin 2 → ℝ)
    (a b : Fin nn)
    (hG : ∀ θ : ℝ, ∀ c, ∑ j, G (onSegment va vb θ) c j * (vb j - va j)
      = (if c = b then 1 else 0) - (if c = a then 1 else 0))
    (X : Fin nn → Fin 2 → ℝ) (θ : Fin nfq → ℝ) (w : Fin nfq → ℝ) (hw : ∑ q, w q = 1)
    (n : Fin 2 → ℝ) (hn : n ⬝ᵥ n = 1) (hnt : n ⬝ᵥ (vb - va) = 0)
    (hdet : ∀ q, 0 < (jacobianDxDeta X (G (onSegment va vb (θ q)))).det) :
    ∑ q, nansonScale X (G (onSegment va vb (θ q))) n (faceWeight2 (w q) (vb - va))
      = euclid (X b - X a) := by
  have key : ∀ q, nansonScale X (G (onSegment va vb (θ q))) n
      (faceWeight2 (w q) (vb - va)) = w q * euclid (X b - X a) := by
    intro q
    rw [(C12_edge X _ n (vb - va) (w q) hn hnt).1 (hdet q), mappedLength]
    congr 2
    funext i
    have h1 := fun c => hG (θ q) c
    simp only [Matrix.mulVec, dotProduct, jacobianDxDeta, Matrix.of_apply, Pi.sub_apply,
      Finset.sum_mul]
    rw [Finset.sum_comm]
    have : ∀ c, ∑ j, X c i * G (onSegment va vb (θ q)) c j * (vb j - va j)
        = X c i * ((if c = b then 1 else 0) - (if c = a then 1 else 0)) := by
      intro c
      rw [← h1 c, Finset.mul_sum]
      exact Finset.sum_congr rfl fun j _ => by ring
    simp only [this]
    simp [mul_sub, Finset.sum_sub_distrib]
  simp only [key]
  rw [← Finset.sum_mul, hw, one_mul]

/-- **C12 (quadrilaterals).** On the edge between neighbouring corners `a`, `b` of a quadrilateral
that is not inverted at the quadrature points, the surface factors sum up to the length of the
physical edge, when the edge weights sum to one and `n` is a unit normal of the reference edge. -/
theorem C12_quad4_edge_length {nfq : Nat} (a b : Fin 4) (hab : b = a + 1 ∨ a = b + 1)
    (X : Fin 4 → Fin 2 → ℝ) (θ w : Fin nfq → ℝ) (hw : ∑ q, w q = 1)
    (n : Fin 2 → ℝ) (hn : n ⬝ᵥ n = 1) (hnt : n ⬝ᵥ (quad4V b - quad4V a) = 0)
    (hdet : ∀ q, 0 < (jacobianDxDeta X (quad4G (onSegment (quad4V a) (quad4V b) (θ q)))).det) :
    ∑ q, nansonScale X (quad4G (onSegment (quad4V a) (quad4V b) (θ q))) n
        (faceWeight2 (w q) (quad4V b - quad4V a)) = euclid (X b - X a) := by
  refine edge_length_aux quad4G _ _ a b (fun θ c => ?_) X θ w hw n hn hnt hdet
  rcases hab with rfl | rfl
  · fin_cases a <;> fin_cases c <;>
      simp [quad4G, quad4V, onSegment, Fin.sum_univ_two]
  · fin_cases b <;> fin_cases c <;>
      simp [quad4G, quad4V, onSegment, Fin.sum_univ_two]

/-- **C12 (triangles).** Same for the edges of a linear triangle. -/
theorem C12_tri3_edge_length {nfq : Nat} (a b : Fin 3)
    (X : Fin 3 → Fin 2 → ℝ) (θ w : Fin nfq → ℝ) (hw : ∑ q, w q = 1)
    (n : Fin 2 → ℝ) (hn : n ⬝ᵥ n = 1) (hnt : n ⬝ᵥ (tri3V b - tri3V a) = 0)
    (hdet : ∀ q, 0 < (jacobianDxDeta X (tri3G (onSegment (tri3V a) (tri3V b) (θ q)))).det) :
    ∑ q, nansonScale X (tri3G (onSegment (tri3V a) (tri3V b) (θ q))) n
        (faceWeight2 (w q) (tri3V b - tri3V a)) = euclid (X b - X a) := by
  refine edge_length_aux tri3G _ _ a b (fun θ c => ?_) X θ w hw n hn hnt hdet
  fin_cases a <;> fin_cases b <;> fin_cases c <;>
    simp [tri3G, tri3V, Fin.sum_univ_two] <;> norm_num

/-- **C12 (tetrahedra).** On the face through vertices `a, b, c` of a positively oriented linear
tetrahedron the surface factors sum up to the area of the physical triangle, when the weights sum to
one half (the area of the reference triangle). -/
theorem C12_tet4_face_area {nfq : Nat} (a b c : Fin 4) (p : Fin nfq → Fin 3 → ℝ)
    (X : Fin 4 → Fin 3 → ℝ) (w : Fin nfq → ℝ) (hw : ∑ q, w q = 1 / 2)
    (n : Fin 3 → ℝ) (hn : n ⬝ᵥ n = 1) (hnt : n ⬝ᵥ (tet4V b - tet4V a) = 0)
    (hns : n ⬝ᵥ (tet4V c - tet4V a) = 0)
    (hdet : ∀ q, 0 < (jacobianDxDeta X (tet4G (p q))).det) :
    ∑ q, nansonScale X (tet4G (p q)) n
        (faceWeight3 (w q) (tet4V b - tet4V a) (tet4V c - tet4V a))
      = 1 / 2 * euclid (crossProduct (X b - X a) (X c - X a)) := by
  have hJ : ∀ (q) (u v : Fin 4), (jacobianDxDeta X (tet4G (p q))).mulVec (tet4V v - tet4V u)
      = X v - X u := by
    intro q u v
    funext i
    fin_cases u <;> fin_cases v <;>
      simp [Matrix.mulVec, dotProduct, jacobianDxDeta, Fin.sum_univ_three, Fin.sum_univ_four,
        tet4G, tet4V] <;> ring
  have key : ∀ q, nansonScale X (tet4G (p q)) n
        (faceWeight3 (w q) (tet4V b - tet4V a) (tet4V c - tet4V a))
      = w q * euclid (crossProduct (X b - X a) (X c - X a)) := by
    intro q
    rw [(C12_face X _ n _ _ (w q) hn hnt hns).1 (hdet q), mappedArea, hJ, hJ]
  simp only [key]
  rw [← Finset.sum_mul, hw]

/-! Non-vacuity: the right edge of the quadrilateral with corners (0,0), (3,0), (4,2), (0,1), unit
normal (1,0), two quadrature points. -/

/-- Example corners. -/
def exQuadX : Fin 4 → Fin 2 → ℝ := ![![0, 0], ![3, 0], ![4, 2], ![0, 1]]

example : ∀ q : Fin 2, 0 < (jacobianDxDeta exQuadX (quad4G (onSegment (quad4V 1) (quad4V 2)
    ((![1/4, 3/4] : Fin 2 → ℝ) q)))).det := by
  intro q
  fin_cases q <;>
    simp [jacobianDxDeta, exQuadX, quad4G, quad4V, onSegment, Matrix.det_fin_two,
      Fin.sum_univ_four] <;> norm_num

example : (![1, 0] : Fin 2 → ℝ) ⬝ᵥ (quad4V 2 - quad4V 1) = 0 ∧
    (![1, 0] : Fin 2 → ℝ) ⬝ᵥ ![1, 0] = 1 := by
  simp [quad4V, dotProduct]

/-- A tetrahedron for `C12_tet4_face_area`, face opposite to vertex 0 (normal (1,1,1)/√3). -/
example : (fun _ => (1 : ℝ) / Real.sqrt 3 : Fin 3 → ℝ) ⬝ᵥ (fun _ => 1 / Real.sqrt 3) = 1 ∧
    (fun _ => (1 : ℝ) / Real.sqrt 3 : Fin 3 → ℝ) ⬝ᵥ (tet4V 2 - tet4V 1) = 0 ∧
    0 < (jacobianDxDeta (![![0, 0, 0], ![2, 0, 0], ![0, 3, 0], ![1, 1, 1]] : Fin 4 → Fin 3 → ℝ)
      (tet4G (fun _ => 0))).det := by
  refine ⟨?_, ?_, ?_⟩
  · simp [dotProduct]; norm_num [← mul_inv]
  · simp [dotProduct, tet4V, Fin.sum_univ_three]
  · simp [jacobianDxDeta, tet4G, Matrix.det_fin_three, Fin.sum_univ_four]

end JaxFem
