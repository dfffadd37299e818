import Verif.Spec.Benchmarks
import Verif.Thm.C10_Patch
import Verif.Thm.C92_Design

/-!
# C118: nodal forces and the average stress
-/

namespace JaxFem.Benchmarks

open scoped BigOperators

variable {IV : Type} {nq nfq nn vec dim : Nat}

/-! ### Helper lemmas -/

theorem grad_unitMove (P : Problem1 IV nq nfq nn vec dim) (n : Nat) (i i' : Fin vec) (j : Fin dim) (c : Fin P.cells.length)
    (q : Fin nq) : P.gradAt (unitMove vec n i) c q i' j = if i' = i then ∑ a : Fin nn,
      (if (P.cells[c]).nodes.getD a 0 = n then 1 else 0) *
        shapeGradsPhysical (physicalCoos nn P.points (P.cells[c]).nodes) (P.el.shapeGradsRef q) a j else 0 := by
  show P.gradient _ _ q i' j = _
  rw [gradient_eq]
  split_ifs with h
  · refine Finset.sum_congr rfl fun a _ => ?_
    simp [unitMove, h]
  · refine Finset.sum_eq_zero fun a _ => ?_
    simp [unitMove, h]

theorem nodalForce_eq (P : Problem1 IV nq nfq nn vec dim) (S : Fin P.cells.length → Fin nq → Matrix (Fin vec) (Fin dim) ℝ)
    (n : Nat) (i : Fin vec) : nodalForce P S n i = ∑ c, ∑ q, ∑ a : Fin nn, (if (P.cells[c]).nodes.getD a 0 = n then 1 else 0) *
      ((∑ j, S c q i j * shapeGradsPhysical (physicalCoos nn P.points (P.cells[c]).nodes) (P.el.shapeGradsRef q) a j)
        * P.measureAt c q) := by
  rw [nodalForce]
  refine Finset.sum_congr rfl fun c _ => Finset.sum_congr rfl fun q _ => ?_
  unfold contract
  rw [Finset.sum_eq_single i]
  · simp only [grad_unitMove, if_true, Finset.mul_sum, Finset.sum_mul]
    rw [Finset.sum_comm]
    refine Finset.sum_congr rfl fun a _ => Finset.sum_congr rfl fun j _ => ?_
    ring
  · intro i' _ h
    refine Finset.sum_eq_zero fun j _ => ?_
    rw [grad_unitMove, if_neg h, mul_zero]
  · simp

/-- Weighted sum of the nodal forces. -/
theorem weighted_force (P : Problem1 IV nq nfq nn vec dim) (h : P.WF)
    (S : Fin P.cells.length → Fin nq → Matrix (Fin vec) (Fin dim) ℝ) (w : Nat → ℝ) (i : Fin vec) :
    ∑ n ∈ Finset.range P.numTotalNodes, w n * nodalForce P S n i = ∑ c, ∑ q, (∑ j, S c q i j * ∑ a : Fin nn,
      w ((P.cells[c]).nodes.getD a 0) *
        shapeGradsPhysical (physicalCoos nn P.points (P.cells[c]).nodes) (P.el.shapeGradsRef q) a j) * P.measureAt c q := by
  simp only [nodalForce_eq, Finset.mul_sum]
  rw [Finset.sum_comm]
  refine Finset.sum_congr rfl fun c _ => ?_
  rw [Finset.sum_comm]
  refine Finset.sum_congr rfl fun q _ => ?_
  rw [Finset.sum_comm]
  rw [Finset.sum_comm (s := (Finset.univ : Finset (Fin dim))), Finset.sum_mul]
  refine Finset.sum_congr rfl fun a _ => ?_
  have hm := List.getElem_mem (l := P.cells) c.2
  have ha : (P.cells[c]).nodes.getD a 0 ∈ (P.cells[c]).nodes := by
    have : (a : Nat) < (P.cells[c]).nodes.length := (h.cell_length _ hm).symm ▸ a.2
    rw [List.getD_eq_getElem _ _ this]
    exact List.getElem_mem this
  have hlt := h.cell_lt _ hm _ ha
  rw [Finset.sum_eq_single ((P.cells[c]).nodes.getD a 0)]
  · rw [if_pos rfl, one_mul, Finset.sum_mul, Finset.sum_mul, Finset.mul_sum]
    exact Finset.sum_congr rfl fun j _ => by ring
  · intro n _ hn
    rw [if_neg (Ne.symm hn), zero_mul, mul_zero]
  · intro hn
    exact absurd (Finset.mem_range.2 hlt) hn

/-! ### Property theorems -/

/-- **C118 (moments of the nodal forces).** For every mesh without folded cells and every stress field, the moments
`Σ x_j f_i` of the nodal forces are the integrals of the stress components `S_ij`. -/
theorem C118_virial (P : Problem1 IV nq nfq nn vec dim) (h : P.WF) (hu : Unfolded P)
    (S : Fin P.cells.length → Fin nq → Matrix (Fin vec) (Fin dim) ℝ) (i : Fin vec) (j : Fin dim) :
    ∑ n ∈ Finset.range P.numTotalNodes, P.points.getD n 0 j * nodalForce P S n i
      = ∑ c, ∑ q, S c q i j * P.measureAt c q := by
  rw [weighted_force P h]
  refine Finset.sum_congr rfl fun c _ => Finset.sum_congr rfl fun q _ => ?_
  congr 1
  have hm := List.getElem_mem (l := P.cells) c.2
  have hdet := hu _ hm q
  rw [← physicalCoos_eq, ← jacobian_eq] at hdet
  have e : ∀ k, ∑ a : Fin nn, P.points.getD ((P.cells[c]).nodes.getD a 0) 0 j *
      shapeGradsPhysical (physicalCoos nn P.points (P.cells[c]).nodes) (P.el.shapeGradsRef q) a k = if j = k then 1 else 0 :=
    fun k => coords_grads _ _ hdet j k
  simp only [e]
  simp

/-- **C118 (resultant).** The nodal forces of every stress field have no resultant. -/
theorem C118_resultant (P : Problem1 IV nq nfq nn vec dim) (h : P.WF) (hel : P.el.Unity)
    (S : Fin P.cells.length → Fin nq → Matrix (Fin vec) (Fin dim) ℝ) (i : Fin vec) :
    ∑ n ∈ Finset.range P.numTotalNodes, nodalForce P S n i = 0 := by
  have hw := weighted_force P h S (fun _ => 1) i
  simp only [one_mul] at hw
  rw [hw]
  refine Finset.sum_eq_zero fun c _ => Finset.sum_eq_zero fun q _ => ?_
  simp [grads_sum_zero _ _ (hel q).2]

end JaxFem.Benchmarks
