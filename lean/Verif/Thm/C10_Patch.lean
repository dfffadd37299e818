import Mathlib.Tactic.Ring
import Mathlib.Tactic.NormNum
import Mathlib.Tactic.FinCases
import Mathlib.Data.Fin.VecNotation
import Verif.Thm.C09_Translation
import Verif.Spec.RefShapes

/-!
# C10: patch test
-/

namespace JaxFem

variable {K : Type} [Field K] {nq nfq nn vec dim : Nat}

/-! ### Property theorems -/

/-- **C10 (gradient).** The gradient of the nodal values of an affine field is exact at every
quadrature point of every cell mapped with an invertible Jacobian. -/
theorem C10_affine_gradient (el : RefElement K nq nn dim) (hel : el.Unity)
    (points : List (Fin dim → K)) (sol : List (List K)) (cell : List Nat)
    (hcell : cell.length = nn) (G : Fin vec → Fin dim → K) (b : Fin vec → K)
    (hsol : ∀ n ∈ cell, ∀ i : Fin vec,
      (sol.getD n []).getD i 0 = ∑ j, G i j * (points.getD n 0) j + b i)
    (q : Fin nq)
    (hdet : (mapJacobian (coords nn points cell) (Matrix.of (el.shapeGradsRef q))).det ≠ 0) :
    solToGrad el vec points sol cell q = G := by
  funext i j
  have hmem : ∀ a : Fin nn, cell.getD a 0 ∈ cell := fun a => by
    have ha : (a : Nat) < cell.length := by rw [hcell]; exact a.2
    rw [List.getD_eq_getElem _ _ ha]; exact List.getElem_mem ha
  rw [← physicalCoos_eq, ← jacobian_eq] at hdet
  simp only [solToGrad, hsol _ (hmem _), add_mul, Finset.sum_mul]
  rw [Finset.sum_add_distrib, ← Finset.mul_sum, grads_sum_zero _ _ (hel q).2, mul_zero, add_zero,
    Finset.sum_comm]
  have : ∀ k : Fin dim, ∑ a : Fin nn, G i k * (points.getD (cell.getD a 0) 0) k *
      shapeGradsPhysical (physicalCoos nn points cell) (el.shapeGradsRef q) a j
      = G i k * if k = j then 1 else 0 := by
    intro k
    rw [← coords_grads _ _ hdet k j, Finset.mul_sum]
    exact Finset.sum_congr rfl fun a _ => by rw [mul_assoc]; rfl
  simp only [this]
  simp

/-- **C10 (values).** The quadrature values of the nodal values of an affine field are the affine
field at the physical quadrature points. -/
theorem C10_affine_value (el : RefElement K nq nn dim) (hel : el.Unity)
    (points : List (Fin dim → K)) (sol : List (List K)) (cell : List Nat)
    (hcell : cell.length = nn) (G : Fin vec → Fin dim → K) (b : Fin vec → K)
    (hsol : ∀ n ∈ cell, ∀ i : Fin vec,
      (sol.getD n []).getD i 0 = ∑ j, G i j * (points.getD n 0) j + b i)
    (q : Fin nq) (i : Fin vec) :
    convertFromDofToQuad el vec sol cell q i
      = ∑ j, G i j * physicalPoint (el.shapeVals q) (physicalCoos nn points cell) j + b i := by
  have hmem : ∀ a : Fin nn, cell.getD a 0 ∈ cell := fun a => by
    have ha : (a : Nat) < cell.length := by rw [hcell]; exact a.2
    rw [List.getD_eq_getElem _ _ ha]; exact List.getElem_mem ha
  simp only [convertFromDofToQuad, hsol _ (hmem _), add_mul, Finset.sum_mul]
  rw [Finset.sum_add_distrib, ← Finset.mul_sum, (hel q).1, mul_one, Finset.sum_comm]
  congr 1
  refine Finset.sum_congr rfl fun j _ => ?_
  simp only [physicalPoint, Finset.mul_sum, physicalCoos]
  exact Finset.sum_congr rfl fun a _ => by ring

/-- **C10 (coordinates).** Interpolating the coordinates gives the physical quadrature points. -/
theorem C10_coordinates (el : RefElement K nq nn dim) (points : List (Fin dim → K))
    (sol : List (List K)) (cell : List Nat) (hcell : cell.length = nn)
    (hsol : ∀ n ∈ cell, ∀ i : Fin dim, (sol.getD n []).getD i 0 = (points.getD n 0) i) (q : Fin nq) :
    convertFromDofToQuad el dim sol cell q
      = physicalPoint (el.shapeVals q) (physicalCoos nn points cell) := by
  funext i
  refine Finset.sum_congr rfl fun a _ => ?_
  have ha : (a : Nat) < cell.length := by rw [hcell]; exact a.2
  rw [hsol _ (by rw [List.getD_eq_getElem _ _ ha]; exact List.getElem_mem ha), mul_comm]
  rfl

/-- **C10 (faces).** The same on faces: an affine field is reproduced at the physical quadrature
points of every selected face. -/
theorem C10_affine_face_value (fc : RefFaces K nfq nn dim) (hfc : fc.Unity)
    (points : List (Fin dim → K)) (sol : List (List K)) (cells : List (List Nat)) (p : Nat × Nat)
    (hcell : (cells.getD p.1 []).length = nn) (G : Fin vec → Fin dim → K) (b : Fin vec → K)
    (hsol : ∀ n ∈ cells.getD p.1 [], ∀ i : Fin vec,
      (sol.getD n []).getD i 0 = ∑ j, G i j * (points.getD n 0) j + b i)
    (q : Fin nfq) (i : Fin vec) :
    convertFromDofToFaceQuad fc vec sol cells p q i
      = ∑ j, G i j * physicalPoint (fc.shapeVals p.2 q)
          (physicalCoos nn points (cells.getD p.1 [])) j + b i :=
  C10_affine_value ⟨fc.shapeVals p.2, fc.shapeGradsRef p.2, fc.quadWeights p.2⟩
    (fun q => hfc p.2 q) points sol (cells.getD p.1 []) hcell G b hsol q i

/-- **C08–C10 (hypotheses).** The first-order elements of the code are partitions of unity at every
choice of quadrature points. -/
theorem C10_first_order_unity (w : Fin nq → K) (p2 : Fin nq → Fin 2 → K) (p3 : Fin nq → Fin 3 → K) :
    (tabulate tri3N tri3G p2 w).Unity ∧ (tabulate quad4N quad4G p2 w).Unity ∧
    (tabulate tet4N tet4G p3 w).Unity ∧ (tabulate hex8N hex8G p3 w).Unity := by
  refine ⟨fun q => ⟨?_, fun j => ?_⟩, fun q => ⟨?_, fun j => ?_⟩, fun q => ⟨?_, fun j => ?_⟩,
    fun q => ⟨?_, fun j => ?_⟩⟩
  · simp only [SumsToOne, tabulate, tri3N, Fin.sum_univ_three]; simp; try ring
  · fin_cases j <;> simp [tabulate, tri3G, Fin.sum_univ_three]
  · simp only [SumsToOne, tabulate, quad4N, Fin.sum_univ_four]; simp; ring
  · fin_cases j <;> simp [tabulate, quad4G, Fin.sum_univ_four]
  · simp only [SumsToOne, tabulate, tet4N, Fin.sum_univ_four]; simp; try ring
  · fin_cases j <;> simp [tabulate, tet4G, Fin.sum_univ_four]
  · simp only [SumsToOne, tabulate, hex8N, Fin.sum_univ_eight]; simp; ring
  · fin_cases j <;> simp [tabulate, hex8G, Fin.sum_univ_eight] <;> ring

/-! Non-vacuity: two triangles forming the square with corners (0,0), (2,0), (2,2), (0,2), an
internal quadrature point, a traction on the right edge, and a nonlinear symmetric stress. -/

/-- Example problem. -/
noncomputable def exProblem : Problem1 Unit 1 1 3 2 2 where
  numTotalNodes := 4
  points := [![0, 0], ![2, 0], ![2, 2], ![0, 2]]
  cells := [⟨[0, 1, 2], fun _ => ()⟩, ⟨[0, 2, 3], fun _ => ()⟩]
  el := tabulate tri3N tri3G (fun _ => ![1/3, 1/3]) (fun _ => 1/2)
  fc := ⟨fun _ _ => tri3N ![1/2, 1/2], fun _ _ => tri3G ![1/2, 1/2], fun _ _ => 1, fun _ => ![1, 1]⟩
  tensorMap := fun _ G i j => (G i j + G j i) ^ 3
  massMap := none
  surfaces := []

example : exProblem.WF where
  nonempty := by simp [exProblem]
  points := by simp [exProblem]
  cell_length := by intro c hc; simp [exProblem] at hc; rcases hc with rfl | rfl <;> rfl
  cell_lt := by intro c hc n hn; simp [exProblem] at hc ⊢; rcases hc with rfl | rfl <;> simp at hn <;> omega
  face_lt := by intro s hs; simp [exProblem] at hs

example : exProblem.el.Unity :=
  (C10_first_order_unity _ _ (fun _ _ => 0)).1

example : exProblem.fc.Unity := by
  intro f q
  refine ⟨?_, fun j => ?_⟩
  · simp only [SumsToOne, exProblem, tri3N, Fin.sum_univ_three]; simp
  · fin_cases j <;> simp [exProblem, tri3G, Fin.sum_univ_three]

example : exProblem.el.Regular exProblem.points exProblem.conn := by
  intro cell hcell q
  simp [exProblem, Problem1.conn] at hcell
  rcases hcell with rfl | rfl <;>
    simp [exProblem, mapJacobian, coords, tabulate, tri3G, Matrix.det_fin_two, Matrix.mul_apply,
      Fin.sum_univ_three]

example : ∀ iv G i j, exProblem.tensorMap iv G i j = exProblem.tensorMap iv G j i := by
  intro iv G i j
  simp only [exProblem]; ring

example : HasShapes [(exProblem.numTotalNodes, 2)] [[[(1:ℝ), 2], [3, 4], [5, 6], [7, 9]]] :=
  ⟨_, _, rfl, rfl, by simp, rfl⟩

end JaxFem
