import Verif.Spec.Mpi
import Verif.Thm.C57_Parallel
import Verif.Thm.LumpedMass
import Verif.Thm.Kernel
import Mathlib.Analysis.Calculus.FDeriv.Pow
import Mathlib.Analysis.Calculus.FDeriv.Mul
import Mathlib.Analysis.Calculus.FDeriv.Add

/-!
# C95: the universal kernel and its tangent
-/

namespace JaxFem
namespace Mpi

open Parallel (IsShapeGrads signedArea2 triArea)

theorem tri3_info {info : ElementInfo} (h : getElements "TRI3" = .ok info) :
    info = ⟨.P, .triangle, .interval, 0, 1, [0, 1, 2]⟩ := by
  simpa [getElements] using h.symm

theorem tri3_vals {info : ElementInfo} (h : getElements "TRI3" = .ok info) (q : Fin 1) (a : Fin 3) :
    (tri3 info).shapeVals q a = 1 / 3 := by
  rw [tri3_info h]
  fin_cases a <;>
    norm_num [tri3, tabulateInfo, shapeValue, reorderedShape, basixShape, basixPoints, basixVertices, lagrangeFn, bary, extend]

theorem tri3_grads {info : ElementInfo} (h : getElements "TRI3" = .ok info) (q : Fin 1) (a : Fin 3) (d : Fin 2) :
    (tri3 info).shapeGradsRef q a d = Parallel.refGrads ℝ a d := by
  rw [tri3_info h]
  fin_cases a <;> fin_cases d <;>
    norm_num [tri3, tabulateInfo, shapeGrad, reorderedShape, basixGrad, basixPoints, basixVertices, lagrangeGrad, bary, dbary,
      extend, Parallel.refGrads]

theorem cellSol_three (x : List ℝ) (h : x.length = 3) (a : Fin 3) : cellSol 3 1 x a 0 = x.getD a 0 := by
  obtain ⟨x0, x1, x2, rfl⟩ := List.length_eq_three.1 h
  fin_cases a <;> rfl

/-- Corners of a cell of the mesh. -/
def corners (points : List (Fin 2 → ℝ)) (cell : List Nat) : Fin 3 → Fin 2 → ℝ := fun a => points.getD (cell.getD a 0) 0

/-- Entry of the element residual with the values `s` at the corners. -/
noncomputable def elementResidual (f : ℝ → ℝ → ℝ) (X g : Fin 3 → Fin 2 → ℝ) (s : Fin 3 → ℝ) (a : Fin 3) : ℝ :=
  signedArea2 X / 2 * (∑ d, (∑ b, s b * g b d) * g a d +
    (((∑ b, s b) / 3) ^ 3 - f ((∑ b, X b 0) / 3) ((∑ b, X b 1) / 3)) * (1 / 3))

/-- Entry of the element tangent. -/
noncomputable def elementTangent (X g : Fin 3 → Fin 2 → ℝ) (s : Fin 3 → ℝ) (a b : Fin 3) : ℝ :=
  signedArea2 X / 2 * (∑ d, g b d * g a d + 3 * ((∑ b, s b) / 3) ^ 2 * (1 / 3) * (1 / 3))

theorem jacobian_tri3 {info : ElementInfo} (h : getElements "TRI3" = .ok info) (X : Fin 3 → Fin 2 → ℝ) (q : Fin 1) :
    jacobianDxDeta X ((tri3 info).shapeGradsRef q) = Parallel.jac X := by
  ext i j
  simp only [jacobianDxDeta, Matrix.of_apply, tri3_grads h, Fin.sum_univ_three]
  fin_cases i <;> fin_cases j <;> simp [Parallel.refGrads, Parallel.jac] <;> ring

theorem det_jac (X : Fin 3 → Fin 2 → ℝ) : (Parallel.jac X).det = signedArea2 X := by
  rw [Matrix.det_fin_two]
  simp [Parallel.jac, signedArea2]
  ring

theorem grads_tri3 {info : ElementInfo} (h : getElements "TRI3" = .ok info) (X g : Fin 3 → Fin 2 → ℝ) (hg : IsShapeGrads X g)
    (q : Fin 1) : shapeGradsPhysical X ((tri3 info).shapeGradsRef q) = g := by
  funext a j
  rw [← Parallel.grads_eq X g hg a j, Matrix.mul_apply, shapeGradsPhysical]
  refine Finset.sum_congr rfl fun k _ => ?_
  rw [jacobian_tri3 h, tri3_grads h]

theorem kernel_length {nq nn : Nat} (f : ℝ → ℝ → ℝ) (el : RefElement ℝ nq nn 2) (x : List ℝ) (d : CellData ℝ Unit nq nn 2) :
    (universalKernel f el x d).length = nq * nn := by
  unfold universalKernel
  simp [List.length_flatten, List.map_ofFn, Function.comp_def]

theorem kernel_eq {info : ElementInfo} (h : getElements "TRI3" = .ok info) (f : ℝ → ℝ → ℝ) (points : List (Fin 2 → ℝ))
    (cell : List Nat) (iv : Fin 1 → Unit) (g : Fin 3 → Fin 2 → ℝ) (hg : IsShapeGrads (corners points cell) g) (x : List ℝ)
    (hx : x.length = 3) :
    universalKernel f (tri3 info) x (cellData (tri3 info) points cell iv)
      = List.ofFn fun a => elementResidual f (corners points cell) g (fun b => x.getD b 0) a := by
  have hX : physicalCoos 3 points cell = corners points cell := rfl
  unfold universalKernel cellData
  simp only [hX, cellSol_three x hx, grads_tri3 h _ g hg, tri3_vals h, cellJxW, jacobian_tri3 h, det_jac, physicalPoint]
  have hw : (tri3 info).quadWeights = fun _ => 1 / 2 := rfl
  simp only [hw, Finset.univ_unique, Finset.sum_singleton, List.ofFn_succ, List.ofFn_zero, List.flatten_cons, List.flatten_nil,
    List.append_nil]
  simp only [elementResidual, Fin.sum_univ_two, Fin.sum_univ_three]
  refine List.cons_eq_cons.2 ⟨?_, List.cons_eq_cons.2 ⟨?_, List.cons_eq_cons.2 ⟨?_, rfl⟩⟩⟩ <;> ring_nf

theorem elementResidual_deriv (f : ℝ → ℝ → ℝ) (X g : Fin 3 → Fin 2 → ℝ) (s : Fin 3 → ℝ) (a : Fin 3) :
    ∃ L : (Fin 3 → ℝ) →L[ℝ] ℝ, HasFDerivAt (fun s => elementResidual f X g s a) L s ∧
      ∀ b, L (Pi.single b 1) = elementTangent X g s a b := by
  let P : Fin 3 → (Fin 3 → ℝ) →L[ℝ] ℝ := fun b => ContinuousLinearMap.proj b
  let M : (Fin 3 → ℝ) →L[ℝ] ℝ := (1 / 3 : ℝ) • ∑ b, P b
  let Q : (Fin 3 → ℝ) →L[ℝ] ℝ := ∑ d, g a d • ∑ b, g b d • P b
  have hM : ∀ s, M s = (∑ b, s b) / 3 := by
    intro s
    simp only [M, P, _root_.smul_apply, _root_.sum_apply, ContinuousLinearMap.proj_apply, smul_eq_mul]
    ring
  have hQ : ∀ s, Q s = ∑ d, (∑ b, s b * g b d) * g a d := by
    intro s
    simp only [Q, P, _root_.smul_apply, _root_.sum_apply, ContinuousLinearMap.proj_apply, smul_eq_mul]
    refine Finset.sum_congr rfl fun d _ => ?_
    rw [mul_comm]
    congr 1
    exact Finset.sum_congr rfl fun b _ => mul_comm _ _
  set c := f ((∑ b, X b 0) / 3) ((∑ b, X b 1) / 3) with hc
  have hfun : (fun s => elementResidual f X g s a) = fun s => signedArea2 X / 2 * (Q s + (M s ^ 3 - c) * (1 / 3)) := by
    funext s
    rw [elementResidual, hM, hQ]
  rw [hfun]
  have hd := ((Q.hasFDerivAt (x := s)).add (((((M.hasFDerivAt (x := s)).pow 3).sub_const c)).mul_const (1 / 3))).const_mul
    (signedArea2 X / 2)
  refine ⟨_, hd, fun b => ?_⟩
  have e1 : M (Pi.single b 1) = 1 / 3 := by
    rw [hM, Finset.sum_pi_single']
    simp
  have e2 : Q (Pi.single b 1) = ∑ d, g b d * g a d := by
    rw [hQ]
    refine Finset.sum_congr rfl fun d _ => ?_
    congr 1
    rw [Finset.sum_eq_single b]
    · simp
    · intro b' _ h'
      simp [h']
    · simp
  simp only [_root_.smul_apply, _root_.add_apply, smul_eq_mul, e1, e2, hM, elementTangent, nsmul_eq_mul]
  push_cast
  ring

theorem kernel_entries {info : ElementInfo} (h : getElements "TRI3" = .ok info) (f : ℝ → ℝ → ℝ) (points : List (Fin 2 → ℝ))
    (cell : List Nat) (iv : Fin 1 → Unit) (g : Fin 3 → Fin 2 → ℝ) (hg : IsShapeGrads (corners points cell) g) (s : Fin 3 → ℝ) :
    (∀ a : Fin 3, (universalKernel f (tri3 info) (List.ofFn s) (cellData (tri3 info) points cell iv)).getD a 0
      = elementResidual f (corners points cell) g s a) ∧
    ∀ a b : Fin 3, ((Dendrite.jacfwd (fun y => universalKernel f (tri3 info) y (cellData (tri3 info) points cell iv))
        (List.ofFn s)).getD a []).getD b 0 = elementTangent (corners points cell) g s a b := by
  have hs : ∀ s : Fin 3 → ℝ, (fun b : Fin 3 => (List.ofFn s).getD b 0) = s := fun s => funext fun b => ofFn_getD s b
  have hk : ∀ (s : Fin 3 → ℝ) (a : Fin 3),
      (universalKernel f (tri3 info) (List.ofFn s) (cellData (tri3 info) points cell iv)).getD a 0
        = elementResidual f (corners points cell) g s a := by
    intro s a
    rw [kernel_eq h f points cell iv g hg _ (by simp), hs s, ofFn_getD]
  refine ⟨hk s, fun a b => ?_⟩
  rw [Dendrite.jacfwd_getD _ 3 _ (by simp) a (by rw [kernel_length]; exact a.2) b, hs s]
  simp only [hk]
  obtain ⟨L, hL, hb⟩ := elementResidual_deriv f (corners points cell) g s a
  rw [hL.fderiv, hb]

/-- **C95 (kernel).** For a counterclockwise triangle the universal kernel returns the element residual of `∇u·∇v + u³ v - f v` with one
point quadrature, and `jacfwd` of it the element tangent; the values `s` at the corners are arbitrary. -/
theorem C95_kernel {info : ElementInfo} (h : getElements "TRI3" = .ok info) (f : ℝ → ℝ → ℝ) (points : List (Fin 2 → ℝ))
    (cell : List Nat) (iv : Fin 1 → Unit) (g : Fin 3 → Fin 2 → ℝ) (X : Fin 3 → Fin 2 → ℝ)
    (hX : X = fun a : Fin 3 => points.getD (cell.getD a 0) 0) (hg : IsShapeGrads X g) (hpos : 0 < signedArea2 X) (s : Fin 3 → ℝ) :
    (∀ a : Fin 3, (universalKernel f (tri3 info) (List.ofFn s) (cellData (tri3 info) points cell iv)).getD a 0
      = triArea X * (∑ d, (∑ b, s b * g b d) * g a d +
          (((∑ b, s b) / 3) ^ 3 - f ((∑ b, X b 0) / 3) ((∑ b, X b 1) / 3)) * (1 / 3))) ∧
    ∀ a b : Fin 3, ((Dendrite.jacfwd (fun y => universalKernel f (tri3 info) y (cellData (tri3 info) points cell iv))
        (List.ofFn s)).getD a []).getD b 0
      = triArea X * (∑ d, g b d * g a d + 3 * ((∑ b, s b) / 3) ^ 2 * (1 / 3) * (1 / 3)) := by
  have hA : triArea X = signedArea2 X / 2 := by
    rw [triArea, ← signedArea2, abs_of_pos hpos]
  have hc : X = corners points cell := hX
  subst hc
  obtain ⟨h1, h2⟩ := kernel_entries h f points cell iv g hg s
  exact ⟨fun a => by rw [h1, hA, elementResidual], fun a b => by rw [h2, hA, elementTangent]⟩

/-- **C95 (finding).** The Jacobian determinant enters with its sign: for a triangle listed clockwise residual and tangent have the
wrong sign. -/
theorem C95_clockwise {info : ElementInfo} (h : getElements "TRI3" = .ok info) (f : ℝ → ℝ → ℝ) (points : List (Fin 2 → ℝ))
    (cell : List Nat) (iv : Fin 1 → Unit) (g : Fin 3 → Fin 2 → ℝ) (X : Fin 3 → Fin 2 → ℝ)
    (hX : X = fun a : Fin 3 => points.getD (cell.getD a 0) 0) (hg : IsShapeGrads X g) (hneg : signedArea2 X < 0) (s : Fin 3 → ℝ) :
    (∀ a : Fin 3, (universalKernel f (tri3 info) (List.ofFn s) (cellData (tri3 info) points cell iv)).getD a 0
      = -(triArea X * (∑ d, (∑ b, s b * g b d) * g a d +
          (((∑ b, s b) / 3) ^ 3 - f ((∑ b, X b 0) / 3) ((∑ b, X b 1) / 3)) * (1 / 3)))) ∧
    ∀ a b : Fin 3, ((Dendrite.jacfwd (fun y => universalKernel f (tri3 info) y (cellData (tri3 info) points cell iv))
        (List.ofFn s)).getD a []).getD b 0
      = -(triArea X * (∑ d, g b d * g a d + 3 * ((∑ b, s b) / 3) ^ 2 * (1 / 3) * (1 / 3))) := by
  have hA : triArea X = -(signedArea2 X / 2) := by
    rw [triArea, ← signedArea2, abs_of_neg hneg, neg_div]
  have hc : X = corners points cell := hX
  subst hc
  obtain ⟨h1, h2⟩ := kernel_entries h f points cell iv g hg s
  exact ⟨fun a => by rw [h1, hA, elementResidual]; ring, fun a b => by rw [h2, hA, elementTangent]; ring⟩

/-- **C95 (finding).** The kernel is written for rules with one point: the result has `num_quads * num_nodes` entries. -/
theorem C95_one_point {nq nn : Nat} (f : ℝ → ℝ → ℝ) (el : RefElement ℝ nq nn 2) (x : List ℝ) (d : CellData ℝ Unit nq nn 2) (hnn : 0 < nn) :
    (universalKernel f el x d).length = nn ↔ nq = 1 := by
  rw [kernel_length]
  constructor
  · intro h
    exact Nat.eq_of_mul_eq_mul_right hnn (by rw [h, one_mul])
  · rintro rfl
    rw [one_mul]

end Mpi
end JaxFem
