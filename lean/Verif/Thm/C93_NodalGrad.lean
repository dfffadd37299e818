import Verif.Model.NodalGrad
import Verif.Spec.NodalGrad
import Verif.Thm.C69_Complete
import Mathlib.Analysis.Calculus.InverseFunctionTheorem.FDeriv
import Mathlib.Analysis.Calculus.ContDiff.Operations
import Mathlib.Analysis.Calculus.ContDiff.RCLike
import Mathlib.Analysis.Calculus.Deriv.Pi

/-!
# C93: gradients at quadrature points and at the nodes of the cells
-/

namespace JaxFem

open scoped Topology

variable {nn dim vec : Nat}

/-! ### The gradient of an interpolated field -/

theorem interpolant_strict {m : Nat} {φ : Fin nn → (Fin dim → ℝ) → ℝ} {φ' : Fin nn → (Fin dim → ℝ) →L[ℝ] ℝ}
    {ξ : Fin dim → ℝ} (h : ∀ a, HasStrictFDerivAt (φ a) (φ' a) ξ) (V : Fin nn → Fin m → ℝ) :
    HasStrictFDerivAt (interpolant φ V) (ContinuousLinearMap.pi fun c => ∑ a, V a c • φ' a) ξ := by
  rw [hasStrictFDerivAt_pi']
  intro c
  refine (HasStrictFDerivAt.fun_sum fun a _ => (h a).mul_const (V a c)).congr_fderiv ?_
  ext y
  simp

theorem isGradientAt_of {φ : Fin nn → (Fin dim → ℝ) → ℝ} {φ' : Fin nn → (Fin dim → ℝ) →L[ℝ] ℝ} {ξ : Fin dim → ℝ}
    (h : ∀ a, HasStrictFDerivAt (φ a) (φ' a) ξ) {g : Fin nn → Fin dim → ℝ} (hg : ∀ a d, φ' a (Pi.single d 1) = g a d)
    (X : Fin nn → Fin dim → ℝ) (U : Fin nn → Fin vec → ℝ) (hdet : (jacobianDxDeta X g).det ≠ 0) :
    IsGradientAt φ X U ξ fun c j => ∑ a, U a c * shapeGradsPhysical X g a j := by
  have hlin : ∀ a (y : Fin dim → ℝ), φ' a y = ∑ d, y d * g a d := by
    intro a y
    conv_lhs => rw [pi_eq_sum_univ' y]
    rw [map_sum]
    refine Finset.sum_congr rfl fun d _ => ?_
    rw [map_smul, smul_eq_mul, ← hg a d]
  have hu : IsUnit (jacobianDxDeta X g).det := isUnit_iff_ne_zero.2 hdet
  let e : (Fin dim → ℝ) ≃L[ℝ] (Fin dim → ℝ) := (Matrix.toLin'OfInv (Matrix.nonsing_inv_mul _ hu)
    (Matrix.mul_nonsing_inv _ hu)).toContinuousLinearEquiv
  have he : ∀ y, e y = (jacobianDxDeta X g).mulVec y := fun y => rfl
  have hes : ∀ y, e.symm y = (jacobianDxDeta X g)⁻¹.mulVec y := fun y => rfl
  have hX : HasStrictFDerivAt (interpolant φ X) (e : (Fin dim → ℝ) →L[ℝ] (Fin dim → ℝ)) ξ := by
    refine (interpolant_strict h X).congr_fderiv ?_
    ext y i
    simp only [ContinuousLinearMap.coe_pi', FunLike.coe_sum, Finset.sum_apply, _root_.smul_apply, hlin,
      ContinuousLinearEquiv.coe_coe, he, Matrix.mulVec, dotProduct, jacobianDxDeta, Matrix.of_apply, smul_eq_mul,
      Finset.mul_sum, Finset.sum_mul]
    rw [Finset.sum_comm]
    exact Finset.sum_congr rfl fun d _ => Finset.sum_congr rfl fun a _ => by ring
  have hU := interpolant_strict h U
  have hval : ∀ c j, (ContinuousLinearMap.pi fun c => ∑ a, U a c • φ' a) (e.symm (Pi.single j 1)) c =
      ∑ a, U a c * shapeGradsPhysical X g a j := by
    intro c j
    simp only [ContinuousLinearMap.coe_pi', FunLike.coe_sum, Finset.sum_apply, _root_.smul_apply, hlin,
      smul_eq_mul, hes, Matrix.mulVec_single_one, shapeGradsPhysical, Matrix.col_apply]
    refine Finset.sum_congr rfl fun a _ => ?_
    congr 1
    exact Finset.sum_congr rfl fun d _ => mul_comm _ _
  constructor
  · refine ⟨interpolant φ U ∘ hX.localInverse, (ContinuousLinearMap.pi fun c => ∑ a, U a c • φ' a).comp
      (e.symm : (Fin dim → ℝ) →L[ℝ] (Fin dim → ℝ)), ?_, ?_, hval⟩
    · filter_upwards [hX.eventually_left_inverse] with η hη
      rw [Function.comp_apply, hη]
    · have hp : hX.localInverse _ _ _ (interpolant φ X ξ) = ξ := hX.localInverse_apply_image
      exact HasFDerivAt.comp (g := interpolant φ U) (interpolant φ X ξ)
        (by rw [hp]; exact hU.hasFDerivAt) hX.to_localInverse.hasFDerivAt
  · intro v v' hv hd c j
    have h1 := hd.comp ξ hX.hasFDerivAt
    have h2 : HasFDerivAt (v ∘ interpolant φ X) _ ξ := hU.hasFDerivAt.congr_of_eventuallyEq hv
    have h3 := h1.unique h2
    refine Eq.trans ?_ (hval c j)
    rw [← h3]
    simp

/-! ### The functions of the elements -/

theorem lag1_smooth (deg pos : Nat) : ContDiff ℝ 1 fun x : ℝ => lag1 deg pos x := by
  unfold lag1; split_ifs <;> fun_prop

theorem bary_smooth (deg pos : Nat) : ContDiff ℝ 1 fun x : ℝ => bary deg pos x := by
  unfold bary; split_ifs <;> fun_prop

theorem ser1_smooth (pos : Nat) : ContDiff ℝ 1 fun x : ℝ => ser1 pos x := by
  unfold ser1; split_ifs <;> fun_prop

theorem away_smooth (pos : Nat) : ContDiff ℝ 1 fun x : ℝ => away pos x := by
  unfold away; split_ifs <;> fun_prop

theorem extend_smooth (k : Nat) : ContDiff ℝ 1 fun ξ : Fin dim → ℝ => extend ξ k := by
  unfold extend; split_ifs <;> fun_prop

theorem shapeValue_smooth (info : ElementInfo) (i : Nat) :
    ContDiff ℝ 1 fun ξ : Fin dim → ℝ => shapeValue info i (extend ξ) := by
  have hl : ∀ (deg pos k : Nat), ContDiff ℝ 1 fun ξ : Fin dim → ℝ => lag1 deg pos (extend ξ k) :=
    fun deg pos k => (lag1_smooth deg pos).comp (extend_smooth k)
  have hs : ∀ (pos k : Nat), ContDiff ℝ 1 fun ξ : Fin dim → ℝ => ser1 pos (extend ξ k) :=
    fun pos k => (ser1_smooth pos).comp (extend_smooth k)
  have ha : ∀ (pos k : Nat), ContDiff ℝ 1 fun ξ : Fin dim → ℝ => away pos (extend ξ k) :=
    fun pos k => (away_smooth pos).comp (extend_smooth k)
  have hb : ∀ (deg pos : Nat) (l : (Fin dim → ℝ) → ℝ), ContDiff ℝ 1 l → ContDiff ℝ 1 fun ξ => bary deg pos (l ξ) :=
    fun deg pos l h => (bary_smooth deg pos).comp h
  have he : ∀ k, ContDiff ℝ 1 fun ξ : Fin dim → ℝ => extend ξ k := extend_smooth
  unfold shapeValue reorderedShape basixShape
  cases info.family
  · simp only [lagrangeFn]
    cases info.ele
    · exact hl _ _ _
    · exact ((hb _ _ _ ((contDiff_const.sub (he 0)).sub (he 1))).mul (hb _ _ _ (he 0))).mul (hb _ _ _ (he 1))
    · exact (hl _ _ _).mul (hl _ _ _)
    · exact (((hb _ _ _ (((contDiff_const.sub (he 0)).sub (he 1)).sub (he 2))).mul (hb _ _ _ (he 0))).mul
        (hb _ _ _ (he 1))).mul (hb _ _ _ (he 2))
    · exact ((hl _ _ _).mul (hl _ _ _)).mul (hl _ _ _)
  · simp only [serendipityFn]
    cases info.ele
    · exact contDiff_const
    · exact contDiff_const
    · refine ((hs _ _).mul (hs _ _)).mul ?_
      split_ifs
      · exact contDiff_const
      · exact (contDiff_const.sub (contDiff_const.mul (ha _ _))).sub (contDiff_const.mul (ha _ _))
    · exact contDiff_const
    · refine (((hs _ _).mul (hs _ _)).mul (hs _ _)).mul ?_
      split_ifs
      · exact contDiff_const
      · exact ((contDiff_const.sub (contDiff_const.mul (ha _ _))).sub (contDiff_const.mul (ha _ _))).sub
          (contDiff_const.mul (ha _ _))

/-- The functions of an element of the mesh numbering on its reference cell. -/
noncomputable def cellFns (info : ElementInfo) (nn dim : Nat) : Fin nn → (Fin dim → ℝ) → ℝ := fun a ξ => shapeValue info a (extend ξ)

theorem extend_update (ξ : Fin dim → ℝ) (d : Fin dim) (t : ℝ) :
    extend (Function.update ξ d t) = Function.update (extend ξ) (d : Nat) t := by
  funext k
  unfold extend
  by_cases hk : k = d
  · subst hk
    simp
  · rw [Function.update_of_ne hk]
    split_ifs with h
    · rw [Function.update_of_ne]
      intro h2
      exact hk (congrArg Fin.val h2)
    · rfl

theorem cellFns_strict {e : String × String × List (List Nat)} (he : e ∈ meshNodes) {info : ElementInfo}
    (hi : getElements e.1 = .ok info) (ξ : Fin (cellDim info.ele) → ℝ) (a : Fin e.2.2.length) :
    HasStrictFDerivAt (cellFns info e.2.2.length (cellDim info.ele) a)
      (fderiv ℝ (cellFns info e.2.2.length (cellDim info.ele) a) ξ) ξ ∧
    ∀ d, fderiv ℝ (cellFns info e.2.2.length (cellDim info.ele) a) ξ (Pi.single d 1) = shapeGrad info a (extend ξ) d := by
  have hs : HasStrictFDerivAt (cellFns info e.2.2.length (cellDim info.ele) a)
      (fderiv ℝ (cellFns info e.2.2.length (cellDim info.ele) a) ξ) ξ :=
    (shapeValue_smooth info a).contDiffAt.hasStrictFDerivAt one_ne_zero
  refine ⟨hs, fun d => ?_⟩
  have h1 : HasDerivAt (fun t => cellFns info e.2.2.length (cellDim info.ele) a (Function.update ξ d t))
      (fderiv ℝ (cellFns info e.2.2.length (cellDim info.ele) a) ξ (Pi.single d 1)) (ξ d) :=
    HasFDerivAt.comp_hasDerivAt (f := Function.update ξ d) (l := cellFns info e.2.2.length (cellDim info.ele) a)
      (l' := fderiv ℝ (cellFns info e.2.2.length (cellDim info.ele) a) ξ) (ξ d)
      (by rw [Function.update_eq_self]; exact hs.hasFDerivAt) (hasDerivAt_update ξ d (ξ d))
  have h2 := C69_derivative he hi a.2 (extend ξ) d.2
  have h3 : extend ξ d = ξ d := by simp [extend]
  rw [h3] at h2
  refine h1.unique (h2.congr_of_eventuallyEq (Filter.Eventually.of_forall fun t => ?_))
  simp only [cellFns, extend_update]

/-- The determinant of the derivative of the map of the cell. -/
theorem det_map {φ : Fin nn → (Fin dim → ℝ) → ℝ} {φ' : Fin nn → (Fin dim → ℝ) →L[ℝ] ℝ} {ξ : Fin dim → ℝ}
    (h : ∀ a, HasStrictFDerivAt (φ a) (φ' a) ξ) {g : Fin nn → Fin dim → ℝ} (hg : ∀ a d, φ' a (Pi.single d 1) = g a d)
    (X : Fin nn → Fin dim → ℝ) : (fderiv ℝ (interpolant φ X) ξ).det = (jacobianDxDeta X g).det := by
  rw [(interpolant_strict h X).hasFDerivAt.fderiv, ContinuousLinearMap.det, ← LinearMap.det_toLin']
  congr 1
  refine LinearMap.pi_ext' fun d => LinearMap.ext_ring ?_
  funext i
  simp [jacobianDxDeta, hg]

theorem pos_dims : ∀ e ∈ meshNodes, (match getElements e.1 with
    | .ok info => e.2.2.all fun pos => pos.length == cellDim info.ele
    | .error _ => false) = true := by decide +kernel

theorem extend_nodePoint {e : String × String × List (List Nat)} (he : e ∈ meshNodes) {info : ElementInfo}
    (hi : getElements e.1 = .ok info) {p : Nat} {pos : List Nat} (hpt : (basixPoints info)[p]? = some pos)
    (hmem : pos ∈ e.2.2) : extend (nodePoint (cellDim info.ele) info p) = halfPoint ℝ pos := by
  have h := pos_dims e he
  rw [hi] at h
  have hl : pos.length = cellDim info.ele := by
    simpa using List.all_eq_true.1 h pos hmem
  funext d
  simp only [extend, nodePoint, halfPoint, List.getD_eq_getElem?_getD, hpt, Option.getD_some]
  split_ifs with hd
  · rfl
  · rw [List.getElem?_eq_none (by omega)]
    simp

/-! ### Property theorems -/

/-- **C93 (gradients).** `sol_to_grad` gives the gradient, in the coordinates of the mesh, of the interpolated field at
the image of each quadrature point: for each of the nine element types, every cell and every point at which the map
of the cell is not degenerate. -/
theorem C93_gradient {e : String × String × List (List Nat)} (he : e ∈ meshNodes) {info : ElementInfo}
    (hi : getElements e.1 = .ok info) {nq : Nat} (pts : Fin nq → Fin (cellDim info.ele) → ℝ) (w : Fin nq → ℝ)
    (points : List (Fin (cellDim info.ele) → ℝ)) (sol : List (List ℝ)) (cell : List Nat) (q : Fin nq)
    (hdet : (fderiv ℝ (interpolant (cellFns info e.2.2.length (cellDim info.ele))
      fun a => points.getD (cell.getD a 0) 0) (pts q)).det ≠ 0) :
    IsGradientAt (cellFns info e.2.2.length (cellDim info.ele)) (fun a => points.getD (cell.getD a 0) 0)
      (fun a c => (sol.getD (cell.getD a 0) []).getD c 0) (pts q)
      (solToGrad (tabulateInfo info pts w : RefElement ℝ nq e.2.2.length (cellDim info.ele)) vec points sol cell q) := by
  have h := fun a => (cellFns_strict he hi (pts q) a).1
  have hg := fun a => (cellFns_strict he hi (pts q) a).2
  rw [det_map h hg] at hdet
  exact isGradientAt_of h hg _ _ hdet

/-- **C93 (affine fields).** If the values at the nodes of the cell are those of an affine function, then its gradient
is found at every point, whatever the shape of the cell. -/
theorem C93_affine {e : String × String × List (List Nat)} (he : e ∈ meshNodes) {info : ElementInfo}
    (hi : getElements e.1 = .ok info) {X : Fin e.2.2.length → Fin (cellDim info.ele) → ℝ}
    {U : Fin e.2.2.length → Fin vec → ℝ} {ξ : Fin (cellDim info.ele) → ℝ} {G : Fin vec → Fin (cellDim info.ele) → ℝ}
    (hG : IsGradientAt (cellFns info e.2.2.length (cellDim info.ele)) X U ξ G)
    (A : Matrix (Fin vec) (Fin (cellDim info.ele)) ℝ) (b : Fin vec → ℝ) (hU : ∀ a, U a = A.mulVec (X a) + b) :
    G = A := by
  have hone : ∀ η : Fin (cellDim info.ele) → ℝ, ∑ a, cellFns info e.2.2.length (cellDim info.ele) a η = 1 := by
    intro η
    have h := C69_values he hi (1 : ℝ) (fun _ => 0) (fun _ _ => 0) (fun _ _ _ => rfl) (extend η)
    simp only [quadPoly, zero_mul, Finset.sum_const_zero, add_zero, one_mul, Finset.sum_range] at h
    exact h
  funext c j
  have h := hG.2 (fun y => (Matrix.toLin' A).toContinuousLinearMap y + b) (Matrix.toLin' A).toContinuousLinearMap
    (Filter.Eventually.of_forall fun η => ?_)
    ((Matrix.toLin' A).toContinuousLinearMap.hasFDerivAt.add_const b) c j
  · rw [← h]
    simp
  · funext c
    simp only [interpolant, LinearMap.coe_toContinuousLinearMap', Matrix.toLin'_apply, Pi.add_apply, hU, Matrix.mulVec,
      dotProduct, mul_add, Finset.sum_add_distrib, ← Finset.sum_mul, hone, one_mul, Finset.mul_sum]
    rw [Finset.sum_comm]
    congr 1
    exact Finset.sum_congr rfl fun a _ => Finset.sum_congr rfl fun d _ => by ring

/-- **C93 (nodes).** Row `p` of the example belongs to the node with basix number `p`, that is to the node `b` of the
cell with `re_order[b] = p`. -/
theorem C93_nodes {e : String × String × List (List Nat)} (he : e ∈ meshNodes) {info : ElementInfo}
    (hi : getElements e.1 = .ok info) (hP : info.family = .P) (points : List (Fin (cellDim info.ele) → ℝ))
    (sol : List (List ℝ)) (cell : List Nat) (b : Fin e.2.2.length) {p : Nat} (hp : info.reOrder[(b : Nat)]? = some p)
    (hdet : (fderiv ℝ (interpolant (cellFns info e.2.2.length (cellDim info.ele))
      fun a => points.getD (cell.getD a 0) 0) (nodePoint _ info p)).det ≠ 0) :
    interpolant (cellFns info e.2.2.length (cellDim info.ele)) (fun a => points.getD (cell.getD a 0) 0)
      (nodePoint _ info p) = points.getD (cell.getD b 0) 0 ∧
    IsGradientAt (cellFns info e.2.2.length (cellDim info.ele)) (fun a => points.getD (cell.getD a 0) 0)
      (fun a c => (sol.getD (cell.getD a 0) []).getD c 0) (nodePoint _ info p)
      (nodalGrads e.2.2.length info points cell vec sol p) := by
  obtain ⟨pos, hpos⟩ : ∃ pos, e.2.2[(b : Nat)]? = some pos := ⟨_, List.getElem?_eq_getElem b.2⟩
  have hpt : (basixPoints info)[p]? = some pos := by
    obtain ⟨k, h1, h2⟩ := reorder_pos he hi hpos
    rw [hp] at h1
    cases h1
    exact h2
  refine ⟨?_, ?_⟩
  · have hx : ∀ a : Fin e.2.2.length, cellFns info e.2.2.length (cellDim info.ele) a (nodePoint _ info p) =
        if a = b then 1 else 0 := by
      intro a
      obtain ⟨pos', hpos'⟩ : ∃ pos', e.2.2[(a : Nat)]? = some pos' := ⟨_, List.getElem?_eq_getElem a.2⟩
      have h := C68_nodal (K := ℝ) he hi hP hpos' hpos
      rw [if_congr Fin.ext_iff rfl rfl, ← h, cellFns, extend_nodePoint he hi hpt (List.mem_of_getElem? hpos)]
    funext i
    simp [interpolant, hx]
  · have h := fun a => (cellFns_strict he hi (nodePoint _ info p) a).1
    have hg := fun a => (cellFns_strict he hi (nodePoint _ info p) a).2
    rw [det_map h hg] at hdet
    exact isGradientAt_of h hg _ _ hdet

/-- **C93 (order of the rows).** Row `p` belongs to node `p` of the cell for linear triangles and tetrahedra only. -/
theorem C93_order : ∀ e ∈ meshNodes, ∀ info, getElements e.1 = .ok info → info.family = .P →
    ((∀ p < e.2.2.length, ∀ d : Fin (cellDim info.ele),
      nodePoint (cellDim info.ele) info p d = halfPoint ℝ (e.2.2.getD p []) d) ↔ e.1 = "TRI3" ∨ e.1 = "TET4") := by
  have key : ∀ e ∈ meshNodes, (match getElements e.1 with
      | .ok info => info.family != .P || (((List.range e.2.2.length).all fun p => (List.range (cellDim info.ele)).all
          fun d => ((basixPoints info).getD p []).getD d 0 == (e.2.2.getD p []).getD d 0) ==
          (e.1 == "TRI3" || e.1 == "TET4"))
      | .error _ => false) = true := by decide +kernel
  intro e he info hi hP
  have h := key e he
  rw [hi] at h
  simp only [hP, bne_self_eq_false, Bool.false_or, beq_iff_eq] at h
  have h2 : ((∀ p < e.2.2.length, ∀ d < cellDim info.ele,
      ((basixPoints info).getD p []).getD d 0 = (e.2.2.getD p []).getD d 0) ↔ e.1 = "TRI3" ∨ e.1 = "TET4") := by
    have h3 := Bool.eq_iff_iff.1 h
    simpa only [List.all_eq_true, List.mem_range, beq_iff_eq, Bool.or_eq_true] using h3
  rw [← h2]
  refine forall₂_congr fun p _ => ⟨fun h d hd => ?_, fun h d => ?_⟩
  · have h4 := h ⟨d, hd⟩
    simp only [nodePoint, halfPoint] at h4
    exact_mod_cast (div_left_inj' two_ne_zero).1 h4
  · simp only [nodePoint, halfPoint, h d d.2]

/-! The cell of the next theorem: the unit cube, with the values of `x y` at its nodes. -/

/-- Node positions. -/
noncomputable def cubePoints : List (Fin 3 → ℝ) :=
  [![0, 0, 0], ![1, 0, 0], ![1, 1, 0], ![0, 1, 0], ![0, 0, 1], ![1, 0, 1], ![1, 1, 1], ![0, 1, 1]]

/-- Values of the field `x y` at the nodes. -/
noncomputable def cubeSol : List (List ℝ) := [[0], [0], [1], [0], [0], [0], [1], [0]]

/-- The tables of HEX8. -/
def hex8Info : ElementInfo := ⟨.P, .hexahedron, .quadrilateral, 2, 1, [0, 1, 3, 2, 4, 5, 7, 6]⟩

theorem cube_map (η : Fin 3 → ℝ) : interpolant (cellFns hex8Info 8 3)
    (fun a => cubePoints.getD ((List.range 8).getD a 0) 0) η = η := by
  have e0 : extend η 0 = η 0 := rfl
  have e1 : extend η 1 = η 1 := rfl
  have e2 : extend η 2 = η 2 := rfl
  funext i
  fin_cases i <;>
  · simp [interpolant, Fin.sum_univ_eight, cellFns, shapeValue, reorderedShape, basixShape, hex8Info, basixPoints,
      basixVertices, lagrangeFn, lag1, cubePoints, e0, e1, e2, List.range_succ]
    ring

theorem cube_field (η : Fin 3 → ℝ) : interpolant (cellFns hex8Info 8 3)
    (fun a (c : Fin 1) => (cubeSol.getD ((List.range 8).getD a 0) []).getD c 0) η = fun _ => η 0 * η 1 := by
  have e0 : extend η 0 = η 0 := rfl
  have e1 : extend η 1 = η 1 := rfl
  have e2 : extend η 2 = η 2 := rfl
  funext i
  fin_cases i
  simp [interpolant, Fin.sum_univ_eight, cellFns, shapeValue, reorderedShape, basixShape, hex8Info, basixPoints,
      basixVertices, lagrangeFn, lag1, cubeSol, e0, e1, e2, List.range_succ]
  ring

theorem cube_gradient (ξ : Fin 3 → ℝ) (G : Fin 1 → Fin 3 → ℝ)
    (hG : IsGradientAt (cellFns hex8Info 8 3) (fun a => cubePoints.getD ((List.range 8).getD a 0) 0)
      (fun a c => (cubeSol.getD ((List.range 8).getD a 0) []).getD c 0) ξ G) : G 0 1 = ξ 0 := by
  have hd : HasFDerivAt (fun (y : Fin 3 → ℝ) (_ : Fin 1) => y 0 * y 1)
      (ContinuousLinearMap.pi fun _ => ξ 0 • ContinuousLinearMap.proj (R := ℝ) (φ := fun _ : Fin 3 => ℝ) 1 +
        ξ 1 • ContinuousLinearMap.proj (R := ℝ) (φ := fun _ : Fin 3 => ℝ) 0) ξ := by
    rw [hasFDerivAt_pi']
    intro i
    exact (hasFDerivAt_apply (𝕜 := ℝ) 0 ξ).mul (hasFDerivAt_apply (𝕜 := ℝ) 1 ξ)
  have h := hG.2 (fun y _ => y 0 * y 1) _ (Filter.Eventually.of_forall fun η => by rw [cube_map, cube_field])
    (by rw [cube_map]; exact hd) 0 1
  rw [← h]
  simp

/-- **C93 (rows of a hexahedron).** For the element type of the example the rows are not in the order of the nodes: on
the unit cube with the nodal values of `x y`, row 2 is the gradient at node 3, `(0, 1, 0)`, and is not the gradient at
node 2, `(1, 1, 0)`. -/
theorem C93_hex8_counterexample : getElements "HEX8" = .ok hex8Info ∧
    IsGradientAt (cellFns hex8Info 8 3) (fun a => cubePoints.getD ((List.range 8).getD a 0) 0)
      (fun a c => (cubeSol.getD ((List.range 8).getD a 0) []).getD c 0) ![0, 1, 0]
      (nodalGrads 8 hex8Info cubePoints (List.range 8) 1 cubeSol 2) ∧
    ¬ IsGradientAt (cellFns hex8Info 8 3) (fun a => cubePoints.getD ((List.range 8).getD a 0) 0)
      (fun a c => (cubeSol.getD ((List.range 8).getD a 0) []).getD c 0) ![1, 1, 0]
      (nodalGrads 8 hex8Info cubePoints (List.range 8) 1 cubeSol 2) := by
  have hn : (nodePoint 3 hex8Info 2 : Fin 3 → ℝ) = ![0, 1, 0] := by
    funext i
    fin_cases i <;> simp [nodePoint, hex8Info, basixPoints, basixVertices]
  have hdet : (fderiv ℝ (interpolant (cellFns hex8Info 8 3) fun a => cubePoints.getD ((List.range 8).getD a 0) 0)
      (nodePoint 3 hex8Info 2)).det ≠ 0 := by
    rw [show interpolant (cellFns hex8Info 8 3) (fun a => cubePoints.getD ((List.range 8).getD a 0) 0) = id from
      funext cube_map, fderiv_id]
    simp [ContinuousLinearMap.det]
  have h : IsGradientAt (cellFns hex8Info 8 3) (fun a => cubePoints.getD ((List.range 8).getD a 0) 0)
      (fun a c => (cubeSol.getD ((List.range 8).getD a 0) []).getD c 0) (nodePoint 3 hex8Info 2)
      (nodalGrads 8 hex8Info cubePoints (List.range 8) 1 cubeSol 2) :=
    (C93_nodes (vec := 1) (e := meshNodes.getD 6 ("", "", [])) (by decide) (info := hex8Info) rfl rfl cubePoints
      cubeSol (List.range 8) ⟨3, by decide⟩ (p := 2) rfl hdet).2
  rw [hn] at h
  refine ⟨rfl, h, fun h2 => ?_⟩
  have h3 := cube_gradient _ _ h
  have h4 := cube_gradient _ _ h2
  rw [h4] at h3
  simp at h3

/-! Non-vacuity: the hypotheses of `C93_gradient` hold on the unit cube at every point; the ten-node tetrahedron is a
Lagrange element whose table moves rows. -/

example (ξ : Fin 3 → ℝ) : (fderiv ℝ (interpolant (cellFns hex8Info 8 3)
    fun a => cubePoints.getD ((List.range 8).getD a 0) 0) ξ).det ≠ 0 := by
  rw [show interpolant (cellFns hex8Info 8 3) (fun a => cubePoints.getD ((List.range 8).getD a 0) 0) = id from
    funext cube_map, fderiv_id]
  simp [ContinuousLinearMap.det]

example : ∃ e ∈ meshNodes, ∃ info, getElements e.1 = .ok info ∧ info.family = .P ∧ e.2.2.length = 10 ∧
    info.reOrder[4]? = some 9 :=
  ⟨meshNodes.getD 5 ("", "", []), by decide, ⟨.P, .tetrahedron, .triangle, 2, 2, [0, 1, 2, 3, 9, 6, 8, 7, 5, 4]⟩, rfl,
    rfl, rfl, rfl⟩

end JaxFem
