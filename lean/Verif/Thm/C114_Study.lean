import Mathlib.Analysis.InnerProductSpace.PiL2
import Mathlib.Analysis.SpecialFunctions.ExpDeriv
import Mathlib.Analysis.Calculus.FDeriv.Mul
import Mathlib.Analysis.Calculus.FDeriv.Pow
import Mathlib.Analysis.Calculus.FDeriv.Pi
import Verif.Model.ConvergenceStudy
import Verif.Spec.ConvergenceStudy
import Verif.Thm.C73_WellPosed
import Verif.Thm.C10_Patch

/-!
# C114: the convergence study
-/

namespace JaxFem.Convergence

open Matrix

variable {IV : Type} {nq nfq nn vec dim : Nat}

/-! ### Helper lemmas: the discrete inner product -/

section space

variable (P : Problem1 IV nq nfq nn vec dim)

/-- Weight of a quadrature point. -/
noncomputable def weight (cell : List Nat) (q : Fin nq) : ℝ :=
  (mapJacobian (coords nn P.points cell) (Matrix.of (P.el.shapeGradsRef q))).det * P.el.quadWeights q

theorem total_eq (F : List Nat → Fin nq → ℝ) :
    total P F = ∑ i : Fin P.cells.length, ∑ q, F (P.cells[i]).nodes q * weight P (P.cells[i]).nodes q := by
  rw [total, ← Fin.sum_univ_fun_getElem]
  rfl

/-- The weighted values of a matrix field at all quadrature points. -/
noncomputable def emb (G : List Nat → Fin nq → Fin vec → Fin dim → ℝ) :
    EuclideanSpace ℝ (Fin P.cells.length × Fin nq × Fin vec × Fin dim) :=
  WithLp.toLp 2 fun k => Real.sqrt (weight P (P.cells[k.1]).nodes k.2.1) * G (P.cells[k.1]).nodes k.2.1 k.2.2.1 k.2.2.2

/-- No negative weight. -/
def NonnegMeasure : Prop := ∀ cell ∈ P.cells, ∀ q, 0 ≤ weight P cell.nodes q

variable {P}

theorem inner_emb (hw : NonnegMeasure P) (G H : List Nat → Fin nq → Fin vec → Fin dim → ℝ) :
    inner ℝ (emb P G) (emb P H) = total P fun cell q => contract (G cell q) (H cell q) := by
  rw [total_eq, PiLp.inner_apply, Fintype.sum_prod_type]
  refine Finset.sum_congr rfl fun i _ => ?_
  rw [Fintype.sum_prod_type]
  refine Finset.sum_congr rfl fun q _ => ?_
  rw [Fintype.sum_prod_type, contract, Finset.sum_mul]
  refine Finset.sum_congr rfl fun c _ => ?_
  rw [Finset.sum_mul]
  refine Finset.sum_congr rfl fun j _ => ?_
  have h := Real.mul_self_sqrt (hw _ (List.getElem_mem i.2) q)
  simp only [emb, real_inner_eq_re_inner, RCLike.inner_apply, conj_trivial, RCLike.re_to_real]
  linear_combination (G (P.cells[i]).nodes q c j * H (P.cells[i]).nodes q c j) * h

theorem emb_sub (G H : List Nat → Fin nq → Fin vec → Fin dim → ℝ) :
    emb P G - emb P H = emb P fun cell q c j => G cell q c j - H cell q c j := by
  ext k
  simp [emb, mul_sub]

theorem norm_emb (hw : NonnegMeasure P) (G : List Nat → Fin nq → Fin vec → Fin dim → ℝ) :
    ‖emb P G‖ = Real.sqrt (total P fun cell q => ∑ c, ∑ j, G cell q c j ^ 2) := by
  rw [norm_eq_sqrt_real_inner, inner_emb hw]
  congr 2
  funext cell q
  simp only [contract, sq]

end space

/-- The distance estimate behind the lemma of Strang. -/
theorem strang {E : Type} [NormedAddCommGroup E] [InnerProductSpace ℝ E] (s t o : E) (D : ℝ) (hD : 0 ≤ D)
    (h : |inner ℝ (s - t) (s - o)| ≤ D * ‖s - o‖) : ‖s - t‖ ≤ ‖o - t‖ + D := by
  have e1 : inner ℝ (s - t) (s - o) = ‖s - o‖ ^ 2 + inner ℝ (o - t) (s - o) := by
    rw [← real_inner_self_eq_norm_sq, ← inner_add_left]
    congr 1
    abel
  have e2 : ‖s - t‖ ^ 2 = inner ℝ (s - t) (s - o) + inner ℝ (s - t) (o - t) := by
    rw [← inner_add_right, ← real_inner_self_eq_norm_sq]
    congr 1
    abel
  have h1 := (abs_le.1 h).2
  have h3 := (abs_le.1 (abs_real_inner_le_norm (o - t) (s - o))).1
  have h4 := (abs_le.1 (abs_real_inner_le_norm (s - t) (o - t))).2
  have a := norm_nonneg (s - o)
  have b := norm_nonneg (o - t)
  have c := norm_nonneg (s - t)
  have h5 : ‖s - o‖ ≤ D + ‖o - t‖ := by
    by_contra hc
    push Not at hc
    nlinarith
  by_contra hc
  push Not at hc
  nlinarith

/-! ### The error measures -/

theorem jacrev_eq {u : (Fin dim → ℝ) → Fin vec → ℝ} {T : (Fin dim → ℝ) → Fin vec → Fin dim → ℝ} (h : HasGrad u T) :
    jacrev u = T := by
  funext x c j
  obtain ⟨D, hD, hT⟩ := h x
  rw [jacrev, hD.fderiv, hT]

theorem value_eq (P : Problem1 IV nq nfq nn vec dim) (sol : List (List ℝ)) (cell : List Nat) (q : Fin nq) (c : Fin vec) :
    convertFromDofToQuad P.el vec sol cell q c = valueAt P (fieldOf vec sol) cell q c := by
  change _ = ∑ a, P.el.shapeVals q a * restrict nn (fieldOf vec sol) cell a c
  rw [convertFromDofToQuad]
  exact Finset.sum_congr rfl fun a _ => mul_comm _ _

theorem computeL2_eq (P : Problem1 IV nq nfq nn vec dim) (sol : List (List ℝ)) (u : (Fin dim → ℝ) → Fin vec → ℝ) :
    computeL2 P sol u = valueError P u (fieldOf vec sol) := by
  rw [computeL2, valueError, total]
  congr 2
  refine List.map_congr_left fun cell _ => ?_
  rw [cellIntegral]
  refine Finset.sum_congr rfl fun q _ => ?_
  rw [Finset.sum_mul]
  refine Finset.sum_congr rfl fun c _ => ?_
  rw [cellJxW_eq, value_eq, physicalPoint_eq]
  rfl

/-- **C114 (meaning of the errors).** The first error is the discrete L² distance between the interpolated solution and the
given function; the second is the sum of this distance and of the discrete L² distance of the gradients (not the root of
the sum of the squares). -/
theorem C114_errors (P : Problem1 IV nq nfq nn vec dim) (sol : List (List ℝ)) (u : (Fin dim → ℝ) → Fin vec → ℝ)
    (T : (Fin dim → ℝ) → Fin vec → Fin dim → ℝ) (hT : HasGrad u T) :
    computeL2 P sol u = valueError P u (fieldOf vec sol) ∧
    computeH1 P sol u = valueError P u (fieldOf vec sol) + gradError P T (fieldOf vec sol) := by
  refine ⟨computeL2_eq P sol u, ?_⟩
  have e : computeH1 P sol u = computeL2 P sol u + gradError P T (fieldOf vec sol) := by
    rw [computeH1, computeL2, gradError, total]
    congr 3
    refine List.map_congr_left fun cell _ => ?_
    rw [cellIntegral]
    refine Finset.sum_congr rfl fun q _ => ?_
    rw [Finset.sum_mul]
    refine Finset.sum_congr rfl fun c _ => ?_
    rw [Finset.sum_mul]
    refine Finset.sum_congr rfl fun j _ => ?_
    rw [cellJxW_eq, jacrev_eq hT, physicalPoint_eq, gradient_eq]
    rfl
  rw [e, computeL2_eq]

theorem total_zero (P : Problem1 IV nq nfq nn vec dim) (hpos : P.PositiveMeasure) (F : List Nat → Fin nq → ℝ)
    (hF : ∀ cell q, 0 ≤ F cell q) : Real.sqrt (total P F) = 0 ↔ ∀ cell ∈ P.cells, ∀ q, F cell.nodes q = 0 := by
  have h0 : ∀ (i : Fin P.cells.length) q, 0 ≤ F (P.cells[i]).nodes q * weight P (P.cells[i]).nodes q := fun i q =>
    mul_nonneg (hF _ _) (hpos _ (List.getElem_mem i.2) q).le
  have h1 : 0 ≤ total P F := by
    rw [total_eq]
    exact Finset.sum_nonneg fun i _ => Finset.sum_nonneg fun q _ => h0 i q
  rw [Real.sqrt_eq_zero h1, total_eq, Finset.sum_eq_zero_iff_of_nonneg fun i _ => Finset.sum_nonneg fun q _ => h0 i q]
  constructor
  · intro h cell hc q
    obtain ⟨i, hi, rfl⟩ := List.mem_iff_getElem.1 hc
    have := (Finset.sum_eq_zero_iff_of_nonneg fun q _ => h0 ⟨i, hi⟩ q).1 (h ⟨i, hi⟩ (Finset.mem_univ _)) q (Finset.mem_univ _)
    exact (mul_eq_zero.1 this).resolve_right (hpos _ hc q).ne'
  · intro h i _
    exact Finset.sum_eq_zero fun q _ => mul_eq_zero_of_left (h _ (List.getElem_mem i.2) q) _

theorem valueError_zero (P : Problem1 IV nq nfq nn vec dim) (hpos : P.PositiveMeasure) (u : (Fin dim → ℝ) → Fin vec → ℝ)
    (v : Nat → Fin vec → ℝ) : valueError P u v = 0 ↔ ∀ cell ∈ P.cells, ∀ q,
      valueAt P v cell.nodes q = u (place P cell.nodes q) := by
  rw [valueError, total_zero P hpos _ fun cell q => Finset.sum_nonneg fun c _ => sq_nonneg _]
  refine forall₂_congr fun cell _ => forall_congr' fun q => ?_
  rw [Finset.sum_eq_zero_iff_of_nonneg fun c _ => sq_nonneg _, funext_iff]
  simp [sub_eq_zero]

theorem gradError_zero (P : Problem1 IV nq nfq nn vec dim) (hpos : P.PositiveMeasure)
    (T : (Fin dim → ℝ) → Fin vec → Fin dim → ℝ) (v : Nat → Fin vec → ℝ) : gradError P T v = 0 ↔ ∀ cell ∈ P.cells, ∀ q,
      ∀ c j, P.gradient v cell.nodes q c j = T (place P cell.nodes q) c j := by
  rw [gradError, total_zero P hpos _ fun cell q => Finset.sum_nonneg fun c _ => Finset.sum_nonneg fun j _ => sq_nonneg _]
  refine forall₂_congr fun cell _ => forall_congr' fun q => ?_
  rw [Finset.sum_eq_zero_iff_of_nonneg fun c _ => Finset.sum_nonneg fun j _ => sq_nonneg _]
  constructor
  · intro h c j
    have := (Finset.sum_eq_zero_iff_of_nonneg fun j _ => sq_nonneg _).1 (h c (Finset.mem_univ _)) j (Finset.mem_univ _)
    exact sub_eq_zero.1 (by simpa using this)
  · intro h c _
    exact Finset.sum_eq_zero fun j _ => by rw [h]; simp

/-- **C114 (vanishing errors).** On a mesh with positive measure the first error vanishes if and only if the interpolated
solution has the right values at all quadrature points, the second if and only if the gradients are right there as well. -/
theorem C114_zero (P : Problem1 IV nq nfq nn vec dim) (hpos : P.PositiveMeasure) (sol : List (List ℝ))
    (u : (Fin dim → ℝ) → Fin vec → ℝ) (T : (Fin dim → ℝ) → Fin vec → Fin dim → ℝ) (hT : HasGrad u T) :
    (computeL2 P sol u = 0 ↔ ∀ cell ∈ P.cells, ∀ q,
      valueAt P (fieldOf vec sol) cell.nodes q = u (place P cell.nodes q)) ∧
    (computeH1 P sol u = 0 ↔ ∀ cell ∈ P.cells, ∀ q,
      valueAt P (fieldOf vec sol) cell.nodes q = u (place P cell.nodes q) ∧
      ∀ c j, P.gradient (fieldOf vec sol) cell.nodes q c j = T (place P cell.nodes q) c j) := by
  obtain ⟨e1, e2⟩ := C114_errors P sol u T hT
  have n1 : 0 ≤ valueError P u (fieldOf vec sol) := Real.sqrt_nonneg _
  have n2 : 0 ≤ gradError P T (fieldOf vec sol) := Real.sqrt_nonneg _
  rw [e1, e2, add_eq_zero_iff_of_nonneg n1 n2, valueError_zero P hpos, gradError_zero P hpos]
  exact ⟨Iff.rfl, ⟨fun h cell hc q => ⟨h.1 cell hc q, h.2 cell hc q⟩, fun h => ⟨fun cell hc q => (h cell hc q).1,
    fun cell hc q => (h cell hc q).2⟩⟩⟩

/-! ### The distance of the solution from the given function -/

section galerkin

variable {f : (Fin dim → ℝ) → Fin 1 → ℝ} {N : Nat} {points : List (Fin dim → ℝ)} {cells : List (CellSpec IV nq)}
  {el : RefElement ℝ nq nn dim} {fc : RefFaces ℝ nfq nn dim}

theorem gradient_sub (P : Problem1 IV nq nfq nn vec dim) (v w : Nat → Fin vec → ℝ) (cell : List Nat) (q : Fin nq)
    (c : Fin vec) (j : Fin dim) :
    P.gradient (fun n c => v n c - w n c) cell q c j = P.gradient v cell q c j - P.gradient w cell q c j := by
  rw [gradient_eq, gradient_eq, gradient_eq, ← Finset.sum_sub_distrib]
  exact Finset.sum_congr rfl fun a _ => sub_mul _ _ _

theorem total_add (P : Problem1 IV nq nfq nn vec dim) (F G : List Nat → Fin nq → ℝ) :
    total P (fun cell q => F cell q + G cell q) = total P F + total P G := by
  simp only [total_eq, add_mul, Finset.sum_add_distrib]

/-- The work of a field is the difference of two functionals. -/
theorem work_eq {P : Problem1 IV nq nfq nn 1 dim} (hP : P = problem f N points cells el fc)
    {L : (Fin dim → ℝ) → Fin 1 → ℝ} (hL : ∀ x, (∑ i, hessian f x 0 i i) = L x 0)
    (T : (Fin dim → ℝ) → Fin 1 → Fin dim → ℝ) (hw : NonnegMeasure P) (u v : Nat → Fin 1 → ℝ) :
    P.virtualWork u v
      = inner ℝ (emb P (fun cell q c j => P.gradient u cell q c j) - emb P (fun cell q => T (place P cell q)))
        (emb P fun cell q c j => P.gradient v cell q c j) + consistency P T L v := by
  rw [inner_sub_left, inner_emb hw, inner_emb hw, consistency, total_add, Problem1.virtualWork]
  have h1 : P.surfaceWork u v = 0 := by rw [hP]; rfl
  have h0 : P.massMap = some (massMap f) := by rw [hP]; rfl
  have h2 : P.massWork (massMap f) u v
      = total P fun cell q => ∑ c, L (place P cell q) c * valueAt P v cell q c := by
    rw [Problem1.massWork, total]
    congr 1
    refine List.map_congr_left fun cell _ => ?_
    congr 1
    funext q
    refine Finset.sum_congr rfl fun c _ => ?_
    rw [massMap, hL, Subsingleton.elim c 0]
    rfl
  have h3 : P.tensorWork u v = total P fun cell q =>
      contract (fun c j => P.gradient u cell q c j) (fun c j => P.gradient v cell q c j) := by
    have : P.tensorMap = tensorMap := by rw [hP]; rfl
    rw [Problem1.tensorWork, this]
    rfl
  have h4 : (total P fun cell q => contract (T (place P cell q)) (P.gradient v cell q))
      = total P fun cell q => contract (T (place P cell q)) (fun c j => P.gradient v cell q c j) := rfl
  simp only [h0]
  rw [h1, h2, h3, h4]
  ring

/-- The Hessian's trace. -/
theorem laplacian_eq {T : (Fin dim → ℝ) → Fin 1 → Fin dim → ℝ} {L : (Fin dim → ℝ) → Fin 1 → ℝ} (hT : HasGrad f T)
    (hL : HasDiv T L) (x : Fin dim → ℝ) : (∑ i, hessian f x 0 i i) = L x 0 := by
  obtain ⟨S, hS, hs⟩ := hL x
  rw [hs 0]
  refine Finset.sum_congr rfl fun i _ => ?_
  obtain ⟨D, hD, e⟩ := hS 0 i
  rw [hessian, jacrev_eq hT, hD.fderiv, e]

/-- **C114 (quasi-optimality).** Let the given function have gradient `T` and Laplacian `L`, and let all weights be
nonnegative. If the consistency functional is bounded by `D` times the discrete norm of the gradient, then the gradient
error of a solution of the discrete equations exceeds that of *any* array with the same prescribed values by at most `D`. -/
theorem C114_strang {P : Problem1 IV nq nfq nn 1 dim} (hP : P = problem f N points cells el fc) (hwf : P.WF)
    (hw : ∀ cell ∈ P.cells, ∀ q, 0 ≤ (mapJacobian (coords nn P.points cell.nodes)
      (Matrix.of (P.el.shapeGradsRef q))).det * P.el.quadWeights q)
    (T : (Fin dim → ℝ) → Fin 1 → Fin dim → ℝ) (L : (Fin dim → ℝ) → Fin 1 → ℝ) (hT : HasGrad f T) (hL : HasDiv T L)
    (free : Nat → Fin 1 → Prop) (D : ℝ) (hD0 : 0 ≤ D)
    (hD : ∀ v, Vanishing free v → |consistency P T L v| ≤ D * gradError P (fun _ _ _ => 0) v)
    (sol other : List (List ℝ)) (hs : HasShapes [(P.numTotalNodes, 1)] [sol]) (hsol : IsSolution P free sol)
    (hbc : ∀ n c, ¬free n c → fieldOf 1 sol n c = fieldOf 1 other n c) :
    gradError P T (fieldOf 1 sol) ≤ gradError P T (fieldOf 1 other) + D := by
  have hv : Vanishing free fun n c => fieldOf 1 sol n c - fieldOf 1 other n c := fun n c h => sub_eq_zero.2 (hbc n c h)
  have hg := (C72_galerkin P hwf sol hs free).1 hsol _ hv
  rw [work_eq hP (laplacian_eq hT hL) T hw] at hg
  have hnw : NonnegMeasure P := hw
  have es : ∀ v : Nat → Fin 1 → ℝ, gradError P T v
      = ‖emb P (fun cell q c j => P.gradient v cell q c j) - emb P (fun cell q => T (place P cell q))‖ := by
    intro v
    rw [emb_sub, norm_emb hnw]
    rfl
  have ed : emb P (fun cell q c j => P.gradient (fun n c => fieldOf 1 sol n c - fieldOf 1 other n c) cell q c j)
      = emb P (fun cell q c j => P.gradient (fieldOf 1 sol) cell q c j)
        - emb P (fun cell q c j => P.gradient (fieldOf 1 other) cell q c j) := by
    rw [emb_sub]
    congr 1
    funext cell q c j
    exact gradient_sub P _ _ cell q c j
  have e0 : gradError P (fun _ _ _ => 0) (fun n c => fieldOf 1 sol n c - fieldOf 1 other n c)
      = ‖emb P (fun cell q c j => P.gradient (fun n c => fieldOf 1 sol n c - fieldOf 1 other n c) cell q c j)‖ := by
    rw [norm_emb hnw, gradError]
    simp only [sub_zero]
  have hc := hD _ hv
  rw [es, es]
  refine strang _ _ _ D hD0 ?_
  rw [← ed, ← e0]
  rw [eq_neg_of_add_eq_zero_left hg, abs_neg]
  exact hc

/-- **C114 (best approximation).** If the consistency functional vanishes, the solution is the best approximation: the
squared gradient error of any array with the same prescribed values is that of the solution plus the squared norm of the
gradient of the difference. -/
theorem C114_best {P : Problem1 IV nq nfq nn 1 dim} (hP : P = problem f N points cells el fc) (hwf : P.WF)
    (hw : ∀ cell ∈ P.cells, ∀ q, 0 ≤ (mapJacobian (coords nn P.points cell.nodes)
      (Matrix.of (P.el.shapeGradsRef q))).det * P.el.quadWeights q)
    (T : (Fin dim → ℝ) → Fin 1 → Fin dim → ℝ) (L : (Fin dim → ℝ) → Fin 1 → ℝ) (hT : HasGrad f T) (hL : HasDiv T L)
    (free : Nat → Fin 1 → Prop) (hD : ∀ v, Vanishing free v → consistency P T L v = 0)
    (sol other : List (List ℝ)) (hs : HasShapes [(P.numTotalNodes, 1)] [sol]) (hsol : IsSolution P free sol)
    (hbc : ∀ n c, ¬free n c → fieldOf 1 sol n c = fieldOf 1 other n c) :
    gradError P T (fieldOf 1 other) ^ 2 = gradError P T (fieldOf 1 sol) ^ 2
      + gradError P (fun _ _ _ => 0) (fun n c => fieldOf 1 sol n c - fieldOf 1 other n c) ^ 2 := by
  have hv : Vanishing free fun n c => fieldOf 1 sol n c - fieldOf 1 other n c := fun n c h => sub_eq_zero.2 (hbc n c h)
  have hg := (C72_galerkin P hwf sol hs free).1 hsol _ hv
  rw [work_eq hP (laplacian_eq hT hL) T hw, hD _ hv, add_zero] at hg
  have hnw : NonnegMeasure P := hw
  have es : ∀ v : Nat → Fin 1 → ℝ, gradError P T v
      = ‖emb P (fun cell q c j => P.gradient v cell q c j) - emb P (fun cell q => T (place P cell q))‖ := by
    intro v
    rw [emb_sub, norm_emb hnw]
    rfl
  have ed : emb P (fun cell q c j => P.gradient (fun n c => fieldOf 1 sol n c - fieldOf 1 other n c) cell q c j)
      = emb P (fun cell q c j => P.gradient (fieldOf 1 sol) cell q c j)
        - emb P (fun cell q c j => P.gradient (fieldOf 1 other) cell q c j) := by
    rw [emb_sub]
    congr 1
    funext cell q c j
    exact gradient_sub P _ _ cell q c j
  have e0 : gradError P (fun _ _ _ => 0) (fun n c => fieldOf 1 sol n c - fieldOf 1 other n c)
      = ‖emb P (fun cell q c j => P.gradient (fun n c => fieldOf 1 sol n c - fieldOf 1 other n c) cell q c j)‖ := by
    rw [norm_emb hnw, gradError]
    simp only [sub_zero]
  rw [es, es, e0]
  rw [ed] at hg ⊢
  set s := emb P (fun cell q c j => P.gradient (fieldOf 1 sol) cell q c j)
  set o := emb P (fun cell q c j => P.gradient (fieldOf 1 other) cell q c j)
  set t := emb P (fun cell q => T (place P cell q))
  have : o - t = (s - t) - (s - o) := by abel
  rw [this, norm_sub_sq_real, hg]
  ring

end galerkin

end JaxFem.Convergence
