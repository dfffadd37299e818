import Verif.Thm.C113_Quadrature

/-!
# C113: what the default rules leave out
-/

namespace JaxFem.Quadrature

open scoped BigOperators

/-! ### Helper lemmas -/

theorem quadSum_product2 (g : List (ℝ × ℝ)) (F G : ℝ → ℝ) :
    quadSum (productRule g .quadrilateral) (fun x => F (x 0) * G (x 1)) =
      (g.map fun a => a.2 * F a.1).sum * (g.map fun a => a.2 * G a.1).sum := by
  unfold quadSum productRule
  rw [sum_map_flatMap', ← sum_mul_right']
  refine congrArg List.sum (List.map_congr_left fun a _ => ?_)
  rw [List.map_map, ← sum_mul_left']
  exact congrArg List.sum (List.map_congr_left fun c _ => by simp [point]; ring)

theorem quadSum_product3 (g : List (ℝ × ℝ)) (F G H : ℝ → ℝ) :
    quadSum (productRule g .hexahedron) (fun x => F (x 0) * G (x 1) * H (x 2)) =
      (g.map fun a => a.2 * F a.1).sum * ((g.map fun a => a.2 * G a.1).sum * (g.map fun a => a.2 * H a.1).sum) := by
  unfold quadSum productRule
  rw [sum_map_flatMap', ← sum_mul_right']
  refine congrArg List.sum (List.map_congr_left fun a _ => ?_)
  rw [sum_map_flatMap', ← sum_mul_right', ← sum_mul_left']
  refine congrArg List.sum (List.map_congr_left fun c _ => ?_)
  rw [List.map_map, ← sum_mul_left', ← sum_mul_left']
  exact congrArg List.sum (List.map_congr_left fun d _ => by simp [point]; ring)

theorem integral_bubble : ∫ t in (0 : ℝ)..1, 36 * t ^ 2 * (1 - t) ^ 2 = 6 / 5 := by
  rw [integral_as _ 1 0 0 36 (-72) 36 0 (fun t => by ring)]; norm_num

theorem integral_end : ∫ t in (0 : ℝ)..1, (1 - t) ^ 2 = 1 / 3 := by
  rw [integral_as _ 1 1 (-2) 1 0 0 0 (fun t => by ring)]; norm_num

/-- Weighted sum of a function that has the same value at the two points. -/
theorem gauss2_sum {g : List (ℝ × ℝ)} (hg : IsGauss 2 g) (F : ℝ → ℝ) (v : ℝ) (h : ∀ t, t ^ 2 = t - 1 / 6 → F t = v) :
    (g.map fun a => a.2 * F a.1).sum = v := by
  obtain ⟨a, c, rfl, h1, h2, h3, h4⟩ := gauss2 hg
  have ha : a.1 ^ 2 = a.1 - 1 / 6 := by linear_combination a.1 * h3 - h4
  have hc : c.1 ^ 2 = c.1 - 1 / 6 := by linear_combination c.1 * h3 - h4
  simp only [List.map_cons, List.map_nil, List.sum_cons, List.sum_nil, h _ ha, h _ hc, h1, h2]
  ring

theorem gauss2_end {g : List (ℝ × ℝ)} (hg : IsGauss 2 g) : (g.map fun a => a.2 * (1 - a.1) ^ 2).sum = 1 / 3 := by
  obtain ⟨a, c, rfl, h1, h2, h3, h4⟩ := gauss2 hg
  simp only [List.map_cons, List.map_nil, List.sum_cons, List.sum_nil, h1, h2]
  linear_combination (-1 / 2 + a.1 / 2 + c.1 / 2) * h3 - h4

theorem gauss2_mem {g : List (ℝ × ℝ)} (hg : IsGauss 2 g) {a : ℝ × ℝ} (ha : a ∈ g) : (2 * a.1 - 1) ^ 2 = 1 / 3 := by
  obtain ⟨c, d, rfl, h1, h2, h3, h4⟩ := gauss2 hg
  simp only [List.mem_cons, List.not_mem_nil, or_false] at ha
  rcases ha with rfl | rfl
  · linear_combination 4 * a.1 * h3 - 4 * h4
  · linear_combination 4 * a.1 * h3 - 4 * h4

/-- Nodal values of the mode that the two-point rules do not see. -/
noncomputable def modeAt (pos : List Nat) (c : Nat) : ℝ :=
  if pos.getD 0 0 = 1 ∨ pos.getD 1 0 = 1 then 0
  else if c = 0 then 2 * ((pos.getD 0 0 : ℝ) - 1) else if c = 1 then -2 * ((pos.getD 1 0 : ℝ) - 1) else 0

theorem spurious_of {nq nn dim : Nat} (el : RefElement ℝ nq nn dim) (V X : Fin nn → Fin dim → ℝ) (M : Matrix (Fin nn) (Fin dim) ℝ)
    (J : Matrix (Fin dim) (Fin dim) ℝ) (hJ : J.det ≠ 0) (x0 : Fin dim → ℝ) (hX : ∀ a i, X a i = ∑ j, J i j * V a j + x0 i)
    (hjac : ∀ q, mapJacobian (Matrix.of X) (Matrix.of (el.shapeGradsRef q)) = J)
    (hskew : ∀ q c d, ∑ a, M a c * el.shapeGradsRef q a d + ∑ a, M a d * el.shapeGradsRef q a c = 0)
    (hn : ∃ a1 a2 m k, (∀ j, V a1 j + V a2 j = 2 * V m j) ∧ M a1 k + M a2 k ≠ 2 * M m k) :
    SpuriousMode el X (M * J⁻¹) := by
  have hu : IsUnit J.det := Ne.isUnit hJ
  have hinv : J⁻¹ * J = 1 := Matrix.nonsing_inv_mul _ hu
  constructor
  · intro q
    have hA : M.transpose * Matrix.of (el.shapeGradsRef q) + (M.transpose * Matrix.of (el.shapeGradsRef q)).transpose = 0 := by
      ext c d
      simp only [Matrix.add_apply, Matrix.transpose_apply, Matrix.mul_apply, Matrix.of_apply, Matrix.zero_apply]
      exact hskew q c d
    refine matrix_symPart_zero.2 ?_
    rw [physGrad, hjac]
    have e : (Matrix.of (M * J⁻¹)).transpose * Matrix.of (el.shapeGradsRef q) * J⁻¹ =
        J⁻¹.transpose * (M.transpose * Matrix.of (el.shapeGradsRef q)) * J⁻¹ := by
      rw [show Matrix.of (M * J⁻¹) = M * J⁻¹ from rfl, Matrix.transpose_mul, Matrix.mul_assoc J⁻¹.transpose]
    rw [e]
    generalize M.transpose * Matrix.of (el.shapeGradsRef q) = A at hA
    rw [Matrix.transpose_mul, Matrix.transpose_mul, Matrix.transpose_transpose, Matrix.mul_assoc, ← Matrix.mul_add, ← Matrix.add_mul,
      hA, Matrix.zero_mul, Matrix.mul_zero]
  · rintro ⟨W, b, -, hW⟩
    obtain ⟨a1, a2, m, k, hV, hM⟩ := hn
    apply hM
    have hXm : ∀ i, X a1 i + X a2 i = 2 * X m i := fun i => by
      rw [hX, hX, hX, mul_add, Finset.mul_sum, ← sub_eq_zero]
      have : ∑ j, J i j * V a1 j + ∑ j, J i j * V a2 j - ∑ j, 2 * (J i j * V m j) = 0 := by
        rw [← Finset.sum_add_distrib, ← Finset.sum_sub_distrib]
        exact Finset.sum_eq_zero fun j _ => by linear_combination J i j * hV j
      linear_combination this
    have hUm : ∀ i, (M * J⁻¹) a1 i + (M * J⁻¹) a2 i - 2 * (M * J⁻¹) m i = 0 := fun i => by
      rw [hW, hW, hW, mul_add, Finset.mul_sum]
      have : ∑ j, W i j * X a1 j + ∑ j, W i j * X a2 j - ∑ j, 2 * (W i j * X m j) = 0 := by
        rw [← Finset.sum_add_distrib, ← Finset.sum_sub_distrib]
        exact Finset.sum_eq_zero fun j _ => by linear_combination W i j * hXm j
      linear_combination this
    have hback : ∀ a, M a k = ∑ i, (M * J⁻¹) a i * J i k := fun a => by
      rw [← Matrix.mul_apply, Matrix.mul_assoc, hinv, Matrix.mul_one]
    rw [hback, hback, hback, Finset.mul_sum, ← sub_eq_zero, ← Finset.sum_add_distrib, ← Finset.sum_sub_distrib]
    exact Finset.sum_eq_zero fun i _ => by linear_combination J i k * hUm i

/-- Gradients of the mode. -/
theorem mode_grad {e : String × String × List (List Nat)} (he : e ∈ meshNodes) {info : ElementInfo} (hi : getElements e.1 = .ok info)
    (hf : info.family = .serendipity) (x : Nat → ℝ) {c d : Nat} (hc : c < cellDim info.ele) (hd : d < cellDim info.ele) :
    ∑ a ∈ Finset.range e.2.2.length, modeAt (e.2.2.getD a []) c * shapeGrad info a x d =
      if c = 0 ∧ d = 0 then 2 * (3 * (2 * x 1 - 1) ^ 2 - 1) else if c = 0 ∧ d = 1 then 12 * (2 * x 0 - 1) * (2 * x 1 - 1)
      else if c = 1 ∧ d = 0 then -12 * (2 * x 0 - 1) * (2 * x 1 - 1)
      else if c = 1 ∧ d = 1 then -2 * (3 * (2 * x 0 - 1) ^ 2 - 1) else 0 := by
  rw [sum_range_list (K := ℝ) e.2.2 _ (fun pos => modeAt pos c * nodeGrad info pos x d) (fun i pos hp => by
    rw [shapeGrad_node he hi hp, List.getD_eq_getElem?_getD, hp]; rfl)]
  simp only [meshNodes, List.mem_cons, List.not_mem_nil, or_false] at he
  rcases he with rfl | rfl | rfl | rfl | rfl | rfl | rfl | rfl | rfl <;> cases hi <;> try (exact absurd hf (by decide))
  · simp only [cellDim] at hc hd
    interval_cases c <;> interval_cases d <;>
      simp [modeAt, nodeGrad, serendipityGrad, ser1, dser1, away, daway] <;> ring
  · simp only [cellDim] at hc hd
    interval_cases c <;> interval_cases d <;>
      simp [modeAt, nodeGrad, serendipityGrad, ser1, dser1, away, daway] <;> ring

theorem quad8_sq {info : ElementInfo} (hi : getElements "QUAD8" = .ok info) (x : Nat → ℝ) :
    shapeGrad info 4 x 1 * shapeGrad info 4 x 1 = (36 * (x 0) ^ 2 * (1 - x 0) ^ 2) * 1 := by
  rw [shapeGrad_node (e := ("QUAD8", "quad8", [[0, 0], [2, 0], [2, 2], [0, 2], [1, 0], [2, 1], [1, 2], [0, 1]])) (by decide +kernel) hi rfl]
  cases hi
  simp [nodeGrad, serendipityGrad, ser1, dser1]
  ring

theorem hex20_sq {info : ElementInfo} (hi : getElements "HEX20" = .ok info) (x : Nat → ℝ) :
    shapeGrad info 8 x 1 * shapeGrad info 8 x 1 = (36 * (x 0) ^ 2 * (1 - x 0) ^ 2) * 1 * (1 - x 2) ^ 2 := by
  rw [shapeGrad_node (e := ("HEX20", "hexahedron20", [[0, 0, 0], [2, 0, 0], [2, 2, 0], [0, 2, 0], [0, 0, 2], [2, 0, 2], [2, 2, 2],
    [0, 2, 2], [1, 0, 0], [2, 1, 0], [1, 2, 0], [0, 1, 0], [1, 0, 2], [2, 1, 2], [1, 2, 2], [0, 1, 2],
    [0, 0, 1], [2, 0, 1], [2, 2, 1], [0, 2, 1]])) (by decide +kernel) hi rfl]
  cases hi
  simp [nodeGrad, serendipityGrad, ser1, dser1]
  ring

theorem tri3_sq {info : ElementInfo} (hi : getElements "TRI3" = .ok info) (x : Nat → ℝ) :
    shapeValue info 0 x * shapeValue info 0 x = (1 - x 0 - x 1) ^ 2 := by
  rw [shapeValue_node (e := ("TRI3", "triangle", [[0, 0], [2, 0], [0, 2]])) (by decide +kernel) hi rfl]
  cases hi
  simp [nodeFn, lagrangeFn, bary]
  ring

theorem tet4_sq {info : ElementInfo} (hi : getElements "TET4" = .ok info) (x : Nat → ℝ) :
    shapeValue info 0 x * shapeValue info 0 x = (1 - x 0 - x 1 - x 2) ^ 2 := by
  rw [shapeValue_node (e := ("TET4", "tetra", [[0, 0, 0], [2, 0, 0], [0, 2, 0], [0, 0, 2]])) (by decide +kernel) hi rfl]
  cases hi
  simp [nodeFn, lagrangeFn, bary]
  ring

/-- Points of the default rules of the serendipity elements. -/
theorem serendipity_points {e : String × String × List (List Nat)} (he : e ∈ meshNodes) {info : ElementInfo} (hi : getElements e.1 = .ok info)
    (hf : info.family = .serendipity) (b : Basix) (hg : IsGauss 2 (b.gauss 2)) :
    2 ≤ cellDim info.ele ∧ ∀ p ∈ defaultRule b info.ele info.quadratureOrder, (2 * p.1 0 - 1) ^ 2 = 1 / 3 ∧ (2 * p.1 1 - 1) ^ 2 = 1 / 3 := by
  simp only [meshNodes, List.mem_cons, List.not_mem_nil, or_false] at he
  rcases he with rfl | rfl | rfl | rfl | rfl | rfl | rfl | rfl | rfl <;> cases hi <;> try (exact absurd hf (by decide))
  · refine ⟨by decide, fun p hp => ?_⟩
    simp only [defaultRule, productRule, List.mem_flatMap, List.mem_map] at hp
    obtain ⟨a, ha, c, hc, rfl⟩ := hp
    exact ⟨gauss2_mem hg ha, gauss2_mem hg hc⟩
  · refine ⟨by decide, fun p hp => ?_⟩
    simp only [defaultRule, productRule, List.mem_flatMap, List.mem_map] at hp
    obtain ⟨a, ha, c, hc, d, -, rfl⟩ := hp
    exact ⟨gauss2_mem hg ha, gauss2_mem hg hc⟩

/-- Two corners of an edge and its middle: the mode is not affine. -/
theorem mode_bent {e : String × String × List (List Nat)} (he : e ∈ meshNodes) {info : ElementInfo} (hi : getElements e.1 = .ok info)
    (hf : info.family = .serendipity) : ∃ a1 a2 m : Fin e.2.2.length,
      (∀ j, halfPoint ℝ (e.2.2.getD a1 []) j + halfPoint ℝ (e.2.2.getD a2 []) j = 2 * halfPoint ℝ (e.2.2.getD m []) j) ∧
      modeAt (e.2.2.getD a1 []) 0 + modeAt (e.2.2.getD a2 []) 0 ≠ 2 * modeAt (e.2.2.getD m []) 0 := by
  simp only [meshNodes, List.mem_cons, List.not_mem_nil, or_false] at he
  rcases he with rfl | rfl | rfl | rfl | rfl | rfl | rfl | rfl | rfl <;> cases hi <;> try (exact absurd hf (by decide))
  · refine ⟨⟨1, by decide⟩, ⟨2, by decide⟩, ⟨5, by decide⟩, fun j => ?_, ?_⟩
    · simp only [halfPoint, List.cons_append, List.nil_append, List.getD_cons_succ, List.getD_cons_zero]
      match j with
      | 0 => norm_num
      | 1 => norm_num
      | j + 2 => simp
    · simp [modeAt]; norm_num
  · refine ⟨⟨1, by decide⟩, ⟨2, by decide⟩, ⟨9, by decide⟩, fun j => ?_, ?_⟩
    · simp only [halfPoint, List.cons_append, List.nil_append, List.getD_cons_succ, List.getD_cons_zero]
      match j with
      | 0 => norm_num
      | 1 => norm_num
      | 2 => norm_num
      | j + 3 => simp
    · simp [modeAt]; norm_num

/-- Jacobian of an affine map. -/
theorem affine_jacobian {e : String × String × List (List Nat)} (he : e ∈ meshNodes) {info : ElementInfo} (hi : getElements e.1 = .ok info)
    (R : Rule) (J : Matrix (Fin (cellDim info.ele)) (Fin (cellDim info.ele)) ℝ) (x0 : Fin (cellDim info.ele) → ℝ) (q : Fin R.length) :
    mapJacobian (Matrix.of fun (a : Fin e.2.2.length) i => ∑ j, J i j * halfPoint ℝ (e.2.2.getD a []) j + x0 i)
      (Matrix.of ((tabulated info R e.2.2.length (cellDim info.ele)).shapeGradsRef q)) = J := by
  ext i d
  have h := C69_grads he hi (x0 i) (fun j => if h : j < cellDim info.ele then J i ⟨j, h⟩ else 0) (fun _ _ => 0) (fun _ _ _ => rfl)
    (extend fun d : Fin (cellDim info.ele) => (R.get q).1 d) d.2
  rw [Finset.sum_range] at h
  simp only [mapJacobian, Matrix.mul_apply, Matrix.transpose_apply, Matrix.of_apply, tabulated, tabulateInfo]
  refine (Finset.sum_congr rfl fun a _ => ?_).trans (h.trans ?_)
  · congr 1
    simp only [quadPoly, Finset.sum_range, Fin.is_lt, dite_true, zero_mul, Finset.sum_const_zero, add_zero]
    rw [add_comm]
  · simp [quadPolyGrad]

/-! ### Property theorems -/

/-- C113 (reduced integration). The rules used by default for QUAD8 and HEX20 have two points per direction and are not exact for their
stiffness matrices: for the square of the derivative of an edge function across the edge they give 1 and 1/3 instead of 6/5 and 2/5. The
comment "6x6x6, full integration" of HEX20 is wrong. -/
theorem C113_serendipity (b : Basix) (hg : IsGauss 2 (b.gauss 2)) :
    (∃ info R, cellRule b "QUAD8" .none none = .ok (info, R) ∧ R.length = 4 ∧
      quadSum R (fun x => shapeGrad info 4 x 1 * shapeGrad info 4 x 1) = 1 ∧
      cellIntegral info.ele (fun x => shapeGrad info 4 x 1 * shapeGrad info 4 x 1) = 6 / 5) ∧
    ∃ info R, cellRule b "HEX20" .none none = .ok (info, R) ∧ R.length = 8 ∧
      quadSum R (fun x => shapeGrad info 8 x 1 * shapeGrad info 8 x 1) = 1 / 3 ∧
      cellIntegral info.ele (fun x => shapeGrad info 8 x 1 * shapeGrad info 8 x 1) = 2 / 5 := by
  have hl := hg.1
  have hbub := gauss2_sum hg (fun t => 36 * t ^ 2 * (1 - t) ^ 2) 1 fun t ht => by
    have : t ^ 2 * (1 - t) ^ 2 = (t - t ^ 2) ^ 2 := by ring
    rw [mul_assoc, this, ht]; ring
  have hone := gauss2_sum hg (fun _ => 1) 1 fun _ _ => rfl
  have hend := gauss2_end hg
  constructor
  · refine ⟨_, _, cellRule_ok b none rfl, ?_, ?_⟩
    · simp [defaultRule, productRule, List.length_flatMap, hl]
    have hs := funext (quad8_sq rfl)
    rw [hs]
    constructor
    · exact (quadSum_product2 (b.gauss 2) (fun t => 36 * t ^ 2 * (1 - t) ^ 2) fun _ => 1).trans (by rw [hbub, hone]; norm_num)
    · simp only [cellIntegral, point, List.getD_cons_zero, mul_one, intervalIntegral.integral_const, sub_zero, one_smul]
      exact integral_bubble
  · refine ⟨_, _, cellRule_ok b none rfl, ?_, ?_⟩
    · simp [defaultRule, productRule, List.length_flatMap, hl]
    have hs := funext (hex20_sq rfl)
    rw [hs]
    constructor
    · exact (quadSum_product3 (b.gauss 2) (fun t => 36 * t ^ 2 * (1 - t) ^ 2) (fun _ => 1) fun t => (1 - t) ^ 2).trans
        (by rw [hbub, hone, hend]; norm_num)
    · simp only [cellIntegral, point, List.getD_cons_zero, List.getD_cons_succ, mul_one, intervalIntegral.integral_const, sub_zero,
        one_smul, intervalIntegral.integral_const_mul, integral_end, intervalIntegral.integral_mul_const, integral_bubble]
      norm_num

/-- C113 (spurious modes). On every affinely mapped cell of QUAD8 and HEX20 the default rule leaves a mode that deforms the cell without
any strain at the quadrature points; it leaves the middle nodes of the edges along the first two axes where they are. So cells held at
these nodes — which excludes rigid motions — still have displacements without stiffness. -/
theorem C113_spurious {e : String × String × List (List Nat)} (he : e ∈ meshNodes) {b : Basix} {info : ElementInfo}
    {R : Rule} (hR : cellRule b e.1 .none none = .ok (info, R)) (hf : info.family = .serendipity) (hg : IsGauss 2 (b.gauss 2))
    (J : Matrix (Fin (cellDim info.ele)) (Fin (cellDim info.ele)) ℝ) (hJ : J.det ≠ 0) (x0 : Fin (cellDim info.ele) → ℝ) :
    ∃ U : Fin e.2.2.length → Fin (cellDim info.ele) → ℝ,
      SpuriousMode (tabulated info R e.2.2.length (cellDim info.ele))
        (fun a i => ∑ j, J i j * halfPoint ℝ (e.2.2.getD a []) j + x0 i) U ∧
      ∀ a : Fin e.2.2.length, (e.2.2.getD a []).getD 0 0 = 1 ∨ (e.2.2.getD a []).getD 1 0 = 1 → U a = 0 := by
  obtain ⟨hi, rfl⟩ := cellRule_default hR
  obtain ⟨hd2, hp⟩ := serendipity_points he hi hf b hg
  set R := defaultRule b info.ele info.quadratureOrder with hRd
  let M : Matrix (Fin e.2.2.length) (Fin (cellDim info.ele)) ℝ := fun a c => modeAt (e.2.2.getD a []) c
  refine ⟨M * J⁻¹, ?_, fun a ha => ?_⟩
  · refine spurious_of _ (fun a j => halfPoint ℝ (e.2.2.getD a []) j) _ M J hJ x0 (fun _ _ => rfl)
      (affine_jacobian he hi _ J x0) (fun q c d => ?_) ?_
    · have h := fun c d : Fin (cellDim info.ele) => mode_grad he hi hf (extend fun d : Fin (cellDim info.ele) => (R.get q).1 d) c.2 d.2
      simp only [Finset.sum_range] at h
      have hx0 : extend (fun d : Fin (cellDim info.ele) => (R.get q).1 d) 0 = (R.get q).1 0 := by
        simp [extend, show 0 < cellDim info.ele by omega]
      have hx1 : extend (fun d : Fin (cellDim info.ele) => (R.get q).1 d) 1 = (R.get q).1 1 := by
        simp [extend, show 1 < cellDim info.ele by omega]
      obtain ⟨h1, h2⟩ := hp _ (List.get_mem R q)
      rw [hx0, hx1] at h
      refine (congrArg₂ (· + ·) (h c d) (h d c)).trans ?_
      rw [h1, h2]
      generalize (c : Nat) = c
      generalize (d : Nat) = d
      match c, d with
      | 0, 0 => norm_num
      | 0, 1 => norm_num
      | 1, 0 => norm_num
      | 1, 1 => norm_num
      | 0, d + 2 => simp
      | 1, d + 2 => simp
      | c + 2, d => simp
    · obtain ⟨a1, a2, m, h1, h2⟩ := mode_bent he hi hf
      exact ⟨a1, a2, m, ⟨0, by omega⟩, fun j => h1 j, h2⟩
  · funext i
    rw [Matrix.mul_apply]
    refine Finset.sum_eq_zero fun k _ => ?_
    have : M a k = 0 := if_pos ha
    rw [this, zero_mul]

/-- C113 (mass by default). The rules used by default for the other six elements have fewer points than nodes: some nodal values that are
not all zero give a field that vanishes at all points, so that the consistent mass matrix is singular. -/
theorem C113_singular {e : String × String × List (List Nat)} (he : e ∈ meshNodes)
    (hs : e.1 ∈ ["TRI3", "TRI6", "QUAD8", "TET4", "TET10", "HEX20"]) {b : Basix} (hb : ∀ m, (b.gauss m).length = m)
    {info : ElementInfo} {R : Rule} (hR : cellRule b e.1 .none none = .ok (info, R)) :
    ∃ U : Fin e.2.2.length → ℝ, U ≠ 0 ∧
      (∀ q, ∑ a, U a * (tabulated info R e.2.2.length (cellDim info.ele)).shapeVals q a = 0) ∧
      ∀ c, ∑ a, (∑ q, (tabulated info R e.2.2.length (cellDim info.ele)).quadWeights q *
        ((tabulated info R e.2.2.length (cellDim info.ele)).shapeVals q c *
          (tabulated info R e.2.2.length (cellDim info.ele)).shapeVals q a)) * U a = 0 := by
  obtain ⟨hi, rfl⟩ := cellRule_default hR
  have hlt : (defaultRule b info.ele info.quadratureOrder).length < e.2.2.length := by
    simp only [meshNodes, List.mem_cons, List.not_mem_nil, or_false] at he
    rcases he with rfl | rfl | rfl | rfl | rfl | rfl | rfl | rfl | rfl <;> cases hi <;> first
      | exact absurd hs (by decide)
      | simp [defaultRule, productRule, List.length_flatMap, hb]
  simp only [Option.getD_none]
  set R := defaultRule b info.ele info.quadratureOrder with hRd
  let el := tabulated info R e.2.2.length (cellDim info.ele)
  let L : (Fin e.2.2.length → ℝ) →ₗ[ℝ] (Fin R.length → ℝ) := Matrix.toLin' (Matrix.of el.shapeVals)
  have hk : LinearMap.ker L ≠ ⊥ := LinearMap.ker_ne_bot_of_finrank_lt (by simpa using hlt)
  obtain ⟨U, hU, hne⟩ := Submodule.exists_mem_ne_zero_of_ne_bot hk
  have hz : ∀ q, ∑ a, U a * el.shapeVals q a = 0 := fun q => by
    have h := congrFun (LinearMap.mem_ker.1 hU) q
    simp only [L, Matrix.toLin'_apply, Matrix.mulVec, dotProduct, Matrix.of_apply, Pi.zero_apply] at h
    exact (Finset.sum_congr rfl fun a _ => mul_comm _ _).trans h
  refine ⟨U, hne, hz, fun c => ?_⟩
  simp only [Finset.sum_mul]
  rw [Finset.sum_comm]
  refine Finset.sum_eq_zero fun q _ => ?_
  have : ∑ a, el.quadWeights q * (el.shapeVals q c * el.shapeVals q a) * U a =
      el.quadWeights q * el.shapeVals q c * ∑ a, U a * el.shapeVals q a := by
    rw [Finset.mul_sum]; exact Finset.sum_congr rfl fun a _ => by ring
  exact this.trans (by rw [hz, mul_zero])

/-- C113 (mass by default, values). The one-point rules of TRI3 and TET4 give 1/18 and 1/96 for the square of the first function instead
of 1/12 and 1/60. -/
theorem C113_mass_reduced (b : Basix) :
    (∃ info R, cellRule b "TRI3" .none none = .ok (info, R) ∧ quadSum R (fun x => shapeValue info 0 x * shapeValue info 0 x) = 1 / 18 ∧
      cellIntegral info.ele (fun x => shapeValue info 0 x * shapeValue info 0 x) = 1 / 12) ∧
    ∃ info R, cellRule b "TET4" .none none = .ok (info, R) ∧ quadSum R (fun x => shapeValue info 0 x * shapeValue info 0 x) = 1 / 96 ∧
      cellIntegral info.ele (fun x => shapeValue info 0 x * shapeValue info 0 x) = 1 / 60 := by
  constructor
  · refine ⟨_, _, cellRule_ok b none rfl, ?_⟩
    rw [funext (tri3_sq rfl)]
    constructor
    · simp [quadSum, defaultRule, point]; norm_num
    · simp only [cellIntegral, point, List.getD_cons_zero, List.getD_cons_succ]
      have h : ∀ x : ℝ, ∫ y in (0 : ℝ)..(1 - x), (1 - x - y) ^ 2 = (1 - x) ^ 3 / 3 := fun x => by
        rw [integral_as _ (1 - x) ((1 - x) ^ 2) (-2 * (1 - x)) 1 0 0 0 (fun t => by ring)]; ring
      simp only [h]
      rw [integral_as _ 1 (1 / 3) (-1) 1 (-1 / 3) 0 0 (fun t => by ring)]; norm_num
  · refine ⟨_, _, cellRule_ok b none rfl, ?_⟩
    rw [funext (tet4_sq rfl)]
    constructor
    · simp [quadSum, defaultRule, point]; norm_num
    · simp only [cellIntegral, point, List.getD_cons_zero, List.getD_cons_succ]
      have h : ∀ x y : ℝ, ∫ z in (0 : ℝ)..(1 - x - y), (1 - x - y - z) ^ 2 = (1 - x - y) ^ 3 / 3 := fun x y => by
        rw [integral_as _ (1 - x - y) ((1 - x - y) ^ 2) (-2 * (1 - x - y)) 1 0 0 0 (fun t => by ring)]; ring
      have h2 : ∀ x : ℝ, ∫ y in (0 : ℝ)..(1 - x), (1 - x - y) ^ 3 / 3 = (1 - x) ^ 4 / 12 := fun x => by
        rw [integral_as _ (1 - x) ((1 - x) ^ 3 / 3) (-(1 - x) ^ 2) (1 - x) (-1 / 3) 0 0 (fun t => by ring)]; ring
      simp only [h, h2]
      rw [integral_as _ 1 (1 / 12) (-1 / 3) (1 / 2) (-1 / 3) (1 / 12) 0 (fun t => by ring)]; norm_num

/-! ### Non-vacuity -/

/-- The two-point rule. -/
noncomputable def twoPoint : List (ℝ × ℝ) := [((1 - 1 / √3) / 2, 1 / 2), ((1 + 1 / √3) / 2, 1 / 2)]

theorem twoPoint_gauss : IsGauss 2 twoPoint := by
  have h : (1 / √3 : ℝ) ^ 2 = 1 / 3 := by rw [div_pow, Real.sq_sqrt (by norm_num)]; norm_num
  refine ⟨rfl, fun k hk => ?_⟩
  simp only [twoPoint, List.map_cons, List.map_nil, List.sum_cons, List.sum_nil]
  generalize (1 / √3 : ℝ) = s at h
  have h : k = 0 ∨ k = 1 ∨ k = 2 ∨ k = 3 := by omega
  rcases h with rfl | rfl | rfl | rfl
  · norm_num
  · norm_num; ring
  · norm_num; linear_combination h / 4
  · norm_num; linear_combination 3 / 8 * h

/-- A library with this rule. -/
noncomputable def sampleBasix : Basix where
  gauss m := if m = 2 then twoPoint else List.replicate m (0, 0)
  xiaoGimbutas _ _ := []
  other _ _ _ := .error .notImplemented
  stringToType s := if s = "default" then .ok 0 else .error .value

example : Documented sampleBasix .hexahedron 2 := twoPoint_gauss

example : Documented sampleBasix .triangle 2 := fun h => absurd h (by norm_num)

example : ∃ info R, cellRule sampleBasix "HEX8" .none none = .ok (info, R) ∧
    Exact info.ele R fun x => shapeGrad info 0 x 0 * shapeGrad info 6 x 1 := by
  refine ⟨_, _, cellRule_ok _ none rfl, ?_⟩
  have h := C113_default (e := ("HEX8", "hexahedron", [[0, 0, 0], [2, 0, 0], [2, 2, 0], [0, 2, 0], [0, 0, 2], [2, 0, 2], [2, 2, 2],
    [0, 2, 2]])) (by decide +kernel) (cellRule_ok sampleBasix none rfl) twoPoint_gauss rfl (a := 0) (c := 6) (by decide) (by decide)
    (fun i j => if i = 0 ∧ j = 1 then 1 else 0) 2
  simpa [Finset.sum_range_succ] using h

example : ∀ m, (sampleBasix.gauss m).length = m := by
  intro m
  by_cases h : m = 2 <;> simp [sampleBasix, h, twoPoint]

end JaxFem.Quadrature
