import Verif.Thm.C101_Control
import Verif.Thm.C76_Stokes

/-!
# C101: plates of linear triangles
-/

namespace JaxFem.Control

open scoped BigOperators

variable {vu vT : CVar 2} {m : Material} {bu bT : DirichletLists} {n : Nat}

/-- Linear triangles (`TRI3`), counted with the gradients of the reference triangle, with at least one quadrature
point. -/
structure Linear3 (v : CVar 2) : Prop where
  nn : v.nn = 3
  nq : 0 < v.nq
  grads : ∀ q < v.nq, v.shapeGradsRef q 0 = ![-1, -1] ∧ v.shapeGradsRef q 1 = ![1, 0] ∧ v.shapeGradsRef q 2 = ![0, 1]

/-- Nodes whose temperature is prescribed, and all nodes that are connected with them by cells. -/
inductive Cooled (v : CVar 2) (b : DirichletLists) : Nat → Prop
  | bc (a : Nat) : Constrained b a 0 → Cooled v b a
  | cell (e i j : Nat) : e < v.cells.length → i < 3 → j < 3 → Cooled v b (v.node e i) → Cooled v b (v.node e j)

/-- Nodes that are clamped, and nodes of cells that have two other such nodes. -/
inductive Held (v : CVar 2) (b : DirichletLists) : Nat → Prop
  | bc (a : Nat) : Constrained b a 0 → Constrained b a 1 → Held v b a
  | cell (e i j k : Nat) : e < v.cells.length → i < 3 → j < 3 → k < 3 → i ≠ j → Held v b (v.node e i) →
      Held v b (v.node e j) → Held v b (v.node e k)

/-! ### Helper lemmas -/

theorem tri_grad {v : CVar 2} (hL : Linear3 v) (hpos : v.Positive) (u : Nat → Nat → ℝ) (e : Nat) (he : e < v.cells.length)
    (q : Nat) (hq : q < v.nq) (c : Nat) :
    (∑ i, v.gradAt u e q c i * (v.points.getD (v.node e 1) 0 i - v.points.getD (v.node e 0) 0 i)
      = u (v.node e 1) c - u (v.node e 0) c) ∧
    ∑ i, v.gradAt u e q c i * (v.points.getD (v.node e 2) 0 i - v.points.getD (v.node e 0) 0 i)
      = u (v.node e 2) c - u (v.node e 0) c := by
  obtain ⟨g0, g1, g2⟩ := hL.grads q hq
  have hnn := hL.nn
  have hdet : ((v.X e).transpose * v.G q).det ≠ 0 := by
    intro h
    have := hpos e he q hq
    rw [CVar.measure, h, zero_mul] at this
    exact lt_irrefl _ this
  have key : Matrix.vecMul (v.gradAt u e q c) ((v.X e).transpose * v.G q)
      = Matrix.vecMul (fun a : Fin v.nn => u (v.node e a) c) (v.G q) := by
    rw [CVar.gradAt, Matrix.vecMul_vecMul, Matrix.mul_assoc, Matrix.nonsing_inv_mul _ (isUnit_iff_ne_zero.2 hdet),
      Matrix.mul_one]
  have hsum : ∀ F : Nat → ℝ, ∑ a : Fin v.nn, F a = F 0 + F 1 + F 2 := by
    intro F
    rw [← Finset.sum_range, hnn, Finset.sum_range_succ, Finset.sum_range_succ, Finset.sum_range_one]
  have hJ : ∀ i j, ((v.X e).transpose * v.G q) i j
      = v.points.getD (v.node e 0) 0 i * v.shapeGradsRef q 0 j + v.points.getD (v.node e 1) 0 i * v.shapeGradsRef q 1 j
        + v.points.getD (v.node e 2) 0 i * v.shapeGradsRef q 2 j := by
    intro i j
    rw [Matrix.mul_apply, ← hsum fun a => v.points.getD (v.node e a) 0 i * v.shapeGradsRef q a j]
    rfl
  have hU : ∀ j, Matrix.vecMul (fun a : Fin v.nn => u (v.node e a) c) (v.G q) j
      = u (v.node e 0) c * v.shapeGradsRef q 0 j + u (v.node e 1) c * v.shapeGradsRef q 1 j
        + u (v.node e 2) c * v.shapeGradsRef q 2 j := by
    intro j
    rw [Matrix.vecMul, dotProduct, ← hsum fun a => u (v.node e a) c * v.shapeGradsRef q a j]
    rfl
  constructor
  · have h := congrFun key 0
    rw [hU, Matrix.vecMul, dotProduct] at h
    simp only [hJ, g0, g1, g2, Matrix.cons_val_zero] at h
    rw [Fin.sum_univ_two] at h ⊢
    linarith
  · have h := congrFun key 1
    rw [hU, Matrix.vecMul, dotProduct] at h
    simp only [hJ, g0, g1, g2, Matrix.cons_val_one, Matrix.cons_val_fin_one] at h
    rw [Fin.sum_univ_two] at h ⊢
    linarith

theorem tri_diff {v : CVar 2} (hL : Linear3 v) (hpos : v.Positive) (u : Nat → Nat → ℝ) (e : Nat) (he : e < v.cells.length)
    (q : Nat) (hq : q < v.nq) (c i j : Nat) (hi : i < 3) (hj : j < 3) :
    ∑ d, v.gradAt u e q c d * (v.points.getD (v.node e j) 0 d - v.points.getD (v.node e i) 0 d)
      = u (v.node e j) c - u (v.node e i) c := by
  obtain ⟨h1, h2⟩ := tri_grad hL hpos u e he q hq c
  rw [Fin.sum_univ_two] at h1 h2 ⊢
  interval_cases i <;> interval_cases j <;> linarith

/-- Different nodes of a cell lie at different places. -/
theorem tri_apart {v : CVar 2} (hL : Linear3 v) (hpos : v.Positive) (e : Nat) (he : e < v.cells.length) (i j : Nat)
    (hi : i < 3) (hj : j < 3) (hij : i ≠ j) : v.points.getD (v.node e i) 0 ≠ v.points.getD (v.node e j) 0 := by
  intro h
  have hdet := hpos e he 0 hL.nq
  obtain ⟨g0, g1, g2⟩ := hL.grads 0 hL.nq
  have hnn := hL.nn
  have hsum : ∀ F : Nat → ℝ, ∑ a : Fin v.nn, F a = F 0 + F 1 + F 2 := by
    intro F
    rw [← Finset.sum_range, hnn, Finset.sum_range_succ, Finset.sum_range_succ, Finset.sum_range_one]
  have hJ : ∀ i j, ((v.X e).transpose * v.G 0) i j
      = v.points.getD (v.node e 0) 0 i * v.shapeGradsRef 0 0 j + v.points.getD (v.node e 1) 0 i * v.shapeGradsRef 0 1 j
        + v.points.getD (v.node e 2) 0 i * v.shapeGradsRef 0 2 j := by
    intro i j
    rw [Matrix.mul_apply, ← hsum fun a => v.points.getD (v.node e a) 0 i * v.shapeGradsRef 0 a j]
    rfl
  have hz : ((v.X e).transpose * v.G 0).det = 0 := by
    rw [Matrix.det_fin_two]
    simp only [hJ, g0, g1, g2, Matrix.cons_val_zero, Matrix.cons_val_one, Matrix.cons_val_fin_one]
    have h0 := congrFun h 0
    have h1 := congrFun h 1
    interval_cases i <;> interval_cases j <;> first | exact absurd rfl hij | (rw [h0, h1]; ring) | (rw [← h0, ← h1]; ring)
  rw [CVar.measure, hz, zero_mul] at hdet
  exact lt_irrefl _ hdet

theorem antisymmetric_zero (w x y : ℝ) (hx : w * y = 0) (hy : w * x = 0) (hne : ¬ (x = 0 ∧ y = 0)) : w = 0 := by
  by_contra hw
  exact hne ⟨(mul_eq_zero.1 hy).resolve_left hw, (mul_eq_zero.1 hx).resolve_left hw⟩

/-! ### Property theorem -/

/-- **C101 (triangles).** A plate of linear triangles in which all temperatures are connected with a prescribed temperature
and which is built up from clamped nodes, one cell with two held nodes after the other, has a unique response. -/
theorem C101_triangles (wf : WFVars [vu, vT]) (hvu : vu.vec = 2) (hvT : vT.vec = 1) (posU : vu.Positive)
    (posT : vT.Positive) (hLu : Linear3 vu) (hLT : Linear3 vT) (mu : 0 < m.mu) (bulk : 0 < m.lmbda + m.mu) (k : 0 < m.k)
    (first : ∃ (ns : List Nat) (nss : List (List Nat)) (vs : List ℝ) (vss : List (List ℝ)),
      ns.length = n ∧ bT.1 = ns :: nss ∧ bT.2.2 = vs :: vss)
    (lists : bu.1.length = bu.2.1.length ∧ bu.1.length = bu.2.2.length ∧ bT.1.length = bT.2.1.length ∧
      bT.1.length = bT.2.2.length)
    (bc : ∀ θ : Fin n → ℝ, WFBC (fes vu vT) (bcs bu bT θ))
    (held : ∀ a < vu.numTotalNodes, Held vu bu a) (cooled : ∀ a < vT.numTotalNodes, Cooled vT bT a) :
    Plate m vu vT bu bT n where
  wf := wf
  vecU := hvu
  vecT := hvT
  posU := posU
  posT := posT
  mu := mu
  bulk := bulk
  k := k
  first := first
  lists := lists
  bc := bc
  held := by
    intro x hx hs
    have hnode : ∀ e < vu.cells.length, ∀ i < 3, vu.node e i < vu.numTotalNodes := fun e he i hi =>
      node_lt' (wf.wf vu (by simp)) he ⟨i, by rw [hLu.nn]; exact hi⟩
    have key : ∀ a, Held vu bu a → a < vu.numTotalNodes → field x 0 a 0 = 0 ∧ field x 0 a 1 = 0 := by
      intro a ha
      induction ha with
      | bc a h0 h1 => exact fun hlt => ⟨hx.1 a hlt 0 (by decide) h0, hx.1 a hlt 1 (by decide) h1⟩
      | cell e i j k he hi hj hk hij _ _ ih1 ih2 =>
        intro _
        obtain ⟨a0, a1⟩ := ih1 (hnode e he i hi)
        obtain ⟨b0, b1⟩ := ih2 (hnode e he j hj)
        have d0 := tri_diff hLu posU (field x 0) e he 0 hLu.nq 0 i j hi hj
        have d1 := tri_diff hLu posU (field x 0) e he 0 hLu.nq 1 i j hi hj
        rw [a0, b0, sub_zero, Fin.sum_univ_two] at d0
        rw [a1, b1, sub_zero, Fin.sum_univ_two] at d1
        have s := hs e he 0 hLu.nq
        have s00 : vu.gradAt (field x 0) e 0 0 0 = 0 := by
          have := s 0 0
          rw [strain, Fin.val_zero] at this
          linarith
        have s11 : vu.gradAt (field x 0) e 0 1 1 = 0 := by
          have := s 1 1
          rw [strain, Fin.val_one] at this
          linarith
        have s01 : vu.gradAt (field x 0) e 0 1 0 = -vu.gradAt (field x 0) e 0 0 1 := by
          have := s 0 1
          rw [strain, Fin.val_one, Fin.val_zero] at this
          linarith
        rw [s00, zero_mul, zero_add] at d0
        rw [s11, s01, zero_mul, add_zero, neg_mul, neg_eq_zero] at d1
        have hw : vu.gradAt (field x 0) e 0 0 1 = 0 := by
          refine antisymmetric_zero _ _ _ d0 d1 fun hne => ?_
          refine tri_apart hLu posU e he i j hi hj hij (funext fun d => ?_)
          fin_cases d
          · exact (sub_eq_zero.1 hne.1).symm
          · exact (sub_eq_zero.1 hne.2).symm
        have c0 := tri_diff hLu posU (field x 0) e he 0 hLu.nq 0 i k hi hk
        have c1 := tri_diff hLu posU (field x 0) e he 0 hLu.nq 1 i k hi hk
        rw [a0, sub_zero, Fin.sum_univ_two, s00, hw, zero_mul, zero_mul, add_zero] at c0
        rw [a1, sub_zero, Fin.sum_univ_two, s11, s01, hw, neg_zero, zero_mul, zero_mul, add_zero] at c1
        exact ⟨c0.symm, c1.symm⟩
    intro a ha c hc
    obtain ⟨h0, h1⟩ := key a (held a ha) ha
    interval_cases c
    · exact h0
    · exact h1
  cooled := by
    intro x hx hs
    have hnode : ∀ e < vT.cells.length, ∀ i < 3, vT.node e i < vT.numTotalNodes := fun e he i hi =>
      node_lt' (wf.wf vT (by simp)) he ⟨i, by rw [hLT.nn]; exact hi⟩
    have key : ∀ a, Cooled vT bT a → a < vT.numTotalNodes → field x 1 a 0 = 0 := by
      intro a ha
      induction ha with
      | bc a h => exact fun hlt => hx.2 a hlt h
      | cell e i j he hi hj _ ih =>
        intro _
        have a0 := ih (hnode e he i hi)
        have d := tri_diff hLT posT (field x 1) e he 0 hLT.nq 0 i j hi hj
        rw [a0, sub_zero, Fin.sum_univ_two, hs e he 0 hLT.nq, hs e he 0 hLT.nq, zero_mul, zero_mul, add_zero] at d
        exact d.symm
    exact fun a ha => key a (cooled a ha) ha

/-! ### A concrete case

Two triangles; the nodes 0, 1, 2 are clamped and their temperatures are controlled, node 3 is free. -/

/-- The variables of the example. -/
noncomputable def exPlate (vec : Nat) : CVar 2 :=
  { numTotalNodes := 4, vec := vec, nn := 3, nq := 1, nfq := 0,
    points := [![0, 0], ![1, 0], ![2, 0], ![1, 1]], cells := [[0, 1, 3], [1, 2, 3]],
    shapeVals := fun _ _ => 1 / 3,
    shapeGradsRef := fun _ a => ([![-1, -1], ![1, 0], ![0, 1]] : List (Fin 2 → ℝ)).getD a 0,
    quadWeights := fun _ => 1 / 2,
    faceShapeVals := fun _ _ _ => 0, faceShapeGradsRef := fun _ _ _ _ => 0,
    faceQuadWeights := fun _ _ => 0, faceNormals := fun _ _ => 0 }

/-- Clamped at the hole. -/
noncomputable def exBu : DirichletLists := ([[0, 1, 2], [0, 1, 2]], [[0, 0, 0], [1, 1, 1]], [[0, 0, 0], [0, 0, 0]])

/-- Controlled temperatures at the hole. -/
noncomputable def exBT : DirichletLists := ([[0, 1, 2]], [[0, 0, 0]], [[1, 1, 1]])

theorem exPlate_linear (k : Nat) : Linear3 (exPlate k) := ⟨rfl, Nat.one_pos, fun _ _ => ⟨rfl, rfl, rfl⟩⟩

theorem exPlate_wf (k : Nat) : (exPlate k).WF := by
  intro cell hc
  simp only [exPlate, List.mem_cons, List.not_mem_nil, or_false] at hc
  rcases hc with rfl | rfl <;> exact ⟨rfl, by simp [exPlate]⟩

theorem exPlate_vars (k l : Nat) : WFVars [exPlate k, exPlate l] := by
  refine ⟨by simp, ?_, ?_, ?_, ?_⟩
  · intro v hv
    simp only [List.mem_cons, List.not_mem_nil, or_false] at hv
    rcases hv with rfl | rfl <;> exact exPlate_wf _
  all_goals
    intro v hv
    simp only [List.mem_cons, List.not_mem_nil, or_false] at hv
  · intro w hw
    simp only [List.mem_cons, List.not_mem_nil, or_false] at hw
    rcases hv with rfl | rfl <;> rcases hw with rfl | rfl <;> rfl
  · intro w hw
    simp only [List.mem_cons, List.not_mem_nil, or_false] at hw
    rcases hv with rfl | rfl <;> rcases hw with rfl | rfl <;> rfl
  · rcases hv with rfl | rfl <;> simp [exPlate]

theorem exPlate_positive (k : Nat) : (exPlate k).Positive := by
  have hJ : ∀ e i j, (((exPlate k).X e).transpose * (exPlate k).G 0) i j
      = (exPlate k).X e (0 : Fin 3) i * (![-1, -1] : Fin 2 → ℝ) j + (exPlate k).X e (1 : Fin 3) i * (![1, 0] : Fin 2 → ℝ) j
        + (exPlate k).X e (2 : Fin 3) i * (![0, 1] : Fin 2 → ℝ) j := by
    intro e i j
    rw [Matrix.mul_apply]
    change ∑ a : Fin 3, (exPlate k).X e a i * (exPlate k).G 0 a j = _
    rw [Fin.sum_univ_three]
    rfl
  intro e he q hq
  obtain rfl : q = 0 := by simpa [exPlate] using hq
  have h2 : e < 2 := he
  rw [CVar.measure, Matrix.det_fin_two]
  have x00 : (exPlate k).X 0 (0 : Fin 3) = ![0, 0] := rfl
  have x01 : (exPlate k).X 0 (1 : Fin 3) = ![1, 0] := rfl
  have x02 : (exPlate k).X 0 (2 : Fin 3) = ![1, 1] := rfl
  have x10 : (exPlate k).X 1 (0 : Fin 3) = ![1, 0] := rfl
  have x11 : (exPlate k).X 1 (1 : Fin 3) = ![2, 0] := rfl
  have x12 : (exPlate k).X 1 (2 : Fin 3) = ![1, 1] := rfl
  have hw : (exPlate k).quadWeights 0 = 1 / 2 := rfl
  simp only [hJ, hw]
  interval_cases e
  · rw [x00, x01, x02]
    norm_num
  · rw [x10, x11, x12]
    norm_num

theorem exPlate_is : Plate ⟨1, 1, 1, 1⟩ (exPlate 2) (exPlate 1) exBu exBT 3 := by
  have c01 : ∀ a < 3, Constrained exBu a 0 ∧ Constrained exBu a 1 := by
    intro a ha
    refine ⟨⟨0, a, _, _, rfl, rfl, ?_, ?_⟩, ⟨1, a, _, _, rfl, rfl, ?_, ?_⟩⟩ <;> interval_cases a <;> rfl
  have cT : ∀ a < 3, Constrained exBT a 0 := by
    intro a ha
    refine ⟨0, a, _, _, rfl, rfl, ?_, ?_⟩ <;> interval_cases a <;> rfl
  refine C101_triangles (exPlate_vars 2 1) rfl rfl (exPlate_positive 2) (exPlate_positive 1) (exPlate_linear 2)
    (exPlate_linear 1) (by norm_num) (by norm_num) (by norm_num) ⟨_, _, _, _, rfl, rfl, rfl⟩ ⟨rfl, rfl, rfl, rfl⟩ ?_ ?_ ?_
  · intro θ
    have e : bcs exBu exBT θ = [[⟨[0, 1, 2], [0, 0, 0], [0, 0, 0]⟩, ⟨[0, 1, 2], [1, 1, 1], [0, 0, 0]⟩],
      [⟨[0, 1, 2], [0, 0, 0], List.ofFn θ⟩]] := rfl
    rw [e]
    refine ⟨rfl, by simp, by simp, by simp, ?_⟩
    intro i fe es h1 h2 e he
    rcases i with _ | _ | i
    · simp only [List.getElem?_cons_zero, Option.some.injEq, fes] at h1 h2
      subst h1 h2
      simp only [List.mem_cons, List.not_mem_nil, or_false] at he
      rcases he with rfl | rfl <;> simp [exPlate, CVar.fe]
    · simp only [List.getElem?_cons_succ, List.getElem?_cons_zero, Option.some.injEq, fes] at h1 h2
      subst h1 h2
      simp only [List.mem_cons, List.not_mem_nil, or_false] at he
      subst he
      simp [exPlate, CVar.fe]
    · simp at h2
  · intro a ha
    have ha4 : a < 4 := ha
    rcases (by omega : a < 3 ∨ a = 3) with h | rfl
    · exact .bc a (c01 a h).1 (c01 a h).2
    · exact .cell (v := exPlate 2) 0 0 1 2 (by decide) (by decide) (by decide) (by decide) (by decide)
        (.bc 0 (c01 0 (by decide)).1 (c01 0 (by decide)).2) (.bc 1 (c01 1 (by decide)).1 (c01 1 (by decide)).2)
  · intro a ha
    have ha4 : a < 4 := ha
    rcases (by omega : a < 3 ∨ a = 3) with h | rfl
    · exact .bc a (cT a h)
    · exact .cell (v := exPlate 1) 0 0 2 (by decide) (by decide) (by decide) (.bc 0 (cT 0 (by decide)))

/-- Exact solvers for the example: inverse matrices, maximum norm. -/
noncomputable def exSetup (m : Material) (vu vT : CVar 2) (bu bT : DirichletLists) (n : Nat) :
    Inverse.Setup (Fin n → ℝ) (fes vu vT) (totalDofs (fes vu vT)) where
  bcs := bcs bu bT
  res := fun _ x => flatResidual m vu vT x
  tan := fun _ _ => formMatrix (formB m vu vT)
  norm := fun r => ‖r‖
  solve := fun A b _ => if A.det = 0 then .error .runtime else .ok (A⁻¹.mulVec b)
  lineSearch := false
  tol := 0
  relTol := 1 / 2
  guess := 0
  adjointSolve := fun _ A b => if A.det = 0 then .error .runtime else .ok (A⁻¹.mulVec b)

theorem exSetup_is (hP : Plate m vu vT bu bT n) : IsControlSetup m vu vT bu bT (exSetup m vu vT bu bT n) where
  bcs := fun _ => rfl
  res := fun _ _ => rfl
  exact :=
    { norm_nonneg := fun r => norm_nonneg r
      norm_zero := fun r => norm_eq_zero
      solve := fun A b x0 x h => by
        simp only [exSetup] at h
        split_ifs at h with hd
        cases h
        rw [Matrix.mulVec_mulVec, Matrix.mul_nonsing_inv A (isUnit_iff_ne_zero.2 hd), Matrix.one_mulVec]
      solve_total := fun A b x0 hd => ⟨A⁻¹.mulVec b, by simp only [exSetup, if_neg hd]⟩
      adjoint := fun n A b x h => by
        simp only [exSetup] at h
        split_ifs at h with hd
        cases h
        rw [Matrix.mulVec_mulVec, Matrix.mul_nonsing_inv A (isUnit_iff_ne_zero.2 hd), Matrix.one_mulVec]
      adjoint_total := fun n A b hd => ⟨A⁻¹.mulVec b, by simp only [exSetup, if_neg hd]⟩
      tol := rfl
      relTol := by norm_num [exSetup]
      tangent := fun θ u => by
        have e : (exSetup m vu vT bu bT n).res θ = fun u => matCLM (formMatrix (formB m vu vT)) u := by
          funext u k
          refine (flatResidual_eq hP.wf hP.vecU hP.vecT u k).trans ?_
          rw [← formB_apply, ← formMatrix_mulVec]
          rfl
        rw [HasJacobianAt, e]
        exact (matCLM (formMatrix (formB m vu vT))).hasFDerivAt
      bcs := fun θ => hP.bc θ }

/-- The example meets the hypotheses of `C101_control`, `C101_minimum`, `C101_difference` and `C101_blind`: there are
temperatures, not all zero, that do not move the free node. -/
example : ∃ δ : Fin 3 → ℝ, δ ≠ 0 ∧ ∀ (goal : Fin 2 → ℝ) (θ : Fin 3 → ℝ) (fuel : Nat),
    (exSetup ⟨1, 1, 1, 1⟩ (exPlate 2) (exPlate 1) exBu exBT 3).objective (fuel + 2)
        (fun x => cornerError 3 goal (solList (exPlate 2) (exPlate 1) x)) (θ + δ)
      = (exSetup ⟨1, 1, 1, 1⟩ (exPlate 2) (exPlate 1) exBu exBT 3).objective (fuel + 2)
        (fun x => cornerError 3 goal (solList (exPlate 2) (exPlate 1) x)) θ :=
  C101_blind exPlate_is (exSetup_is exPlate_is) (by decide) (by decide)

/-- Index 10 of the notebook lies outside the temperatures of the example: the check returns zero. -/
example (J : (Fin 3 → ℝ) → Option (Except Err ℝ)) (hJ : J (fun _ => 1) = some (.ok 5)) :
    fdQuotient J (fun _ => 1) 10 (1 / 100) = some (.ok 0) :=
  C101_index J _ (by decide) 10 (by decide) _ (by norm_num) 5 hJ

end JaxFem.Control
