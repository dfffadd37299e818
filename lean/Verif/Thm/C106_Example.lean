import Verif.Thm.C106_Gradients
import Verif.Thm.C104_Example

/-!
# C106: concrete cases

A spring with stiffness `E * rho`, stretched by a force `scale`, for the comparison of derivatives; a neo-Hookean tetrahedron
that is moved at its bottom and compressed by the traction for the gradient.
-/

namespace JaxFem.Gradients

open scoped BigOperators Topology
open CoDesign (jacOf jacOf_spec adjExSolve_total tetPts tetG tetEl tetFc tet_jacobian)

/-! ### The spring -/

/-- One node with one component. -/
def springFe : FE := ⟨1, 1, 1, [[0]]⟩

/-- Residual `E rho u - scale`, solved by Newton's method from zero with exact linear solvers. -/
noncomputable def spring : Inverse.Setup (Params 1 1) [springFe] (totalDofs [springFe]) where
  bcs := fun _ => [[]]
  res := fun p u k => p.1 * p.2.1 0 0 * u k - p.2.2
  tan := fun p _ => Matrix.diagonal fun _ => p.1 * p.2.1 0 0
  norm := fun r => ‖r‖
  solve := fun A b _ => adjExSolve _ A b
  lineSearch := false
  tol := 0
  relTol := 0
  guess := 0
  adjointSolve := adjExSolve

theorem spring_wf : WFBC [springFe] ([[]] : List (List (BCEntry ℝ))) where
  len := rfl
  comps := by simp
  vals := by simp
  nodup := by simp
  valid := by
    intro i fe es _ h e he
    have : es = [] := by
      have := List.mem_of_getElem? h
      simpa using this
    rw [this] at he
    cases he

theorem spring_free (k : Fin (totalDofs [springFe])) : Prescribed [springFe] ([[]] : List (List (BCEntry ℝ))) k none := by
  have hk : k.1 = 0 := by
    have := k.2
    have h1 : totalDofs [springFe] = 1 := rfl
    omega
  rw [hk]
  exact .free 0 0 0 springFe [] rfl rfl (by decide) (by decide) rfl (by simp [FreeDof])

theorem spring_apply (r u : Fin (totalDofs [springFe]) → ℝ) : applyBcV [springFe] [[]] 1 r u = r :=
  funext fun k => (applyBcV_spec [springFe] [[]] spring_wf 1 r u k).1 (spring_free k)

theorem spring_elim (A : Matrix (Fin (totalDofs [springFe])) (Fin (totalDofs [springFe])) ℝ) :
    elimRows [springFe] ([[]] : List (List (BCEntry ℝ))) A = A := by
  ext r c
  exact (elimRows_spec [springFe] [[]] spring_wf A r c).1 (spring_free r)

theorem spring_solve (a : ℝ) (ha : a ≠ 0) (b : Fin (totalDofs [springFe]) → ℝ) :
    adjExSolve _ (Matrix.diagonal fun _ => a) b = .ok fun k => b k / a := by
  obtain ⟨x, hx⟩ := adjExSolve_total _ (Matrix.diagonal fun _ : Fin (totalDofs [springFe]) => a) b (by
    rw [Matrix.det_diagonal]
    exact Finset.prod_ne_zero_iff.2 fun _ _ => ha)
  rw [hx]
  have h1 := adjExSolve_exact _ _ _ _ hx
  congr 1
  funext k
  have h2 := congrFun h1 k
  rw [Matrix.mulVec_diagonal] at h2
  rw [← h2]
  field_simp

theorem spring_run (p : Params 1 1) (ha : p.1 * p.2.1 0 0 ≠ 0) (hs : p.2.2 ≠ 0) :
    spring.fwdPred 2 p = some (.ok fun _ => p.2.2 / (p.1 * p.2.1 0 0)) := by
  have h1 : spring.res p (fun _ => p.2.2 / (p.1 * p.2.1 0 0)) = 0 := by
    funext k
    show p.1 * p.2.1 0 0 * (p.2.2 / (p.1 * p.2.1 0 0)) - p.2.2 = 0
    rw [mul_div_cancel₀ _ ha, sub_self]
  have h0 : spring.res p 0 = fun _ => -p.2.2 := by
    funext k
    show p.1 * p.2.1 0 0 * 0 - p.2.2 = _
    ring
  have hg : spring.guess = 0 := rfl
  have hb : spring.bcs p = [[]] := rfl
  have ht : ∀ u, spring.tan p u = Matrix.diagonal fun _ => p.1 * p.2.1 0 0 := fun _ => rfl
  have hn : spring.norm (fun _ => -p.2.2) = |p.2.2| := by
    show ‖(fun _ : Fin 1 => -p.2.2)‖ = _
    rw [pi_norm_const, norm_neg, Real.norm_eq_abs]
  have hn0 : spring.norm 0 = 0 := norm_zero (E := Fin 1 → ℝ)
  have hpos : 0 < |p.2.2| := abs_pos.2 hs
  have hstep : newtonStep [springFe] [[]] (fun r => .fin (spring.norm r)) (spring.res p) spring.solve spring.lineSearch
      ((fun _ => -p.2.2), Matrix.diagonal fun _ => p.1 * p.2.1 0 0) 0 = .ok fun _ => p.2.2 / (p.1 * p.2.1 0 0) := by
    have e : spring.solve (Matrix.diagonal fun _ => p.1 * p.2.1 0 0) (-fun _ => -p.2.2) (newtonX0 [springFe] [[]] 0)
        = .ok fun _ => p.2.2 / (p.1 * p.2.1 0 0) := by
      refine (spring_solve _ ha _).trans ?_
      congr 1
      funext k
      show - -p.2.2 / _ = _
      rw [neg_neg]
    rw [newtonStep, e]
    show Except.ok (0 + _) = _
    rw [zero_add]
  unfold Inverse.Setup.fwdPred newtonSolve newtonUpdate
  simp only [hg, hb, ht, h0, spring_apply, spring_elim]
  simp only [newtonLoop, hn, hstep, h1, hn0]
  have ht0 : spring.tol = 0 := rfl
  have ht1 : spring.relTol = 0 := rfl
  simp [Flt.gt, Flt.div, Flt.isFinite, ht0, ht1, hpos.ne', hpos]
  rfl

/-- The parameters of the example. -/
noncomputable def springP : Params 1 1 := (1, fun _ _ => 1, 1)

theorem spring_near : ∀ᶠ p in 𝓝 springP, spring.fwdPred 2 p = some (.ok fun _ => p.2.2 / (p.1 * p.2.1 0 0)) := by
  have h1 : Continuous fun p : Params 1 1 => p.1 * p.2.1 0 0 := by fun_prop
  have h2 : Continuous fun p : Params 1 1 => p.2.2 := by fun_prop
  filter_upwards [h1.continuousAt.eventually_ne (y := 0) (x := springP) (by simp [springP]),
    h2.continuousAt.eventually_ne (y := 0) (x := springP) (by simp [springP])] with p h3 h4
  exact spring_run p h3 h4

/-- The gradient of the squared displacement. -/
noncomputable def springG : Params 1 1 →L[ℝ] ℝ :=
  2 • ((ContinuousLinearMap.snd ℝ (Fin 1 → Fin 1 → ℝ) ℝ).comp (ContinuousLinearMap.snd ℝ ℝ ((Fin 1 → Fin 1 → ℝ) × ℝ)))
    - 2 • (ContinuousLinearMap.fst ℝ ℝ ((Fin 1 → Fin 1 → ℝ) × ℝ)) - 2 • rhoL 0 0

theorem springG_apply (d : Params 1 1) : springG d = 2 * d.2.2 - 2 * d.1 - 2 * d.2.1 0 0 := by
  simp [springG, rhoL_apply]

theorem spring_deriv : HasFDerivAt (fun p : Params 1 1 => ∑ k : Fin (totalDofs [springFe]), (fun _ => p.2.2 / (p.1 * p.2.1 0 0)) k ^ 2)
    springG springP := by
  have e : (fun p : Params 1 1 => ∑ k : Fin (totalDofs [springFe]), (fun _ => p.2.2 / (p.1 * p.2.1 0 0)) k ^ 2)
      = fun p => (p.2.2 / (p.1 * p.2.1 0 0)) ^ 2 := by
    funext p
    exact Fin.sum_univ_one (fun _ : Fin 1 => (p.2.2 / (p.1 * p.2.1 0 0)) ^ 2)
  rw [e]
  have h1 : HasFDerivAt (fun p : Params 1 1 => p.1) (ContinuousLinearMap.fst ℝ ℝ ((Fin 1 → Fin 1 → ℝ) × ℝ)) springP := hasFDerivAt_fst
  have h2 : HasFDerivAt (fun p : Params 1 1 => p.2.1 0 0) (rhoL 0 0) springP := (rhoL 0 0).hasFDerivAt
  have h3 : HasFDerivAt (fun p : Params 1 1 => p.2.2) ((ContinuousLinearMap.snd ℝ (Fin 1 → Fin 1 → ℝ) ℝ).comp
      (ContinuousLinearMap.snd ℝ ℝ ((Fin 1 → Fin 1 → ℝ) × ℝ))) springP := hasFDerivAt_snd.comp springP hasFDerivAt_snd
  have hne : springP.1 * springP.2.1 0 0 ≠ 0 := by simp [springP]
  have h5 : HasFDerivAt (fun p : Params 1 1 => (p.1 * p.2.1 0 0)⁻¹) _ springP :=
    (hasDerivAt_inv hne).comp_hasFDerivAt springP (h1.mul h2)
  have h4 := (h3.mul h5).pow 2
  refine (h4.congr_of_eventuallyEq (.of_forall fun p => by simp [div_eq_mul_inv])).congr_fderiv ?_
  refine ContinuousLinearMap.ext fun d => ?_
  rw [springG_apply]
  simp [springP, rhoL_apply]
  ring

theorem spring_grad : gradFn spring 2 ⟨none, none⟩ springP = some (.ok springG) := by
  have hu : spring.fwdPred 2 (seen none springP) = some (.ok fun _ => springP.2.2 / (springP.1 * springP.2.1 0 0)) :=
    spring_near.self_of_nhds
  have hone : springP.2.2 / (springP.1 * springP.2.1 0 0) = 1 := by simp [springP]
  rw [hone] at hu
  rw [gradFn]
  have hk : (Compiled.jac ⟨none, none⟩) = none := rfl
  rw [hk, hu]
  refine congrArg some ?_
  show implicitVjp [springFe] spring.bcs (fun p' => spring.res (seen none p'))
    (fun p' => spring.tan (seen (Compiled.call ⟨none, none⟩ springP).jac p')) none spring.adjointSolve (fun _ => 1) springP
    (fun j => fderiv ℝ testFn (fun _ => (1 : ℝ)) (Pi.single j 1)) = _
  rw [implicitVjp]
  have hs : spring.adjointSolve _ (elimRows [springFe] (spring.bcs springP)
      (spring.tan (seen (Compiled.call ⟨none, none⟩ springP).jac springP) fun _ => 1)).transpose
      (fun j => fderiv ℝ testFn (fun _ => (1 : ℝ)) (Pi.single j 1)) = .ok fun _ => 2 := by
    have hb : spring.bcs springP = [[]] := rfl
    have ht : spring.tan (seen (Compiled.call ⟨none, none⟩ springP).jac springP) (fun _ => 1)
        = Matrix.diagonal fun _ => (1 : ℝ) * 1 := rfl
    rw [hb, ht, spring_elim, Matrix.diagonal_transpose]
    refine (spring_solve _ (by norm_num) _).trans ?_
    congr 1
    funext j
    rw [(testFn_fderiv _).2]
    norm_num
  rw [hs]
  refine congrArg Except.ok (ContinuousLinearMap.ext fun d => ?_)
  have hd : HasFDerivAt (fun p : Params 1 1 => constraintFn [springFe] spring.bcs (fun p' => spring.res (seen none p')) (fun _ => (1 : ℝ)) p)
      (ContinuousLinearMap.pi fun _ => (-(1 / 2 : ℝ)) • springG) springP := by
    refine hasFDerivAt_pi.2 fun k => ?_
    have e : (fun p : Params 1 1 => constraintFn [springFe] spring.bcs (fun p' => spring.res (seen none p')) (fun _ => (1 : ℝ)) p k)
        = fun p => p.1 * p.2.1 0 0 * 1 - p.2.2 := by
      funext p
      exact congrFun (spring_apply _ _) k
    rw [e]
    have h1 : HasFDerivAt (fun p : Params 1 1 => p.1) (ContinuousLinearMap.fst ℝ ℝ ((Fin 1 → Fin 1 → ℝ) × ℝ)) springP := hasFDerivAt_fst
    have h2 : HasFDerivAt (fun p : Params 1 1 => p.2.1 0 0) (rhoL 0 0) springP := (rhoL 0 0).hasFDerivAt
    have h3 : HasFDerivAt (fun p : Params 1 1 => p.2.2) ((ContinuousLinearMap.snd ℝ (Fin 1 → Fin 1 → ℝ) ℝ).comp
        (ContinuousLinearMap.snd ℝ ℝ ((Fin 1 → Fin 1 → ℝ) × ℝ))) springP := hasFDerivAt_snd.comp springP hasFDerivAt_snd
    refine (((h1.mul h2).mul_const 1).sub h3).congr_fderiv (ContinuousLinearMap.ext fun d => ?_)
    rw [smul_apply, springG_apply]
    simp [springP, rhoL_apply]
    ring
  show -dotProduct (fun _ : Fin (totalDofs [springFe]) => (2 : ℝ)) (fderiv ℝ (fun p : Params 1 1 =>
    constraintFn [springFe] spring.bcs (fun p' => spring.res (seen none p')) (fun _ => (1 : ℝ)) p) springP d) = _
  rw [hd.fderiv]
  show -(∑ k : Fin 1, (2 : ℝ) * (-(1 / 2) * springG d)) = _
  rw [Fin.sum_univ_one]
  ring

/-- `C106_check` applies to the spring, where the derivative with respect to `E` is `-2`. -/
theorem C106_wrong_check : ∃ (S : Inverse.Setup (Params 1 1) [springFe] 1) (p : Params 1 1) (R : ℝ → Report 1 1)
    (u : Params 1 1 → Fin 1 → ℝ), (∀ᶠ p' in 𝓝 p, S.fwdPred 2 p' = some (.ok (u p'))) ∧
    (∀ᶠ h in 𝓝 (0 : ℝ), script S 2 h p = some (.ok (R h)) ∧ (R h).dEFd = 0 ∧ (R h).grad (1, 0, 0) = -2) ∧
    HasFDerivAt (fun p' => ∑ k, u p' k ^ 2) (R 0).grad p := by
  obtain ⟨R, h1, h2, h3, -, -⟩ := C106_check spring 2 springP one_pos one_pos (by simp [springP]) (by simp [springP]) _
    spring_near springG spring_grad spring_deriv
  refine ⟨spring, springP, R, _, spring_near, ?_, ?_⟩
  · filter_upwards [h1] with h hh
    refine ⟨hh, h2 h, ?_⟩
    rw [h3, springG_apply]
    norm_num
  · rw [h3]
    exact spring_deriv

/-! ### The tetrahedron -/

/-- The tetrahedron. -/
noncomputable abbrev block : Problem1 (ℝ × ℝ) 1 1 4 3 3 := problem 4 tetPts [[0, 1, 2, 3]] tetEl tetFc [(0, 0)]

theorem block_wf : block.WF where
  nonempty := by simp [problem]
  points := rfl
  cell_length := by simp [problem]
  cell_lt := by simp [problem]
  face_lt := by simp [problem]

theorem block_nodes (c : Fin block.cells.length) : (block.cells[c]).nodes = [0, 1, 2, 3] := by
  have hc : c = ⟨0, by simp [problem]⟩ := by
    apply Fin.ext
    have : block.cells.length = 1 := by simp [problem]
    have := c.2
    show c.1 = 0
    omega
  subst hc
  rfl

theorem block_gradient (v : Nat → Fin 3 → ℝ) (cell : List Nat) (hc : cell = [0, 1, 2, 3]) (q : Fin 1) (i j : Fin 3) :
    block.gradient v cell q i j = v 0 i * tetG 0 j + v 1 i * tetG 1 j + v 2 i * tetG 2 j + v 3 i * tetG 3 j := by
  have h : block.gradient v cell q i j = ∑ a : Fin 4, v (cell.getD a 0) i *
      shapeGradsPhysical (physicalCoos 4 tetPts cell) tetG a j := gradient_eq block v _ q i j
  have hs : ∀ a j, shapeGradsPhysical (physicalCoos 4 tetPts cell) tetG a j = tetG a j := by
    intro a j
    rw [shapeGradsPhysical, tet_jacobian _ hc, inv_one]
    simp [Matrix.one_apply]
  rw [h]
  simp only [hs]
  rw [hc, Fin.sum_univ_four]
  rfl

theorem block_measure (c : Fin block.cells.length) (q : Fin 1) : block.measureAt c q = 1 / 6 := by
  have h : block.measureAt c q = (jacobianDxDeta (physicalCoos 4 tetPts (block.cells[c]).nodes) tetG).det * (1 / 6) := rfl
  rw [h, tet_jacobian _ (block_nodes c), Matrix.det_one, one_mul]

theorem block_lift (v : Nat → Fin 3 → ℝ) : lift block [(0, 0)] v = (v 0 2 + v 2 2 + v 3 2) / 6 := by
  have h : nansonScale (physicalCoos 4 tetPts [0, 1, 2, 3]) tetG ![-1, 0, 0] (1 / 2) = 1 / 2 := by
    rw [nansonScale, tet_jacobian _ rfl, inv_one, Matrix.det_one]
    simp [Matrix.one_apply, Fin.sum_univ_three]
  have e : lift block [(0, 0)] v = (∑ a, (![1/3, 0, 1/3, 1/3] : Fin 4 → ℝ) a * v ([0, 1, 2, 3].getD a 0) 2)
      * nansonScale (physicalCoos 4 tetPts [0, 1, 2, 3]) tetG ![-1, 0, 0] (1 / 2) := by
    simp only [lift, List.map_cons, List.map_nil, List.sum_cons, List.sum_nil, add_zero, Fin.sum_univ_one]
    rfl
  rw [e, h]
  simp [Fin.sum_univ_four]
  ring

theorem block_bottom (n : Nat) (hn : n < 4) : OnBottom tetPts n ↔ n < 3 := by
  interval_cases n <;> simp [OnBottom, tetPts]
  norm_num

/-- Bottom moved by 1; displacement `(x, y, 1 + s)` of the top node. -/
noncomputable def blockU (x y s : ℝ) : Fin (totalDofs block.fes) → ℝ := (![0, 0, 1, 0, 0, 1, 0, 0, 1, x, y, 1 + s] : Fin 12 → ℝ)

theorem blockU_field (x y s : ℝ) :
    block.vecField (blockU x y s) 0 = ![0, 0, 1] ∧ block.vecField (blockU x y s) 1 = ![0, 0, 1] ∧
    block.vecField (blockU x y s) 2 = ![0, 0, 1] ∧ block.vecField (blockU x y s) 3 = ![x, y, 1 + s] := by
  refine ⟨?_, ?_, ?_, ?_⟩ <;> · funext c; fin_cases c <;> rfl

/-- Gradient with one column. -/
def column (v : Fin 3 → ℝ) : Fin 3 → Fin 3 → ℝ := fun i j => if j = 2 then v i else 0

theorem blockU_gradient (x y s : ℝ) (cell : List Nat) (hc : cell = [0, 1, 2, 3]) (q : Fin 1) :
    block.gradient (block.vecField (blockU x y s)) cell q = column ![x, y, s] := by
  obtain ⟨h0, h1, h2, h3⟩ := blockU_field x y s
  funext i j
  rw [block_gradient _ _ hc, h0, h1, h2, h3]
  fin_cases i <;> fin_cases j <;> simp [tetG, column]

theorem column_det (x y s : ℝ) : (1 + Matrix.of (column ![x, y, s])).det = 1 + s := by
  rw [Matrix.det_fin_three]
  simp [column, Matrix.one_apply]

theorem block_admissible (x y s : ℝ) (hs : -1 < s) : block.Admissible (block.vecField (blockU x y s)) := by
  intro cell hc q
  have hc' : cell.nodes = [0, 1, 2, 3] := by
    have : cell ∈ [(⟨[0, 1, 2, 3], fun _ => (0, 0)⟩ : CellSpec (ℝ × ℝ) 1)] := hc
    rw [List.mem_singleton] at this
    rw [this]
  have h := blockU_gradient x y s _ hc' q
  have h2 : block.defGrad (block.vecField (blockU x y s)) cell.nodes q = 1 + Matrix.of (column ![x, y, s]) := by
    rw [Problem1.defGrad, h]
    rfl
  rw [h2, column_det]
  linarith

/-- Third column of the stress. -/
theorem column_stress (x y s : ℝ) (hs : -1 < s) :
    unitPiola (column ![x, y, s]) 0 2 = 5 / 13 * (1 + s) ^ (-2 / 3 : ℝ) * x ∧
    unitPiola (column ![x, y, s]) 1 2 = 5 / 13 * (1 + s) ^ (-2 / 3 : ℝ) * y ∧
    unitPiola (column ![0, 0, s]) 2 2 = Shape.triStress s := by
  have hJ : 0 < 1 + s := by linarith
  have hinv : ∀ x y : ℝ, (1 + Matrix.of (column ![x, y, s]))⁻¹
      = !![1, 0, -x / (1 + s); 0, 1, -y / (1 + s); 0, 0, 1 / (1 + s)] := by
    intro x y
    refine Matrix.inv_eq_right_inv ?_
    ext i j
    fin_cases i <;> fin_cases j <;> simp [column, Matrix.mul_apply, Fin.sum_univ_three, Matrix.one_apply] <;> field_simp <;> ring
  have hmu : (1 : ℝ) / (2 * (1 + 3 / 10)) = 5 / 13 := by norm_num
  have hka : (1 : ℝ) / (3 * (1 - 2 * (3 / 10))) = 5 / 6 := by norm_num
  refine ⟨?_, ?_, ?_⟩
  · rw [unitPiola, neoHookePiola, hinv, column_det, hmu]
    simp [column, Matrix.one_apply]
  · rw [unitPiola, neoHookePiola, hinv, column_det, hmu]
    simp [column, Matrix.one_apply]
  · rw [unitPiola, neoHookePiola, hinv, column_det, hmu, hka, Shape.triStress_simp s hs]
    have e1 : (1 + s) ^ (1 / 3 : ℝ) = (1 + s) ^ (-2 / 3 : ℝ) * (1 + s) := by
      conv_rhs => rw [← Real.rpow_one (1 + s), ← Real.rpow_mul hJ.le, one_mul, ← Real.rpow_add hJ]
      norm_num
    have e2 : (1 + s) ^ (-5 / 3 : ℝ) = (1 + s) ^ (-2 / 3 : ℝ) / (1 + s) := by
      rw [eq_div_iff hJ.ne']
      conv_lhs => rw [← Real.rpow_one (1 + s), ← Real.rpow_mul hJ.le, one_mul, ← Real.rpow_add hJ]
      norm_num
    rw [e1, e2]
    simp [column, Matrix.one_apply, Fin.sum_univ_three]
    field_simp
    ring

/-- Degrees of freedom of the top node. -/
def topDof (i : Fin 3) : Fin (totalDofs block.fes) := ⟨9 + i, by have := i.2; have h : totalDofs block.fes = 12 := rfl; omega⟩

theorem top_grad (w : Fin (totalDofs block.fes) → ℝ) (hw : ∀ k, k.1 < 9 → w k = 0) (c : Fin block.cells.length) (q : Fin 1) :
    block.gradAt (block.vecField w) c q = column fun i => w (topDof i) := by
  have hT : totalDofs block.fes = 12 := rfl
  have h0 : ∀ n, n < 3 → ∀ i : Fin 3, block.vecField w n i = 0 := by
    intro n hn i
    have := i.2
    rw [Problem1.vecField, dif_pos (by omega)]
    exact hw _ (show n * 3 + i.1 < 9 by omega)
  have h3 : ∀ i : Fin 3, block.vecField w 3 i = w (topDof i) := by
    intro i
    have := i.2
    rw [Problem1.vecField, dif_pos (by omega)]
    rfl
  funext i j
  refine (block_gradient _ _ (block_nodes c) q i j).trans ?_
  rw [h0 0 (by norm_num), h0 1 (by norm_num), h0 2 (by norm_num), h3]
  fin_cases j <;> simp [tetG, column]

theorem block_power (x y s : ℝ) (w : Fin (totalDofs block.fes) → ℝ) (hw : ∀ k, k.1 < 9 → w k = 0)
    (c : Fin block.cells.length) (q : Fin 1) :
    power block unitPiola (block.vecField (blockU x y s)) (block.vecField w) c q
      = (∑ i, unitPiola (column ![x, y, s]) i 2 * w (topDof i)) / 6 := by
  have hg : block.gradAt (block.vecField (blockU x y s)) c q = column ![x, y, s] := blockU_gradient x y s _ (block_nodes c) q
  rw [power, hg, top_grad w hw, block_measure]
  simp [contract, column, Fin.sum_univ_three]
  ring

theorem block_sum (f : Fin block.cells.length → ℝ) : ∑ c, f c = f ⟨0, by simp [problem]⟩ :=
  Fin.sum_univ_one (fun c : Fin 1 => f c)

/-- Parameters with constant density. -/
noncomputable def blockP (E rho : ℝ) : Params block.cells.length 1 := (E, fun _ _ => rho, 1)

theorem block_res (E rho x y s : ℝ) (hs : -1 < s) (i : Fin 3) :
    (setParams block (blockP E rho)).flat (blockU x y s) (topDof i)
      = E * rho * unitPiola (column ![x, y, s]) i 2 / 6 + if i = 2 then 1000 / 6 else 0 := by
  have h := res_entry 4 tetPts [[0, 1, 2, 3]] tetEl tetFc [(0, 0)] block_wf (blockP E rho) (blockU x y s) (topDof i)
  refine h.trans ?_
  have hz : ∀ k : Fin (totalDofs block.fes), k.1 < 9 → (Pi.single (topDof i) 1 : Fin (totalDofs block.fes) → ℝ) k = 0 := by
    intro k hk
    rw [Pi.single_eq_of_ne]
    rintro rfl
    have : (topDof i).1 = 9 + i.1 := rfl
    omega
  have htop : ∀ j, (Pi.single (topDof i) 1 : Fin (totalDofs block.fes) → ℝ) (topDof j) = if j = i then 1 else 0 := by
    intro j
    by_cases hj : j = i
    · subst hj
      rw [Pi.single_eq_same, if_pos rfl]
    · rw [if_neg hj, Pi.single_eq_of_ne]
      intro hh
      have h1 : (9 : Nat) + j.1 = 9 + i.1 := congrArg Fin.val hh
      exact hj (Fin.ext (by omega))
  have hT : totalDofs block.fes = 12 := rfl
  have hf0 : ∀ n, n < 3 → block.vecField (Pi.single (topDof i) 1) n 2 = 0 := by
    intro n hn
    rw [Problem1.vecField, dif_pos (by simp; omega)]
    exact hz _ (show n * 3 + 2 < 9 by omega)
  have hf3 : block.vecField (Pi.single (topDof i) 1) 3 2 = if (2 : Fin 3) = i then 1 else 0 := htop 2
  have hpw : ∀ c q, power block (Hyper.firstPK unitEnergy) (block.vecField (blockU x y s)) (block.vecField (Pi.single (topDof i) 1)) c q
      = unitPiola (column ![x, y, s]) i 2 / 6 := by
    intro c q
    rw [power_piola 4 tetPts [[0, 1, 2, 3]] tetEl tetFc [(0, 0)] (block_admissible x y s hs), block_power x y s _ hz]
    simp [htop]
  simp only [hpw, block_lift, hf0 0 (by norm_num), hf0 2 (by norm_num), hf3]
  rw [block_sum, Fin.sum_univ_one]
  show E * rho * _ + _ = _
  have hi : ((2 : Fin 3) = i) ↔ (i = 2) := eq_comm
  simp only [hi]
  split_ifs <;> ring

theorem jacOf_line {N : Nat} (f : (Fin N → ℝ) → Fin N → ℝ) (u : Fin N → ℝ) (r k : Fin N) (d : ℝ) (hf : DifferentiableAt ℝ f u)
    (hd : HasDerivAt (fun t : ℝ => f (u + t • (Pi.single k 1 : Fin N → ℝ)) r) d 0) : jacOf f u r k = d := by
  have hU : HasDerivAt (fun t : ℝ => u + t • (Pi.single k 1 : Fin N → ℝ)) (Pi.single k 1) 0 := by
    simpa using ((hasDerivAt_id (0 : ℝ)).smul_const (Pi.single k 1 : Fin N → ℝ)).const_add u
  have hf' : HasFDerivAt f (fderiv ℝ f u) (u + (0 : ℝ) • (Pi.single k 1 : Fin N → ℝ)) := by
    rw [zero_smul, add_zero]
    exact hf.hasFDerivAt
  have h1 := HasFDerivAt.comp_hasDerivAt (l := f) 0 hf' hU
  rw [← ((hasDerivAt_pi.1 h1) r).unique hd]
  exact LinearMap.toMatrix'_apply _ _ _

/-- Setup with exact derivatives and exact linear solvers. -/
noncomputable def setupOf {nq nfq nn : Nat} (P : Problem1 (ℝ × ℝ) nq nfq nn 3 3) (Lz : ℝ) (guess : Fin (totalDofs P.fes) → ℝ) :
    Inverse.Setup (Params P.cells.length nq) P.fes (totalDofs P.fes) where
  bcs := fun p => bcs P.points Lz p.2.2
  res := fun p u => (setParams P p).flat u
  tan := fun p => jacOf fun u => (setParams P p).flat u
  norm := fun r => ‖r‖
  solve := fun A b _ => adjExSolve _ A b
  lineSearch := false
  tol := 0
  relTol := 0
  guess := guess
  adjointSolve := adjExSolve

theorem setupOf_of {nq nfq nn : Nat} (P : Problem1 (ℝ × ℝ) nq nfq nn 3 3) (Lz : ℝ) (guess : Fin (totalDofs P.fes) → ℝ) :
    OfProblem P Lz (setupOf P Lz guess) where
  bcs := fun _ => rfl
  res := fun _ => rfl
  tangent := fun _ u h => jacOf_spec _ u h

theorem setupOf_line {nq nfq nn : Nat} (P : Problem1 (ℝ × ℝ) nq nfq nn 3 3) (Lz : ℝ) (guess : Fin (totalDofs P.fes) → ℝ)
    (p : Params P.cells.length nq) (u : Fin (totalDofs P.fes) → ℝ) (r k : Fin (totalDofs P.fes)) (d : ℝ)
    (hf : DifferentiableAt ℝ (fun u : Fin (totalDofs P.fes) → ℝ => (setParams P p).flat u) u)
    (hd : HasDerivAt (fun t : ℝ => (setParams P p).flat (u + t • (Pi.single k 1 : Fin (totalDofs P.fes) → ℝ)) r) d 0) :
    (setupOf P Lz guess).tan p u r k = d := jacOf_line _ u r k d hf hd

theorem setupOf_fwd {nq nfq nn : Nat} (P : Problem1 (ℝ × ℝ) nq nfq nn 3 3) (Lz : ℝ) (guess : Fin (totalDofs P.fes) → ℝ)
    (p : Params P.cells.length nq) (hw : WFBC P.fes (bcs P.points Lz p.2.2))
    (hs : SolvesBVP P.fes (bcs P.points Lz p.2.2) (setParams P p).flat guess) :
    (setupOf P Lz guess).fwdPred 1 p = some (.ok guess) :=
  Shape.fwd_guess (setupOf P Lz guess) 0 p hw hs norm_zero (le_refl 0)

theorem setupOf_diff {nq nfq nn : Nat} (numTotalNodes : Nat) (points : List (Fin 3 → ℝ)) (cells : List (List Nat))
    (el : RefElement ℝ nq nn 3) (fc : RefFaces ℝ nfq nn 3) (faces : List (Nat × Nat))
    (h : (problem numTotalNodes points cells el fc faces).WF)
    (p0 : Params (problem numTotalNodes points cells el fc faces).cells.length nq)
    (u0 : Fin (totalDofs (problem numTotalNodes points cells el fc faces).fes) → ℝ)
    (hadm : (problem numTotalNodes points cells el fc faces).Admissible ((problem numTotalNodes points cells el fc faces).vecField u0)) :
    DifferentiableAt ℝ (fun u : Fin (totalDofs (problem numTotalNodes points cells el fc faces).fes) → ℝ =>
      (setParams (problem numTotalNodes points cells el fc faces) p0).flat u) u0 :=
  (params_diff numTotalNodes points cells el fc faces h 0 (setupOf _ 0 0) (setupOf_of _ _ _) p0 u0 hadm).2

theorem blockU_line (s t : ℝ) : blockU 0 0 s + t • (Pi.single (topDof 0) 1 : Fin (totalDofs block.fes) → ℝ) = blockU t 0 s ∧
    blockU 0 0 s + t • (Pi.single (topDof 1) 1 : Fin (totalDofs block.fes) → ℝ) = blockU 0 t s ∧
    blockU 0 0 s + t • (Pi.single (topDof 2) 1 : Fin (totalDofs block.fes) → ℝ) = blockU 0 0 (s + t) := by
  have h1 : (![0, 0, 1, 0, 0, 1, 0, 0, 1, 0, 0, 1 + s] : Fin 12 → ℝ) + t • (Pi.single 9 1 : Fin 12 → ℝ)
      = ![0, 0, 1, 0, 0, 1, 0, 0, 1, t, 0, 1 + s] := by
    funext k
    fin_cases k <;> simp [Pi.single_apply]
  have h2 : (![0, 0, 1, 0, 0, 1, 0, 0, 1, 0, 0, 1 + s] : Fin 12 → ℝ) + t • (Pi.single 10 1 : Fin 12 → ℝ)
      = ![0, 0, 1, 0, 0, 1, 0, 0, 1, 0, t, 1 + s] := by
    funext k
    fin_cases k <;> simp [Pi.single_apply]
  have h3 : (![0, 0, 1, 0, 0, 1, 0, 0, 1, 0, 0, 1 + s] : Fin 12 → ℝ) + t • (Pi.single 11 1 : Fin 12 → ℝ)
      = ![0, 0, 1, 0, 0, 1, 0, 0, 1, 0, 0, 1 + (s + t)] := by
    funext k
    fin_cases k <;> simp [Pi.single_apply]
    ring
  exact ⟨h1, h2, h3⟩

theorem block_fixed (k : Fin (totalDofs block.fes)) (hk : k.1 < 9) :
    Prescribed block.fes (bcs tetPts 1 1) k (some (if k.1 % 3 = 2 then 1 else 0)) := by
  have h := ((C106_boundary (block.fes.head (by simp [Problem1.fes])) rfl tetPts rfl 1 1).2 (k.1 / 3) (k.1 % 3) (by
    show k.1 / 3 < 4
    omega) (Nat.mod_lt _ (by norm_num))).1 ((block_bottom _ (by omega)).2 (by omega))
  have e : k.1 / 3 * 3 + k.1 % 3 = k.1 := by omega
  rw [e, one_mul] at h
  exact h

theorem block_free (i : Fin 3) : Prescribed block.fes (bcs tetPts 1 1) (topDof i) none := by
  have hi := i.2
  have h := ((C106_boundary (block.fes.head (by simp [Problem1.fes])) rfl tetPts rfl 1 1).2 3 i (by
    show 3 < 4
    omega) hi).2 fun h => absurd ((block_bottom 3 (by norm_num)).1 h) (by norm_num)
  exact h

theorem block_wfbc : WFBC block.fes (bcs tetPts 1 1) :=
  (C106_boundary (block.fes.head (by simp [Problem1.fes])) rfl tetPts rfl 1 1).1

theorem block_dof (k : Fin (totalDofs block.fes)) : k.1 < 9 ∨ ∃ i, k = topDof i := by
  have hk : k.1 < 12 := k.2
  by_cases h : k.1 < 9
  · exact .inl h
  · exact .inr ⟨⟨k.1 - 9, by omega⟩, Fin.ext (show k.1 = 9 + (k.1 - 9) by omega)⟩

/-- Density that is in equilibrium with the load at a shortening by a tenth. -/
noncomputable def blockRho : ℝ := -1000 / (10 ^ 6 * Shape.triStress (-1 / 10))

theorem blockRho_pos : 0 < blockRho := by
  have h := Shape.triStress_neg
  exact div_pos_of_neg_of_neg (by norm_num) (by nlinarith)

/-- The state: the base is moved up by one, the top by nine tenths. -/
noncomputable abbrev blockU0 : Fin (totalDofs block.fes) → ℝ := blockU 0 0 (-1 / 10)

/-- The parameters. -/
noncomputable abbrev blockP0 : Params block.cells.length 1 := blockP (10 ^ 6) blockRho

theorem blockU_bottom (x y s : ℝ) (k : Fin (totalDofs block.fes)) (hk : k.1 < 9) :
    blockU x y s k = if k.1 % 3 = 2 then 1 else 0 := by
  have h : ∀ k : Fin 12, k.1 < 9 → (![0, 0, 1, 0, 0, 1, 0, 0, 1, x, y, 1 + s] : Fin 12 → ℝ) k = if k.1 % 3 = 2 then 1 else 0 := by
    intro k hk
    fin_cases k <;> first | simp; done | simp at hk
  exact h k hk

theorem block_solves : SolvesBVP block.fes (bcs tetPts 1 1) (setParams block blockP0).flat blockU0 := by
  constructor
  · intro k v hv
    rcases block_dof k with hk | ⟨i, rfl⟩
    · refine (blockU_bottom 0 0 (-1 / 10) k hk).trans ?_
      exact Option.some.inj ((C16_prescribed_unique _ _ block_wfbc k k.2).unique (block_fixed k hk) hv)
    · exact absurd ((C16_prescribed_unique _ _ block_wfbc _ (topDof i).2).unique (block_free i) hv) (by simp)
  · intro k hk
    rcases block_dof k with hk' | ⟨i, rfl⟩
    · exact absurd ((C16_prescribed_unique _ _ block_wfbc k k.2).unique (block_fixed k hk') hk) (by simp)
    · refine (block_res _ _ _ _ _ (by norm_num) i).trans ?_
      obtain ⟨h0, h1, h2⟩ := column_stress 0 0 (-1 / 10) (by norm_num)
      have hr : (10 : ℝ) ^ 6 * blockRho * Shape.triStress (-1 / 10) = -1000 := by
        have := Shape.triStress_neg.ne
        rw [blockRho]
        generalize Shape.triStress (-1 / 10) = x at *
        field_simp
      fin_cases i
      · simp [h0]
      · simp [h1]
      · simp only [Fin.reduceFinMk, h2, hr, if_true]
        norm_num

/-- The setup. -/
noncomputable abbrev blockS : Inverse.Setup (Params block.cells.length 1) block.fes (totalDofs block.fes) := setupOf block 1 blockU0

theorem block_run : blockS.fwdPred 1 blockP0 = some (.ok blockU0) := setupOf_fwd block 1 blockU0 blockP0 block_wfbc block_solves

theorem block_diff : DifferentiableAt ℝ (fun u : Fin (totalDofs block.fes) → ℝ => (setParams block blockP0).flat u) blockU0 :=
  setupOf_diff 4 tetPts [[0, 1, 2, 3]] tetEl tetFc [(0, 0)] block_wf blockP0 blockU0 (block_admissible 0 0 _ (by norm_num))

theorem block_entry (r k : Fin (totalDofs block.fes)) (d : ℝ)
    (hd : HasDerivAt (fun t : ℝ => (setParams block blockP0).flat (blockU0 + t • (Pi.single k 1 : Fin (totalDofs block.fes) → ℝ)) r) d 0) :
    blockS.tan blockP0 blockU0 r k = d := setupOf_line block 1 blockU0 blockP0 blockU0 r k d block_diff hd

/-- The stiffness in shear and along the axis. -/
theorem block_tangent : ∃ a b : ℝ, 0 < a ∧ 0 < b ∧
    (blockS.tan blockP0 blockU0 (topDof 0) (topDof 0) = a ∧ blockS.tan blockP0 blockU0 (topDof 0) (topDof 1) = 0 ∧
      blockS.tan blockP0 blockU0 (topDof 0) (topDof 2) = 0) ∧
    (blockS.tan blockP0 blockU0 (topDof 1) (topDof 0) = 0 ∧ blockS.tan blockP0 blockU0 (topDof 1) (topDof 1) = a ∧
      blockS.tan blockP0 blockU0 (topDof 1) (topDof 2) = 0) ∧
    blockS.tan blockP0 blockU0 (topDof 2) (topDof 2) = b := by
  obtain ⟨d, hd, hD⟩ := Shape.triStress_deriv (-1 / 10) (by norm_num)
  have hr := blockRho_pos
  have hJ : (0 : ℝ) < (1 + -1 / 10 : ℝ) ^ (-2 / 3 : ℝ) := Real.rpow_pos_of_pos (by norm_num) _
  have hlin : ∀ α : ℝ, HasDerivAt (fun t : ℝ => (10 : ℝ) ^ 6 * blockRho * (α * t) / 6 + 0) ((10 : ℝ) ^ 6 * blockRho * α / 6) 0 := by
    intro α
    have := (((hasDerivAt_id (0 : ℝ)).const_mul α).const_mul ((10 : ℝ) ^ 6 * blockRho)).div_const 6
    simpa using this
  have near : ∀ᶠ t : ℝ in 𝓝 0, -1 < -1 / 10 + t := by
    have : Filter.Tendsto (fun t : ℝ => -1 / 10 + t) (𝓝 0) (𝓝 (-1 / 10 + 0)) := tendsto_const_nhds.add Filter.tendsto_id
    exact this.eventually (lt_mem_nhds (by norm_num))
  have hz : HasDerivAt (fun _ : ℝ => (0 : ℝ)) 0 0 := hasDerivAt_const _ _
  refine ⟨(10 : ℝ) ^ 6 * blockRho * (5 / 13 * (1 + -1 / 10 : ℝ) ^ (-2 / 3 : ℝ)) / 6, (10 : ℝ) ^ 6 * blockRho * d / 6, by positivity,
    by positivity, ⟨?_, ?_, ?_⟩, ⟨?_, ?_, ?_⟩, ?_⟩
  · refine block_entry _ _ _ ((hlin _).congr_of_eventuallyEq (Filter.Eventually.of_forall fun t => ?_))
    show (setParams block blockP0).flat (blockU 0 0 (-1 / 10) + t • (Pi.single (topDof 0) 1 : Fin (totalDofs block.fes) → ℝ)) (topDof 0) = _
    rw [(blockU_line _ t).1, block_res _ _ _ _ _ (by norm_num), (column_stress t 0 _ (by norm_num)).1, if_neg (by decide)]
  · refine block_entry _ _ _ (hz.congr_of_eventuallyEq (Filter.Eventually.of_forall fun t => ?_))
    show (setParams block blockP0).flat (blockU 0 0 (-1 / 10) + t • (Pi.single (topDof 1) 1 : Fin (totalDofs block.fes) → ℝ)) (topDof 0) = _
    rw [(blockU_line _ t).2.1, block_res _ _ _ _ _ (by norm_num), (column_stress 0 t _ (by norm_num)).1, if_neg (by decide)]
    simp
  · refine block_entry _ _ _ (hz.congr_of_eventuallyEq (near.mono fun t ht => ?_))
    show (setParams block blockP0).flat (blockU 0 0 (-1 / 10) + t • (Pi.single (topDof 2) 1 : Fin (totalDofs block.fes) → ℝ)) (topDof 0) = _
    rw [(blockU_line _ t).2.2, block_res _ _ _ _ _ ht, (column_stress 0 0 _ ht).1, if_neg (by decide)]
    simp
  · refine block_entry _ _ _ (hz.congr_of_eventuallyEq (Filter.Eventually.of_forall fun t => ?_))
    show (setParams block blockP0).flat (blockU 0 0 (-1 / 10) + t • (Pi.single (topDof 0) 1 : Fin (totalDofs block.fes) → ℝ)) (topDof 1) = _
    rw [(blockU_line _ t).1, block_res _ _ _ _ _ (by norm_num), (column_stress t 0 _ (by norm_num)).2.1, if_neg (by decide)]
    simp
  · refine block_entry _ _ _ ((hlin _).congr_of_eventuallyEq (Filter.Eventually.of_forall fun t => ?_))
    show (setParams block blockP0).flat (blockU 0 0 (-1 / 10) + t • (Pi.single (topDof 1) 1 : Fin (totalDofs block.fes) → ℝ)) (topDof 1) = _
    rw [(blockU_line _ t).2.1, block_res _ _ _ _ _ (by norm_num), (column_stress 0 t _ (by norm_num)).2.1, if_neg (by decide)]
  · refine block_entry _ _ _ (hz.congr_of_eventuallyEq (near.mono fun t ht => ?_))
    show (setParams block blockP0).flat (blockU 0 0 (-1 / 10) + t • (Pi.single (topDof 2) 1 : Fin (totalDofs block.fes) → ℝ)) (topDof 1) = _
    rw [(blockU_line _ t).2.2, block_res _ _ _ _ _ ht, (column_stress 0 0 _ ht).2.1, if_neg (by decide)]
    simp
  · have h1 : HasDerivAt (fun t : ℝ => Shape.triStress (-1 / 10 + t)) d 0 := by
      have := HasDerivAt.comp_const_add (-1 / 10 : ℝ) 0 (f := Shape.triStress) (f' := d) (by rwa [add_zero])
      exact this
    refine block_entry _ _ _ ((((h1.const_mul ((10 : ℝ) ^ 6 * blockRho)).div_const 6).add_const (1000 / 6 : ℝ)).congr_of_eventuallyEq
      (near.mono fun t ht => ?_))
    show (setParams block blockP0).flat (blockU 0 0 (-1 / 10) + t • (Pi.single (topDof 2) 1 : Fin (totalDofs block.fes) → ℝ)) (topDof 2) = _
    rw [(blockU_line _ t).2.2, block_res _ _ _ _ _ ht, (column_stress 0 0 _ ht).2.2, if_pos rfl]

theorem block_split (f : Fin (totalDofs block.fes) → ℝ) (hf : ∀ k, k.1 < 9 → f k = 0) :
    ∑ k, f k = f (topDof 0) + f (topDof 1) + f (topDof 2) := by
  have h : ∀ g : Fin 12 → ℝ, (∀ k, k.1 < 9 → g k = 0) → ∑ k, g k = g 9 + g 10 + g 11 := by
    intro g hg
    rw [Fin.sum_univ_castSucc, Fin.sum_univ_castSucc, Fin.sum_univ_castSucc, Finset.sum_eq_zero fun k _ => hg _ k.2]
    rw [zero_add]
    rfl
  exact h f hf

theorem block_det : (elimRows block.fes (bcs tetPts 1 1) (blockS.tan blockP0 blockU0)).det ≠ 0 := by
  intro h0
  obtain ⟨v, hv, hz⟩ := Matrix.exists_mulVec_eq_zero_iff.2 h0
  obtain ⟨a, b, ha, hb, ⟨h00, h01, h02⟩, ⟨h10, h11, h12⟩, h22⟩ := block_tangent
  have hrow := fun r => congrFun hz r
  have hfix : ∀ k, k.1 < 9 → v k = 0 := by
    intro k hk
    have := hrow k
    simp only [Matrix.mulVec, dotProduct, (elimRows_spec _ _ block_wfbc (blockS.tan blockP0 blockU0) k _).2 _ (block_fixed k hk)] at this
    simpa using this
  have hfr : ∀ i, blockS.tan blockP0 blockU0 (topDof i) (topDof 0) * v (topDof 0)
      + blockS.tan blockP0 blockU0 (topDof i) (topDof 1) * v (topDof 1)
      + blockS.tan blockP0 blockU0 (topDof i) (topDof 2) * v (topDof 2) = 0 := by
    intro i
    have := hrow (topDof i)
    simp only [Matrix.mulVec, dotProduct, (elimRows_spec _ _ block_wfbc (blockS.tan blockP0 blockU0) (topDof i) _).1 (block_free i)] at this
    rw [block_split _ fun k hk => by rw [hfix k hk, mul_zero]] at this
    exact this
  have v0 : v (topDof 0) = 0 := by
    have := hfr 0
    rw [h00, h01, h02] at this
    simpa [ha.ne'] using this
  have v1 : v (topDof 1) = 0 := by
    have := hfr 1
    rw [h10, h11, h12] at this
    simpa [ha.ne'] using this
  have v2 : v (topDof 2) = 0 := by
    have := hfr 2
    rw [v0, v1, h22] at this
    simpa [hb.ne'] using this
  apply hv
  funext k
  rcases block_dof k with hk | ⟨i, rfl⟩
  · exact hfix k hk
  · fin_cases i
    · exact v0
    · exact v1
    · exact v2

/-! ### The property theorems apply -/

/-- `C106_boundary`: the base of the tetrahedron is moved, its top is free. -/
example := C106_boundary (block.fes.head (by simp [Problem1.fes])) rfl tetPts rfl 1 1

/-- `C106_balance` applies to the shortened tetrahedron. -/
example (w : Fin (totalDofs block.fes) → ℝ) := C106_balance 4 tetPts [[0, 1, 2, 3]] tetEl tetFc [(0, 0)] block_wf blockP0 blockU0 w
  (block_admissible 0 0 _ (by norm_num))

/-- `C106_gradient` and `C106_formula` apply to the tetrahedron, and the derivative with respect to `E` is not zero: stiffer
material moves the top further up. -/
theorem block_stiffer : ∃ (u : Params block.cells.length 1 → Fin (totalDofs block.fes) → ℝ) (g : Params block.cells.length 1 →L[ℝ] ℝ),
    u blockP0 = blockU0 ∧
    (∀ᶠ p in 𝓝 blockP0, SolvesBVP block.fes (bcs tetPts 1 p.2.2) ((setParams block p).flat) (u p)) ∧
    gradFn blockS 1 ⟨none, none⟩ blockP0 = some (.ok g) ∧ HasFDerivAt (fun p => ∑ k, u p k ^ 2) g blockP0 ∧ 0 < g (1, 0, 0) := by
  have hadm := block_admissible 0 0 (-1 / 10) (by norm_num)
  obtain ⟨u, h1, -, h3, g, hg, hd⟩ := C106_gradient 4 tetPts [[0, 1, 2, 3]] tetEl tetFc [(0, 0)] block_wf 1 blockS (setupOf_of _ _ _)
    adjExSolve_exact CoDesign.adjExSolve_total blockP0 blockU0 hadm block_det block_solves 1 block_run
  refine ⟨u, g, h1, h3, hg, hd, ?_⟩
  obtain ⟨w, hw0, hw, hgE, -, -, -⟩ := C106_formula 4 tetPts [[0, 1, 2, 3]] tetEl tetFc [(0, 0)] block_wf 1 blockS (setupOf_of _ _ _)
    adjExSolve_exact blockP0 blockU0 hadm 1 block_run g hg
  obtain ⟨a, b, ha, hb, ⟨h00, h01, h02⟩, ⟨h10, h11, h12⟩, h22⟩ := block_tangent
  have hfix : ∀ k, k.1 < 9 → w k = 0 := fun k hk => hw0 k ((block_bottom _ (by omega)).2 (by omega))
  have h2 := hw (topDof 2) fun h => absurd ((block_bottom 3 (by norm_num)).1 h) (by norm_num)
  rw [block_split _ fun k hk => by rw [hfix k hk, mul_zero], h02, h12, h22] at h2
  have hu : blockU0 (topDof 2) = 1 + -1 / 10 := rfl
  rw [hu] at h2
  have hwp : 0 < w (topDof 2) := by
    by_contra hn
    have := mul_nonpos_of_nonneg_of_nonpos hb.le (not_lt.1 hn)
    linarith
  obtain ⟨s0, s1, s2⟩ := column_stress 0 0 (-1 / 10) (by norm_num)
  have hpw : ∀ c q, power block unitPiola (block.vecField blockU0) (block.vecField w) c q
      = Shape.triStress (-1 / 10) * w (topDof 2) / 6 := by
    intro c q
    rw [block_power 0 0 (-1 / 10) w hfix, Fin.sum_univ_three, s0, s1, s2]
    ring
  rw [hgE]
  simp only [hpw]
  rw [block_sum, Fin.sum_univ_one]
  show 0 < -(blockRho * (Shape.triStress (-1 / 10) * w (topDof 2) / 6))
  have h7 := mul_pos blockRho_pos (mul_pos (neg_pos.2 Shape.triStress_neg) hwp)
  linarith

/-- `C106_mismatch` applies to the tetrahedron with another module compiled first. -/
example := C106_mismatch 4 tetPts [[0, 1, 2, 3]] tetEl tetFc [(0, 0)] block_wf 1 blockS (setupOf_of _ _ _) 1 (2 * 10 ^ 6) (by norm_num) blockP0

/-- `C106_stale` and `C106_script`: the script of the notebook on the tetrahedron. -/
example (h : ℝ) (R : Report block.cells.length 1) :=
  And.intro (C106_stale blockS 1 blockP0 [((1 + h) * 10 ^ 6, blockP0.2)]) (C106_script blockS 1 h blockP0 R)

end JaxFem.Gradients
