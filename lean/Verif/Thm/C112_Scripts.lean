import Verif.Thm.C112_Rotation

/-!
# C112: the two sensitivity scripts
-/

namespace JaxFem.Sensitivity

open scoped Topology BigOperators
open Crystal (M3 Internal implicitResidual piola update fcc initial getRotMat defGrad pToSigma cellAverage)

variable {nq nfq nn : Nat}

/-! ### Helper lemmas -/

theorem sol_grad (P : Problem1 Pt nq nfq nn 3 3) (u : Fin (totalDofs P.fes) → ℝ) (cell : List Nat) (q : Fin nq) :
    solToGrad P.el 3 P.points (solOf P u) cell q = P.gradient (P.vecField u) cell q := by
  obtain ⟨sol, e1, e2, e3⟩ := unravel_single P u
  have hs : solOf P u = sol := by rw [solOf, e1]; rfl
  rw [hs, ← e3]
  funext i j
  rw [gradient_eq]
  rfl

theorem law_indifferent (root : (M3 → M3) → M3) (dt : ℝ) : AxialIndifferent (tensorMap root dt) := by
  intro w iv G G' h
  have h' : defGrad G' = axial w * defGrad G := by
    rw [defGrad, defGrad, add_comm, h, add_comm]
  have e1 := Crystal.residual_left fcc dt iv.internal G G' (axial w) (axial_rotation w) h'
  have e2 := Crystal.piola_left fcc dt iv.internal G G' (root (implicitResidual fcc dt iv.internal G)) (axial w)
    (axial_rotation w) h'
  show piola fcc dt iv.internal G' (root (implicitResidual fcc dt iv.internal G')) = _
  rw [e1, e2]
  rfl

variable (root : (M3 → M3) → M3) (P : Problem1 Pt nq nfq nn 3 3)

theorem withDt_WF (dt : ℝ) (h : P.WF) : (withDt root dt P).WF := ⟨h.nonempty, h.points, h.cell_length, h.cell_lt, h.face_lt⟩

theorem state_WF (dt : ℝ) (h : P.WF) (vars : Vars P.cells.length nq) : (setVars (withDt root dt P) vars).WF :=
  atIv_WF _ (withDt_WF root P dt h) _

theorem state_regular (dt : ℝ) (h : RegularMesh P) (vars : Vars P.cells.length nq) :
    RegularMesh (setVars (withDt root dt P) vars) := by
  intro cell hc q
  obtain ⟨i, hi, rfl⟩ := List.mem_mapIdx.1 hc
  exact h _ (List.getElem_mem hi) q

theorem grad_turned (h : P.WF) (hu : P.el.Unity) (hreg : RegularMesh P) (w : ℝ) (u u' : Fin (totalDofs P.fes) → ℝ)
    (ht : Turned P w u u') (c : CellSpec Pt nq) (hc : c ∈ P.cells) (q : Fin nq) :
    defGrad (solToGrad P.el 3 P.points (solOf P u') c.nodes q)
      = axial w * defGrad (solToGrad P.el 3 P.points (solOf P u) c.nodes q) := by
  have := defGrad_turned P h hu hreg w u u' ht c hc q
  simp only [Problem1.defGrad] at this
  rw [sol_grad, sol_grad]
  show Matrix.of _ + 1 = axial w * (Matrix.of _ + 1)
  rw [add_comm, add_comm _ (1 : Matrix (Fin 3) (Fin 3) ℝ)]
  exact this

theorem update_turned (h : P.WF) (hu : P.el.Unity) (hreg : RegularMesh P) (w dt : ℝ) (u u' : Fin (totalDofs P.fes) → ℝ)
    (ht : Turned P w u u') (vars : Vars P.cells.length nq) :
    updateIntVarsGp root dt P (solOf P u') vars = updateIntVarsGp root dt P (solOf P u) vars := by
  funext c q
  simp only [updateIntVarsGp]
  rw [Crystal.residual_left fcc dt (vars c q).internal _ _ (axial w) (axial_rotation w)
    (grad_turned P h hu hreg w u u' ht P.cells[c] (List.getElem_mem _) q)]

theorem stress_turned (h : P.WF) (hu : P.el.Unity) (hreg : RegularMesh P) (w dt : ℝ) (u u' : Fin (totalDofs P.fes) → ℝ)
    (ht : Turned P w u u') (vars : Vars P.cells.length nq) (c : Fin P.cells.length) :
    computeAvgStress root dt P (solOf P u') vars c
      = axial w * computeAvgStress root dt P (solOf P u) vars c * (axial w).transpose := by
  have hF := fun q => grad_turned P h hu hreg w u u' ht P.cells[c] (List.getElem_mem _) q
  have hs : ∀ q, pToSigma (Matrix.of (tensorMap root dt (vars c q) (solToGrad P.el 3 P.points (solOf P u') (P.cells[c]).nodes q)))
      (defGrad (solToGrad P.el 3 P.points (solOf P u') (P.cells[c]).nodes q))
      = axial w * pToSigma (Matrix.of (tensorMap root dt (vars c q) (solToGrad P.el 3 P.points (solOf P u) (P.cells[c]).nodes q)))
        (defGrad (solToGrad P.el 3 P.points (solOf P u) (P.cells[c]).nodes q)) * (axial w).transpose := by
    intro q
    have hT := law_indifferent root dt w (vars c q) (solToGrad P.el 3 P.points (solOf P u) (P.cells[c]).nodes q)
      (solToGrad P.el 3 P.points (solOf P u') (P.cells[c]).nodes q) (by
        have := hF q
        rw [defGrad, defGrad, add_comm, add_comm (Matrix.of _) 1] at this
        exact this)
    rw [hT, pToSigma, pToSigma, hF q, Matrix.det_mul, (axial_rotation w).2, one_mul, Matrix.transpose_mul]
    simp only [Matrix.mul_smul, Matrix.smul_mul, Matrix.mul_assoc]
  simp only [computeAvgStress, hs]
  ext i j
  simp only [cellAverage, Matrix.mul_apply, Fin.sum_univ_three, Finset.sum_div]
  simp only [Finset.sum_mul, Finset.mul_sum, ← Finset.sum_add_distrib]
  refine Finset.sum_congr rfl fun q _ => ?_
  ring

theorem volume_eq (hreg : RegularMesh P) (u : Fin (totalDofs P.fes) → ℝ) : crtVolume P (solOf P u) = meshVolume P (place P u) := by
  refine congrArg List.sum (List.map_congr_left fun cell hc => Finset.sum_congr rfl fun q _ => ?_)
  rw [sol_grad]
  show _ * cellJxW (physicalCoos nn P.points cell.nodes) (P.el.shapeGradsRef q) (P.el.quadWeights q) = _
  rw [cellJxW_eq, ← mul_assoc]
  congr 1
  rw [← Matrix.det_mul, Matrix.add_mul, Matrix.one_mul]
  congr 1
  have hg : Matrix.of (P.gradient (P.vecField u) cell.nodes q) = P.gradient (P.vecField u) cell.nodes q := rfl
  rw [hg, Problem1.gradient, physGrad, Matrix.mul_assoc, Matrix.nonsing_inv_mul _ (isUnit_iff_ne_zero.2 (hreg cell hc q)),
    Matrix.mul_one, mapJacobian, mapJacobian, ← Matrix.add_mul, ← Matrix.transpose_add, add_comm]
  rfl

theorem steps_dt (dmax tmax : ℝ) (n : Nat) (z : Env) (hz : z ∈ steps dmax tmax n) : z.dt = tmax / n := by
  simp only [steps, List.mem_map, List.mem_range] at hz
  obtain ⟨i, hi, rfl⟩ := hz
  have e : ∀ j < n + 1, (FinitePlasticity.linspaceAB 0 tmax (n + 1)).getD j 0 = j * (tmax / n) := by
    intro j hj
    simp only [FinitePlasticity.linspaceAB]
    rw [List.getD_eq_getElem _ _ (by simpa using hj)]
    simp
  simp only
  rw [e _ (by omega), e _ (by omega)]
  push_cast
  ring

theorem same_values (h : P.WF) (d d' : ℝ) :
    (∀ k : Fin (totalDofs P.fes), Prescribed P.fes (bcsOf P.points d) k none → Prescribed P.fes (bcsOf P.points d') k none) ∧
    ∃ e : Fin (totalDofs P.fes) → ℝ, ∀ (k : Fin (totalDofs P.fes)) v, Prescribed P.fes (bcsOf P.points d) k (some v) →
      Prescribed P.fes (bcsOf P.points d') k (some (v + e k)) := by
  have key : ∀ k : Fin (totalDofs P.fes), (Prescribed P.fes (bcsOf P.points d) k none → Prescribed P.fes (bcsOf P.points d') k none) ∧
      ∃ e : ℝ, ∀ v, Prescribed P.fes (bcsOf P.points d) k (some v) → Prescribed P.fes (bcsOf P.points d') k (some (v + e)) := by
    intro k
    obtain ⟨n, hn, c, rfl⟩ := dof_cases P k
    obtain ⟨x, hx⟩ := point_exists P h hn
    have q1 := fun o => prescribed_iff P h d hn c x hx o
    have q2 := fun o => prescribed_iff P h d' hn c x hx o
    have hsome : (wanted d x c = none ∧ wanted d' x c = none) ∨
        ∃ v v', wanted d x c = some v ∧ wanted d' x c = some v' := by
      unfold wanted
      split_ifs <;> simp
    rcases hsome with ⟨a1, a2⟩ | ⟨v, v', a1, a2⟩
    · refine ⟨fun _ => (q2 _).2 a2.symm, 0, fun v hv => ?_⟩
      have := (q1 _).1 hv
      rw [a1] at this
      cases this
    · refine ⟨fun hv => ?_, v' - v, fun x' hv => ?_⟩
      · have := (q1 _).1 hv
        rw [a1] at this
        cases this
      · have := (q1 _).1 hv
        rw [a1] at this
        obtain rfl : x' = v := Option.some.inj this
        refine (q2 _).2 ?_
        rw [a2, add_sub_cancel]
  choose k1 e k2 using key
  exact ⟨k1, e, k2⟩

/-- The value prescribed for a degree of freedom, as an affine function of the displacement of the top. -/
theorem bcs_affine (h : P.WF) (k : Fin (totalDofs P.fes)) : (∀ d, Prescribed P.fes (bcsOf P.points d) k none) ∨
    ∃ a : ℝ, ∀ d, Prescribed P.fes (bcsOf P.points d) k (some (a * d)) := by
  obtain ⟨n, hn, c, rfl⟩ := dof_cases P k
  obtain ⟨x, hx⟩ := point_exists P h hn
  have q := fun d o => (prescribed_iff P h d hn c x hx o).2
  by_cases hc : c = 2
  · by_cases h1 : Near (x 2) 1
    · exact .inr ⟨1, fun d => q d _ (by simp [wanted, hc, h1])⟩
    · by_cases h0 : Near (x 2) 0
      · exact .inr ⟨0, fun d => q d _ (by simp [wanted, hc, h1, h0])⟩
      · exact .inl fun d => q d _ (by simp [wanted, hc, h1, h0])
  · by_cases ha : AtCorner x
    · exact .inr ⟨0, fun d => q d _ (by simp [wanted, hc, ha])⟩
    · exact .inl fun d => q d _ (by simp [wanted, hc, ha])

/-! ### Property theorems -/

/-- **C112 (solutions of the scripts).** At every step of both scripts the turned solutions are solutions. -/
theorem C112_turned (h : P.WF) (hm : P.massMap = none) (hs : P.surfaces = []) (hu : P.el.Unity) (hreg : RegularMesh P)
    (hax : CornerOnAxis P) (dt disp : ℝ) (vars : Vars P.cells.length nq) (w : ℝ) (u u' : Fin (totalDofs P.fes) → ℝ)
    (ht : Turned P w u u') (hp : Pulled P disp (residualVec root dt P vars u) u) :
    Pulled P disp (residualVec root dt P vars u') u' :=
  ((C112_rotation (setVars (withDt root dt P) vars) (state_WF root P dt h vars) hm hs hu (state_regular root P dt hreg vars)
    (law_indifferent root dt) hax disp w u hp).2 u' ht).1

/-- **C112 (singular systems of the scripts).** At every equilibrium of a step with a node off the axis, the matrix of the linear
systems is singular. -/
theorem C112_tangent (h : P.WF) (hm : P.massMap = none) (hs : P.surfaces = []) (hu : P.el.Unity) (hreg : RegularMesh P)
    (hax : CornerOnAxis P) (dt disp disp' : ℝ) (vars : Vars P.cells.length nq) (u : Fin (totalDofs P.fes) → ℝ)
    (hp : Pulled P disp (residualVec root dt P vars u) u) (hoff : OffAxis P u)
    (A : Matrix (Fin (totalDofs P.fes)) (Fin (totalDofs P.fes)) ℝ) (hA : HasJacobianAt (residualVec root dt P vars) A u) :
    (elimRows P.fes (bcsOf P.points disp') A).det = 0 :=
  (C112_singular (setVars (withDt root dt P) vars) (state_WF root P dt h vars) hm hs hu (state_regular root P dt hreg vars)
    (law_indifferent root dt) hax disp disp' u hp A hA).2.1 hoff

/-- **C112 (first iteration).** The displacement zero, from which every solve starts, with the initial internal variables: if the
local solver returns the root zero there, the matrix of the first Newton iteration is singular, whatever is prescribed. -/
theorem C112_first (h : P.WF) (hm : P.massMap = none) (hs : P.surfaces = []) (hu : P.el.Unity) (hreg : RegularMesh P)
    (hax : CornerOnAxis P) (dt disp : ℝ) (hoff : OffAxis P 0)
    (A : Matrix (Fin (totalDofs P.fes)) (Fin (totalDofs P.fes)) ℝ)
    (hA : HasJacobianAt (residualVec root dt P (initVars P.cells.length)) A 0) :
    implicitResidual fcc dt initPt.internal 0 0 = 0 ∧
    (root (implicitResidual fcc dt initPt.internal 0) = 0 → (elimRows P.fes (bcsOf P.points disp) A).det = 0) := by
  have hrest : (defGrad (0 : M3) * Matrix.of initPt.internal.FpInv).transpose * (defGrad 0 * Matrix.of initPt.internal.FpInv) = 1 := by
    have e : Matrix.of initPt.internal.FpInv = (1 : Matrix (Fin 3) (Fin 3) ℝ) := rfl
    have e0 : Matrix.of (0 : M3) = (0 : Matrix (Fin 3) (Fin 3) ℝ) := rfl
    rw [e, Crystal.defGrad, e0]
    simp
  refine ⟨(Crystal.residual_rest fcc dt initPt.internal 0 hrest).1, fun hr => ?_⟩
  have hg : ∀ cell q, P.gradient (P.vecField (0 : Fin (totalDofs P.fes) → ℝ)) cell q = 0 := by
    intro cell q
    have : restrict nn (P.vecField (0 : Fin (totalDofs P.fes) → ℝ)) cell = 0 := by
      ext a k
      simp [restrict, Problem1.vecField]
    rw [Problem1.gradient, physGrad, mapJacobian, this]
    simp
  have hz : ∀ n < P.numTotalNodes, ∀ i, P.vecField (residualVec root dt P (initVars P.cells.length) 0) n i = 0 := by
    intro n hn i
    have := flat_rotated (setVars (withDt root dt P) (initVars P.cells.length)) (state_WF root P dt h _) hm hs 0 0 0 (by
      intro c hc q
      obtain ⟨j, hj, rfl⟩ := List.mem_mapIdx.1 hc
      have e : (setVars (withDt root dt P) (initVars P.cells.length)).gradient
          ((setVars (withDt root dt P) (initVars P.cells.length)).vecField 0) (P.cells[j]).nodes q = 0 := hg _ q
      rw [Matrix.zero_mul]
      refine Eq.trans (b := Matrix.of (tensorMap root dt initPt (0 : M3))) ?_ ?_
      · have e1 : (if hj : j < P.cells.length then initVars (nq := nq) P.cells.length ⟨j, hj⟩ q else initPt) = initPt := by
          split <;> rfl
        show Matrix.of (tensorMap root dt (if hj : j < P.cells.length then initVars (nq := nq) P.cells.length ⟨j, hj⟩ q else initPt)
          ((setVars (withDt root dt P) (initVars P.cells.length)).gradient
            ((setVars (withDt root dt P) (initVars P.cells.length)).vecField 0) (P.cells[j]).nodes q)) = _
        rw [e1, e]
        rfl
      · show piola fcc dt initPt.internal 0 (root (implicitResidual fcc dt initPt.internal 0)) = 0
        rw [hr, piola]
        have e0 : Matrix.of (0 : M3) = (0 : Matrix (Fin 3) (Fin 3) ℝ) := rfl
        simp [e0]) hn i
    refine this.trans ?_
    simp
  refine C112_tangent root P h hm hs hu hreg hax dt 0 disp (initVars P.cells.length) 0 ?_ hoff A hA
  intro n hn x _
  have h0 : ∀ i, P.vecField (0 : Fin (totalDofs P.fes) → ℝ) n i = 0 := fun i => by
    rw [vecField_at P _ hn]; rfl
  exact ⟨fun _ => ⟨h0 _, h0 _⟩, fun _ => ⟨hz n hn _, hz n hn _⟩, fun _ => h0 _, fun _ => h0 _, fun _ _ => hz n hn _⟩

/-- **C112 (value of the volume).** `crt_volume` is the volume of the deformed mesh. -/
theorem C112_volume (h : P.WF) (hu : P.el.Unity) (hreg : RegularMesh P) (u : Fin (totalDofs P.fes) → ℝ) :
    crtVolume P (solOf P u) = meshVolume P (place P u) ∧
    ∀ w u', Turned P w u u' → crtVolume P (solOf P u') = crtVolume P (solOf P u) := by
  refine ⟨volume_eq P hreg u, fun w u' ht => ?_⟩
  refine congrArg List.sum (List.map_congr_left fun cell hc => Finset.sum_congr rfl fun q _ => ?_)
  have := grad_turned P h hu hreg w u u' ht cell hc q
  rw [defGrad, defGrad] at this
  rw [this, Matrix.det_mul, (axial_rotation w).2, one_mul]

/-- **C112 (indeterminate solutions, determinate results).** If in every step any turned solution is taken instead, these are
equilibria of the loop as well, and the returned stress is the same. -/
theorem C112_stress_outcome (h : P.WF) (hm : P.massMap = none) (hs : P.surfaces = []) (hu : P.el.Unity) (hreg : RegularMesh P)
    (hax : CornerOnAxis P) (hc : 0 < P.cells.length) (num : Numerics P.cells.length nq (totalDofs P.fes))
    (b : Vars P.cells.length nq) (zs : List Env) (us us' : List (Fin (totalDofs P.fes) → ℝ)) (r : ℝ)
    (ho : Outcome (Stress.script root P hc num) b zs us r) (ht : List.Forall₂ (fun u u' => ∃ w, Turned P w u u') us us') :
    Outcome (Stress.script root P hc num) b zs us' r := by
  have hsol : ∀ (z : Env) vars u u' w, Turned P w u u' → SolvesBVP P.fes (bcsOf P.points z.disp) (residualVec root z.dt P vars) u →
      SolvesBVP P.fes (bcsOf P.points z.disp) (residualVec root z.dt P vars) u' := fun z vars u u' w hw hp =>
    ((C112_conditions P h z.disp _ u').2).2 (C112_turned root P h hm hs hu hreg hax z.dt z.disp vars w u u' hw
      (((C112_conditions P h z.disp _ u).2).1 hp))
  induction ho generalizing us' with
  | last b z u h1 =>
    cases ht with
    | cons hw htl =>
      cases htl
      obtain ⟨w, hw⟩ := hw
      rename_i u'
      have e : (Stress.script root P hc num).objective z u b = (Stress.script root P hc num).objective z u' b := by
        have := congrFun (congrFun (stress_turned root P h hu hreg w z.dt u u' hw b ⟨0, hc⟩) 2) 2
        show computeAvgStress root z.dt P (solOf P u) b ⟨0, hc⟩ 2 2 = computeAvgStress root z.dt P (solOf P u') b ⟨0, hc⟩ 2 2
        rw [this]
        simp only [Matrix.mul_apply, Fin.sum_univ_three, Matrix.transpose_apply]
        simp [axial]
      rw [e]
      exact .last b z u' (hsol z b u u' w hw h1)
  | step b z zs u us r h1 _ ih =>
    cases ht with
    | cons hw htl =>
      obtain ⟨w, hw⟩ := hw
      rename_i u' us''
      refine .step b z zs u' _ r (hsol z b u u' w hw h1) ?_
      have e : (Stress.script root P hc num).update z u' b = (Stress.script root P hc num).update z u b :=
        update_turned root P h hu hreg w z.dt u u' hw b
      rw [e]
      exact ih _ htl

/-- **C112 (the same for the volume).** -/
theorem C112_volume_outcome (h : P.WF) (hm : P.massMap = none) (hs : P.surfaces = []) (hu : P.el.Unity) (hreg : RegularMesh P)
    (hax : CornerOnAxis P) (num : Numerics P.cells.length nq (totalDofs P.fes))
    (b : ℝ × Vars P.cells.length nq) (zs : List Env) (us us' : List (Fin (totalDofs P.fes) → ℝ)) (r : ℝ)
    (ho : Outcome (Volume.script root P num) b zs us r) (ht : List.Forall₂ (fun u u' => ∃ w, Turned P w u u') us us') :
    Outcome (Volume.script root P num) b zs us' r := by
  have hsol : ∀ (dt disp : ℝ) vars u u' w, Turned P w u u' → SolvesBVP P.fes (bcsOf P.points disp) (residualVec root dt P vars) u →
      SolvesBVP P.fes (bcsOf P.points disp) (residualVec root dt P vars) u' := fun dt disp vars u u' w hw hp =>
    ((C112_conditions P h disp _ u').2).2 (C112_turned root P h hm hs hu hreg hax dt disp vars w u u' hw
      (((C112_conditions P h disp _ u).2).1 hp))
  induction ho generalizing us' with
  | last b z u h1 =>
    cases ht with
    | cons hw htl =>
      cases htl
      obtain ⟨w, hw⟩ := hw
      rename_i u'
      have e : (Volume.script root P num).objective z u b = (Volume.script root P num).objective z u' b := by
        show (crtVolume P (solOf P u) - 1.01) ^ 2 = (crtVolume P (solOf P u') - 1.01) ^ 2
        rw [(C112_volume P h hu hreg u).2 w u' hw]
      rw [e]
      exact .last b z u' (hsol _ _ _ u u' w hw h1)
  | step b z zs u us r h1 _ ih =>
    cases ht with
    | cons hw htl =>
      obtain ⟨w, hw⟩ := hw
      rename_i u' us''
      refine .step b z zs u' _ r (hsol _ _ _ u u' w hw h1) ?_
      have e : (Volume.script root P num).update z u' b = (Volume.script root P num).update z u b := by
        show (b.1, _) = (b.1, _)
        rw [update_turned root P h hu hreg w z.dt u u' hw b.2]
      rw [e]
      exact ih _ htl

/-- **C112 (gradient of the stress).** In `stress_sensitivity.py` the time increments are equal and the stale boundary values do no
harm: what `jax.grad(simulation)` returns is the derivative with respect to `alpha` of the returned stress along every
differentiable family of equilibria through the computed ones. -/
theorem C112_stress_gradient (h : P.WF) (hc : 0 < P.cells.length) (num : Numerics P.cells.length nq (totalDofs P.fes))
    (hs : ExactAdjointSolver num.adjointSolve) (dmax tmax : ℝ) (n fuel : Nat) (alpha : ℝ)
    (us : ℝ → List (Fin (totalDofs P.fes) → ℝ)) (J : ℝ → ℝ) (hd : ∀ i, DifferentiableAt ℝ (fun a => (us a).getD i 0) alpha)
    (hrun : (Stress.script root P hc num).run fuel (steps dmax tmax n) (Stress.init P.cells.length alpha) = some (.ok (us alpha)))
    (ht : ∀ᶠ a in 𝓝 alpha, Outcome (Stress.script root P hc num) (Stress.init P.cells.length a) (steps dmax tmax n) (us a) (J a))
    (hreg : SmoothAlong (Stress.script root P hc num) (Stress.init P.cells.length alpha) (steps dmax tmax n) (us alpha))
    (g : ℝ →L[ℝ] ℝ)
    (hg : (Stress.script root P hc num).grad (Stress.init P.cells.length) fuel (steps dmax tmax n) alpha = some (.ok g)) :
    HasDerivAt J (g 1) alpha := by
  refine (C112_gradient (Stress.script root P hc num) (Stress.init P.cells.length) alpha ?_ fuel _ (fun _ _ => hs)
    (fun z _ => bcs_wf P h z.disp) ?_ us J hd hrun ht hreg g hg).hasDerivAt
  · rw [differentiableAt_pi]
    intro c
    rw [differentiableAt_pi]
    intro q
    show DifferentiableAt ℝ (fun a : ℝ => (_, a • _, _)) alpha
    fun_prop
  · intro z hz z' hz'
    have e : z.dt = z'.dt := (steps_dt _ _ _ z hz).trans (steps_dt _ _ _ z' hz').symm
    have hv := same_values P h z.disp z'.disp
    refine ⟨?_, ?_, fun _ => hv.1, hv.2.imp fun d hd _ => hd⟩
    · show residualVec root z.dt P = residualVec root z'.dt P
      rw [e]
    · show num.tan z.dt = num.tan z'.dt
      rw [e]

/-- **C112 (gradient of the volume).** The same for `volume_sensitivity.py` and the derivative with respect to the scale of the
displacement. -/
theorem C112_volume_gradient (h : P.WF) (num : Numerics P.cells.length nq (totalDofs P.fes))
    (hs : ExactAdjointSolver num.adjointSolve) (dmax tmax : ℝ) (n fuel : Nat) (scale : ℝ)
    (us : ℝ → List (Fin (totalDofs P.fes) → ℝ)) (J : ℝ → ℝ) (hd : ∀ i, DifferentiableAt ℝ (fun a => (us a).getD i 0) scale)
    (hrun : (Volume.script root P num).run fuel (steps dmax tmax n) (Volume.init P.cells.length scale) = some (.ok (us scale)))
    (ht : ∀ᶠ a in 𝓝 scale, Outcome (Volume.script root P num) (Volume.init P.cells.length a) (steps dmax tmax n) (us a) (J a))
    (hreg : SmoothAlong (Volume.script root P num) (Volume.init P.cells.length scale) (steps dmax tmax n) (us scale))
    (g : ℝ →L[ℝ] ℝ)
    (hg : (Volume.script root P num).grad (Volume.init P.cells.length) fuel (steps dmax tmax n) scale = some (.ok g)) :
    HasDerivAt J (g 1) scale := by
  refine (C112_gradient (Volume.script root P num) (Volume.init P.cells.length) scale ?_ fuel _ (fun _ _ => hs)
    (fun z p => bcs_wf P h p.1) ?_ us J hd hrun ht hreg g hg).hasDerivAt
  · show DifferentiableAt ℝ (fun a : ℝ => (a, _)) scale
    fun_prop
  · intro z hz z' hz'
    have e : z.dt = z'.dt := (steps_dt _ _ _ z hz).trans (steps_dt _ _ _ z' hz').symm
    refine ⟨?_, ?_, fun _ _ hk => hk, 0, fun p k v hk => ?_⟩
    · show (fun p : ℝ × Vars P.cells.length nq => residualVec root z.dt P p.2) = fun p => residualVec root z'.dt P p.2
      rw [e]
    · show (fun p : ℝ × Vars P.cells.length nq => num.tan z.dt p.2) = fun p => num.tan z'.dt p.2
      rw [e]
    · rw [Pi.zero_apply, add_zero]
      exact hk

/-- **C112 (smooth steps).** For both scripts a step is differentiable as soon as the residual is, with the assembled tangent as
derivative. -/
theorem C112_smooth (h : P.WF) (num : Numerics P.cells.length nq (totalDofs P.fes)) (z : Env) (vars : Vars P.cells.length nq)
    (u : Fin (totalDofs P.fes) → ℝ) (ht : HasJacobianAt (residualVec root z.dt P vars) (num.tan z.dt vars u) u)
    (hr : DifferentiableAt ℝ (fun x : (Fin (totalDofs P.fes) → ℝ) × Vars P.cells.length nq => residualVec root z.dt P x.2 x.1)
      (u, vars)) :
    SmoothAt (Stress.setup root P num z) vars u ∧ ∀ d, SmoothAt (Volume.setup root P num z) (d, vars) u := by
  refine ⟨⟨fun _ => bcs_wf P h _, ht, hr, fun k => ?_⟩, fun d => ⟨fun _ => bcs_wf P h _, ht, ?_, fun k => ?_⟩⟩
  · rcases bcs_affine P h k with hk | ⟨a, hk⟩
    · exact .inl fun _ => hk _
    · exact .inr ⟨fun _ => a * z.disp, differentiableAt_const _, fun _ => hk _⟩
  · exact DifferentiableAt.comp (g := fun x : (Fin (totalDofs P.fes) → ℝ) × Vars P.cells.length nq => residualVec root z.dt P x.2 x.1)
      (f := fun x : (Fin (totalDofs P.fes) → ℝ) × (ℝ × Vars P.cells.length nq) => (x.1, x.2.2)) (u, (d, vars)) hr (by fun_prop)
  · rcases bcs_affine P h k with hk | ⟨a, hk⟩
    · exact .inl fun _ => hk _
    · exact .inr ⟨fun p => a * p.1, by fun_prop, fun _ => hk _⟩

end JaxFem.Sensitivity
