import Verif.Thm.C77_Wave

/-!
# C78: the coupled thermoelastic step never gains free energy
-/

namespace JaxFem

/-- **C78 (weak form).** One step, tested with a displacement `w₀` and a temperature `w₁`:
`Σ σ(u, T) : ∇w₀ μ_u + Σ (C (T - T_old)/dt + κ T₀ (div u - div u_old)/dt) w₁ + k ∇T·∇w₁ μ_T`. -/
theorem C78_weak_form (m : ThermoParams) (vu vT : CVar 2) (hw : WFVars [vu, vT]) (hvu : vu.vec = 2)
    (hvT : vT.vec = 1) (uOld TOld : List (List ℝ)) (dt : ℝ) (sols : List (List (List ℝ)))
    (hs : HasShapes (solShapes ([vu, vT].map CVar.fe)) sols) :
    ∃ R, thermoResidual m vu vT uOld TOld dt sols = .ok R ∧
      HasShapes (solShapes ([vu, vT].map CVar.fe)) R ∧
      ∀ w : Nat → Nat → Nat → ℝ, tested [vu, vT] R w
        = vu.integral (fun e q => ∑ i, ∑ j,
            stressAt m vu vT (fieldAt sols 0) (fieldAt sols 1) e q i j * vu.gradAt (w 0) e q i j)
          + vT.integral (fun e q =>
            (m.C * (vT.valueAt (fieldAt sols 1) e q 0 - vT.valueAt (fieldAt [TOld] 0) e q 0) / dt
              + m.kappa * m.T0 * (vu.divAt (fieldAt sols 0) e q - vu.divAt (fieldAt [uOld] 0) e q) / dt)
                * vT.valueAt (w 1) e q 0
            + m.k * vT.gradDot (fieldAt sols 1) (w 1) e q) := by
  have wfu := hw.wf vu (by simp)
  have wfT := hw.wf vT (by simp)
  obtain ⟨R, r1, r2, r3⟩ := coupled_weak_form [vu, vT] hw (by simp) (thermoKernel m vu vT)
    ((List.range vu.cells.length).map fun e => (dofToGrad vu uOld e, dofToQuad vT TOld e, dt)) (by simp)
    sols hs
    (fun i e q c j => if i = 0 then
        (if h : c < 2 then stressAt m vu vT (fieldAt sols 0) (fieldAt sols 1) e q ⟨c, h⟩ j else 0)
      else m.k * vT.gradAt (fieldAt sols 1) e q c j)
    (fun i e q c => if i = 0 then 0 else
      m.C / dt * (vT.valueAt (fieldAt sols 1) e q c - vT.valueAt (fieldAt [TOld] 0) e q c)
      + m.kappa * m.T0 * ((vu.divAt (fieldAt sols 0) e q - vu.divAt (fieldAt [uOld] 0) e q) / dt))
    (fun x d iv => ravelSol_length (hasShapes_two vu vT _ _)) (by
      intro e he
      have hec : e < vu.cells.length := by simpa using he
      have heT : e < vT.cells.length := by
        rw [← hw.cells vu (by simp) vT (by simp)]; exact hec
      have hu := coupled_local [vu, vT] hw sols hs e hec 0 (by simp)
      have hT := coupled_local [vu, vT] hw sols hs e hec 1 (by simp)
      simp only [List.getElem_cons_zero, List.getElem_cons_succ] at hu hT
      refine ⟨_, hasShapes_two vu vT _ _, rfl, fun i hi => ?_⟩
      have hG : ∀ q (c : Nat) (j : Fin 2), gradOp vu.nn (gatherVar (sols.getD 0 []) (vu.cells.getD e []))
          (fun q => sliceVar (numNodesCumsum [vu, vT]) 0
            ((packedCell [vu, vT] vu.nq (vu.quadPoint e) e).shapeGrads q)) q c j
          = vu.gradAt (fieldAt sols 0) e q c j := fun q c j =>
        gradOp_gather vu wfu _ e hec _ q c (packedCell_grads [vu, vT] _ _ e q 0 (by simp)) j
      have hGT : ∀ q (c : Nat) (j : Fin 2), gradOp vT.nn (gatherVar (sols.getD 1 []) (vT.cells.getD e []))
          (fun q => sliceVar (numNodesCumsum [vu, vT]) 1
            ((packedCell [vu, vT] vu.nq (vu.quadPoint e) e).shapeGrads q)) q c j
          = vT.gradAt (fieldAt sols 1) e q c j := fun q c j =>
        gradOp_gather vT wfT _ e heT _ q c (packedCell_grads [vu, vT] _ _ e q 1 (by simp)) j
      have hGo : ∀ q (c : Nat) (j : Fin 2), dofToGrad vu uOld e q c j
          = vu.gradAt (fieldAt [uOld] 0) e q c j := fun q c j =>
        gradOp_gather vu wfu uOld e hec _ q c rfl j
      have hV : ∀ q c, valOp vT.nn (gatherVar (sols.getD 1 []) (vT.cells.getD e [])) vT.shapeVals q c
          = vT.valueAt (fieldAt sols 1) e q c := fun q c => valOp_gather vT wfT _ e heT q c
      have hVo : ∀ q c, dofToQuad vT TOld e q c = vT.valueAt (fieldAt [TOld] 0) e q c := fun q c =>
        valOp_gather vT wfT TOld e heT q c
      have hvg : ∀ q, sliceVar (numNodesCumsum [vu, vT]) 0
          ((packedCell [vu, vT] vu.nq (vu.quadPoint e) e).vGradsJxW q) = vu.vGradsJxW e q := fun q =>
        packedCell_vgrads [vu, vT] _ _ e q 0 (by simp)
      have hvgT : ∀ q, sliceVar (numNodesCumsum [vu, vT]) 1
          ((packedCell [vu, vT] vu.nq (vu.quadPoint e) e).vGradsJxW q) = vT.vGradsJxW e q := fun q =>
        packedCell_vgrads [vu, vT] _ _ e q 1 (by simp)
      have hj : ∀ q, (packedCell [vu, vT] vu.nq (vu.quadPoint e) e).JxW.getD 1 0 q = vT.measure e q := by
        intro q
        rw [packedCell_jxw [vu, vT] _ _ e 1 (by simp)]
        exact vT.jxw_eq e q
      have hcs : cellShapes [vu.fe, vT.fe] = cellShapes ([vu, vT].map CVar.fe) := rfl
      match i, hi with
      | 0, _ =>
        intro (a : Fin vu.nn) c (hc : c < vu.vec)
        change at2 (mk2 vu.nn vu.vec _) a c = _
        rw [at2_mk2 _ _ _ _ _ a.2 hc]
        simp only [List.getElem_cons_zero, hcs, hu, hT]
        rw [fluxOp_eq vu e _ _ _ hvg a c]
        change ∑ q ∈ Finset.range vu.nq, _ = _
        refine Finset.sum_congr rfl fun q _ => ?_
        simp only [if_true, zero_mul, add_zero]
        congr 1
        refine Finset.sum_congr rfl fun j _ => ?_
        congr 1
        have hc2 : c < 2 := by omega
        rw [dif_pos hc2, dif_pos hc2]
        simp only [thermoStress, strain2, stressAt, hG, hV, Fin.isValue, Fin.val_zero, Fin.val_one]
        by_cases hcj : (⟨c, hc2⟩ : Fin 2) = j
        · simp only [hcj, if_true]
          norm_num
          ring
        · simp only [hcj, if_false]
          norm_num
          ring
      | 1, _ =>
        intro (a : Fin vT.nn) c (hc : c < vT.vec)
        have hc0 : c = 0 := by omega
        subst hc0
        change at2 (mk2 vT.nn vT.vec _) a 0 = _
        rw [at2_mk2 _ _ _ _ _ a.2 hc]
        simp only [List.getElem_cons_zero, hcs, hu, hT, List.getElem_map, List.getElem_range]
        rw [fluxOp_eq vT e _ _ _ hvgT a 0]
        simp only [srcOp]
        rw [Finset.mul_sum, Finset.mul_sum]
        change ∑ q ∈ Finset.range vu.nq, _ + ∑ q ∈ Finset.range vu.nq, _ + ∑ q ∈ Finset.range vu.nq, _ = _
        rw [← Finset.sum_add_distrib, ← Finset.sum_add_distrib]
        refine Finset.sum_congr rfl fun q _ => ?_
        simp only [strain2, hG, hGT, hGo, hV, hVo, hj, CVar.divAt, Fin.isValue, Fin.val_zero, Fin.val_one,
          one_ne_zero, if_false]
        rw [Fin.sum_univ_two, Fin.sum_univ_two]
        simp only [List.getElem_cons_succ, List.getElem_cons_zero]
        norm_num
        ring)
  have hq := hw.quads vu (by simp) vT (by simp)
  have hc := hw.cells vu (by simp) vT (by simp)
  refine ⟨R, r1, r2, fun w => ?_⟩
  rw [r3 w]
  change ∑ i : Fin 2, _ = _
  rw [Fin.sum_univ_two]
  congr 1
  · refine Finset.sum_congr rfl fun e _ => Finset.sum_congr rfl fun q _ => ?_
    change (∑ c ∈ Finset.range vu.vec, _) * vu.measure e q = _
    congr 1
    rw [hvu, Finset.sum_range]
    refine Finset.sum_congr rfl fun i _ => ?_
    have := i.2
    simp
    omega
  · rw [CVar.integral, ← hc, ← hq]
    refine Finset.sum_congr rfl fun e _ => Finset.sum_congr rfl fun q _ => ?_
    change (∑ c ∈ Finset.range vT.vec, _) * vT.measure e q = _
    congr 1
    simp only [CVar.gradDot, hvT, Finset.sum_range_one, Fin.sum_univ_two]
    simp
    ring

/-- **C78 (free energy).** If a step is solved exactly, the prescribed displacements do not change in
the step and the prescribed temperatures all equal `θ`, the free energy does not grow: elastic moduli
`μ ≥ 0`, `λ + μ ≥ 0`, heat capacity, conductivity and step non-negative, `T₀ > 0`; velocity and
temperature on one geometry with positive measures. The temperatures before the step are arbitrary. -/
theorem C78_energy (m : ThermoParams) (hmu : 0 ≤ m.mu) (hlm : 0 ≤ m.lmbda + m.mu) (hC : 0 ≤ m.C)
    (hk : 0 ≤ m.k) (hT0 : 0 < m.T0) (vu vT : CVar 2) (hw : WFVars [vu, vT]) (hvu : vu.vec = 2)
    (hvT : vT.vec = 1) (hm : SameMeasure vu vT) (hpos : vu.Positive)
    (hone : ∀ q < vT.nq, ∑ a : Fin vT.nn, vT.shapeVals q a = 1)
    (hgrad : ∀ q < vT.nq, ∀ j, ∑ a : Fin vT.nn, vT.G q a j = 0)
    (uOld TOld : List (List ℝ)) (dt : ℝ) (hdt : 0 < dt) (sols : List (List (List ℝ)))
    (hs : HasShapes (solShapes ([vu, vT].map CVar.fe)) sols) (θ : ℝ) (D : Nat → Nat → Nat → Prop)
    (hDu : ∀ n c, D 0 n c → fieldAt sols 0 n c = fieldAt [uOld] 0 n c)
    (hDT : ∀ n c, D 1 n c → fieldAt sols 1 n c = θ)
    (R : List (List (List ℝ))) (hR : thermoResidual m vu vT uOld TOld dt sols = .ok R)
    (hz : FreeZero [vu, vT] D R) :
    thermoEnergy m vu vT θ (fieldAt sols 0) (fieldAt sols 1)
      ≤ thermoEnergy m vu vT θ (fieldAt [uOld] 0) (fieldAt [TOld] 0) := by
  obtain ⟨R', r1, -, r3⟩ := C78_weak_form m vu vT hw hvu hvT uOld TOld dt sols hs
  obtain rfl : R = R' := by
    rw [hR] at r1
    exact Except.ok.inj r1
  have hq := hw.quads vu (by simp) vT (by simp)
  have hc := hw.cells vu (by simp) vT (by simp)
  let w : Nat → Nat → Nat → ℝ := fun i => if i = 0 then fun n c => fieldAt sols 0 n c - fieldAt [uOld] 0 n c
    else fun n c => dt / m.T0 * (fieldAt sols 1 n c - θ)
  have hz := tested_zero [vu, vT] D R hz w (by
    intro i hi n _ c _ hd
    match i, hi with
    | 0, _ => simp only [w, if_true]; rw [hDu n c hd, sub_self]
    | 1, _ =>
      simp only [w, one_ne_zero, if_false]
      rw [hDT n c hd, sub_self, mul_zero])
  rw [r3, vu.integral_same vT hc hq hm, ← vu.integral_add] at hz
  rw [← sub_nonneg, thermoEnergy, thermoEnergy, ← vu.integral_sub]
  refine le_of_le_of_eq ?_ ((vu.integral_add _ _).trans ((congrArg (_ + ·) hz).trans (add_zero _)))
  refine vu.integral_nonneg hpos _ fun e he q hq' => ?_
  have hqT : q < vT.nq := hq ▸ hq'
  have g0 : ∀ c j, vu.gradAt (w 0) e q c j
      = vu.gradAt (fieldAt sols 0) e q c j - vu.gradAt (fieldAt [uOld] 0) e q c j := fun c j =>
    vu.gradAt_sub _ _ e q c j
  have v1 : vT.valueAt (w 1) e q 0 = dt / m.T0 * (vT.valueAt (fieldAt sols 1) e q 0 - θ) := by
    refine (vT.valueAt_smul (dt / m.T0) (fun n c => fieldAt sols 1 n c - θ) e q 0).trans (congrArg _ ?_)
    rw [vT.valueAt_sub (fieldAt sols 1) (fun _ _ => θ) e q 0]
    congr 1
    rw [CVar.valueAt, ← Finset.sum_mul, hone q hqT, one_mul]
  have g1 : ∀ j, vT.gradAt (w 1) e q 0 j = dt / m.T0 * vT.gradAt (fieldAt sols 1) e q 0 j := by
    intro j
    refine (vT.gradAt_smul (dt / m.T0) (fun n c => fieldAt sols 1 n c - θ) e q 0 j).trans (congrArg _ ?_)
    rw [vT.gradAt_sub (fieldAt sols 1) (fun _ _ => θ) e q 0 j]
    have : vT.gradAt (fun _ _ => θ) e q 0 j = 0 := by
      rw [CVar.gradAt, Matrix.vecMul, dotProduct, ← Finset.mul_sum]
      have : ∑ a, (vT.G q * ((vT.X e).transpose * vT.G q)⁻¹) a j = 0 := by
        simp only [Matrix.mul_apply]
        rw [Finset.sum_comm]
        refine Finset.sum_eq_zero fun k _ => ?_
        rw [← Finset.sum_mul, hgrad q hqT k, zero_mul]
      rw [this, mul_zero]
    rw [this, sub_zero]
  simp only [strainEnergyAt, stressAt, CVar.divAt, CVar.gradDot, hvT, Finset.sum_range_one, g0, v1, g1,
    Fin.sum_univ_two, Fin.isValue, Fin.val_zero, Fin.val_one]
  generalize vT.valueAt (fieldAt sols 1) e q 0 = T
  generalize vT.valueAt (fieldAt [TOld] 0) e q 0 = To
  generalize vu.gradAt (fieldAt sols 0) e q = g
  generalize vu.gradAt (fieldAt [uOld] 0) e q = go
  generalize vT.gradAt (fieldAt sols 1) e q 0 = d
  have hdt' := hdt.ne'
  have hT0' := hT0.ne'
  have e1 : ∀ x y z : ℝ, (m.C * x / dt + m.kappa * m.T0 * y / dt) * (dt / m.T0 * z)
      = m.C / m.T0 * (x * z) + m.kappa * (y * z) := by
    intro x y z
    field_simp
  rw [e1]
  have p1 : 0 ≤ m.C / (2 * m.T0) * (T - To) ^ 2 := by positivity
  have p2 : 0 ≤ m.k * (dt / m.T0) * (d 0 ^ 2 + d 1 ^ 2) := by positivity
  have p3 : 0 ≤ (m.lmbda + m.mu) / 2 * ((g 0 0 - go 0 0) + (g 1 1 - go 1 1)) ^ 2
      + m.mu / 2 * ((g 0 0 - go 0 0) - (g 1 1 - go 1 1)) ^ 2
      + m.mu / 2 * ((g 0 1 - go 0 1) + (g 1 0 - go 1 0)) ^ 2 := by positivity
  have e2 : m.C / m.T0 = 2 * (m.C / (2 * m.T0)) := by
    field_simp
  rw [e2]
  generalize m.C / (2 * m.T0) = γ at p1 ⊢
  refine le_of_le_of_eq (add_nonneg (add_nonneg p1 p2) p3) ?_
  simp
  ring

/-- **C78 (all steps).** In a run with steps of any positive sizes, prescribed displacements that do not
change from the initial state on and prescribed temperature `θ`, the free energy never grows. -/
theorem C78_stable (m : ThermoParams) (hmu : 0 ≤ m.mu) (hlm : 0 ≤ m.lmbda + m.mu) (hC : 0 ≤ m.C)
    (hk : 0 ≤ m.k) (hT0 : 0 < m.T0) (vu vT : CVar 2) (hw : WFVars [vu, vT]) (hvu : vu.vec = 2)
    (hvT : vT.vec = 1) (hm : SameMeasure vu vT) (hpos : vu.Positive)
    (hone : ∀ q < vT.nq, ∑ a : Fin vT.nn, vT.shapeVals q a = 1)
    (hgrad : ∀ q < vT.nq, ∀ j, ∑ a : Fin vT.nn, vT.G q a j = 0)
    (us Ts : Nat → List (List ℝ)) (dts : Nat → ℝ) (hdt : ∀ t, 0 < dts t)
    (hs : ∀ t, HasShapes (solShapes ([vu, vT].map CVar.fe)) [us t, Ts t]) (θ : ℝ)
    (D : Nat → Nat → Nat → Prop) (g : Nat → Nat → ℝ)
    (hDu : ∀ t n c, D 0 n c → fieldAt [us t] 0 n c = g n c)
    (hDT : ∀ t n c, D 1 n c → fieldAt [Ts (t + 1)] 0 n c = θ)
    (Rs : Nat → List (List (List ℝ)))
    (hR : ∀ t, thermoResidual m vu vT (us t) (Ts t) (dts t) [us (t + 1), Ts (t + 1)] = .ok (Rs t))
    (hz : ∀ t, FreeZero [vu, vT] D (Rs t)) (s t : Nat) (hst : s ≤ t) :
    thermoEnergy m vu vT θ (fieldAt [us t] 0) (fieldAt [Ts t] 0)
      ≤ thermoEnergy m vu vT θ (fieldAt [us s] 0) (fieldAt [Ts s] 0) := by
  induction t, hst using Nat.le_induction with
  | base => exact le_rfl
  | succ t _ ih =>
    refine le_trans ?_ ih
    exact C78_energy m hmu hlm hC hk hT0 vu vT hw hvu hvT hm hpos hone hgrad (us t) (Ts t) (dts t) (hdt t)
      [us (t + 1), Ts (t + 1)] (hs _) θ D (fun n c hd => (hDu (t + 1) n c hd).trans (hDu t n c hd).symm)
      (fun n c hd => hDT t n c hd) (Rs t) (hR t) (hz t)

/-! ### A concrete case -/

/-- The hypotheses on the variables hold for the triangle of C76. -/
example : WFVars [triVar 2, triVar 1] ∧ SameMeasure (triVar 2) (triVar 1) ∧ (triVar 2).Positive ∧
    (∀ q < (triVar 1).nq, ∑ a : Fin (triVar 1).nn, (triVar 1).shapeVals q a = 1) ∧
    (∀ q < (triVar 1).nq, ∀ j, ∑ a : Fin (triVar 1).nn, (triVar 1).G q a j = 0) := by
  refine ⟨triVar_vars 2 1, triVar_same 2 1, triVar_positive 2, fun q _ => ?_, fun q _ j => ?_⟩
  · change ∑ a : Fin 3, (1 / 3 : ℝ) = 1
    rw [Fin.sum_univ_three]
    norm_num
  · change ∑ a : Fin 3, (triVar 1).G q a j = 0
    rw [Fin.sum_univ_three]
    change (![-1, -1] : Fin 2 → ℝ) j + (![1, 0] : Fin 2 → ℝ) j + (![0, 1] : Fin 2 → ℝ) j = 0
    fin_cases j <;> simp

/-- A step from temperature 0 to a uniform temperature `θ` with all nodes held: with `κ = 1`, `λ = μ = 1`
the stress tested with the field `(x, 0)` is `-θ` times the area. -/
example (θ : ℝ) : ∃ R, thermoResidual ⟨1, 1, 1, 1, 1, 1⟩ (triVar 2) (triVar 1) [[0, 0], [0, 0], [0, 0]]
      [[0], [0], [0]] 1 [[[0, 0], [0, 0], [0, 0]], [[θ], [θ], [θ]]] = .ok R ∧
    tested [triVar 2, triVar 1] R
      (fun i n c => if i = 0 then (if n = 1 ∧ c = 0 then 1 else 0) else 0) = - θ / 2 := by
  obtain ⟨R, r1, -, r3⟩ := C78_weak_form ⟨1, 1, 1, 1, 1, 1⟩ (triVar 2) (triVar 1) (triVar_vars 2 1) rfl rfl
    [[0, 0], [0, 0], [0, 0]] [[0], [0], [0]] 1 [[[0, 0], [0, 0], [0, 0]], [[θ], [θ], [θ]]]
    (by simp [HasShapes, solShapes, triVar, CVar.fe])
  refine ⟨R, r1, ?_⟩
  rw [r3]
  have h1 : (triVar 2).cells.length = 1 := rfl
  have h2 : (triVar 1).cells.length = 1 := rfl
  have h3 : (triVar 2).nq = 1 := rfl
  have h4 : (triVar 1).nq = 1 := rfl
  have h5 : (triVar 1).vec = 1 := rfl
  have h6 : ∀ u : Nat → Nat → ℝ, (triVar 1).valueAt u 0 0 0 = (u 0 0 + u 1 0 + u 2 0) / 3 := by
    intro u
    rw [CVar.valueAt]
    change ∑ a : Fin 3, _ = _
    rw [Fin.sum_univ_three]
    simp [CVar.node, triVar]
    ring
  simp only [CVar.integral, h1, h2, h3, h4, CVar.gradDot, CVar.divAt, h5, stressAt,
    Finset.sum_range_succ, Finset.sum_range_zero, Fin.sum_univ_two, triVar_grad, triVar_measure, h6]
  simp [fieldAt, at3]
  ring

end JaxFem
