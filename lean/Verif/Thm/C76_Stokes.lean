import Verif.Thm.CoupledFields

/-!
# C76: the mixed kernel of Stokes flow
-/

namespace JaxFem

/-- Entries of the kernel's result. -/
theorem stokes_entries (vu vp : CVar 2) (hw : WFVars [vu, vp])
    (sols : List (List (List ℝ))) (hs : HasShapes (solShapes ([vu, vp].map CVar.fe)) sols) :
    ∃ R, coupledResidual [vu, vp] (stokesKernel vu vp) (List.replicate vu.cells.length ()) sols = .ok R ∧
      HasShapes (solShapes ([vu, vp].map CVar.fe)) R ∧
      ∀ w : Nat → Nat → Nat → ℝ, tested [vu, vp] R w
        = ∑ i : Fin [vu, vp].length, ∑ e ∈ Finset.range [vu, vp][0].cells.length,
          ∑ q ∈ Finset.range [vu, vp][0].nq, (∑ c ∈ Finset.range [vu, vp][i].vec,
            ((∑ j, (if (i : Nat) = 0 then vu.gradAt (fieldAt sols 0) e q c j +
                (if c = (j : Nat) then vp.valueAt (fieldAt sols 1) e q 0 else 0) else 0)
                * [vu, vp][i].gradAt (w i) e q c j)
              + (if (i : Nat) = 0 then 0 else vu.divAt (fieldAt sols 0) e q)
                * [vu, vp][i].valueAt (w i) e q c)) * [vu, vp][i].measure e q := by
  refine coupled_weak_form [vu, vp] hw (by simp) (stokesKernel vu vp) _ (by simp) sols hs
    (fun i e q c j => if i = 0 then vu.gradAt (fieldAt sols 0) e q c j +
      (if c = (j : Nat) then vp.valueAt (fieldAt sols 1) e q 0 else 0) else 0)
    (fun i e q c => if i = 0 then 0 else vu.divAt (fieldAt sols 0) e q) ?_ ?_
  · intro x d iv
    exact ravelSol_length (hasShapes_two vu vp _ _)
  · intro e he
    have hec : e < vu.cells.length := by simpa using he
    have hep : e < vp.cells.length := by
      rw [← hw.cells vu (by simp) vp (by simp)]; exact hec
    have hu := coupled_local [vu, vp] hw sols hs e hec 0 (by simp)
    have hp := coupled_local [vu, vp] hw sols hs e hec 1 (by simp)
    have wfu := hw.wf vu (by simp)
    have wfp := hw.wf vp (by simp)
    simp only [List.getElem_cons_zero, List.getElem_cons_succ] at hu hp
    refine ⟨_, hasShapes_two vu vp _ _, rfl, fun i hi => ?_⟩
    have hG : ∀ q (c : Nat) (j : Fin 2), gradOp vu.nn (gatherVar (sols.getD 0 []) (vu.cells.getD e []))
        (fun q => sliceVar (numNodesCumsum [vu, vp]) 0
          ((packedCell [vu, vp] vu.nq (vu.quadPoint e) e).shapeGrads q)) q c j
        = vu.gradAt (fieldAt sols 0) e q c j := fun q c j =>
      gradOp_gather vu wfu _ e hec _ q c (packedCell_grads [vu, vp] _ _ e q 0 (by simp)) j
    have hV : ∀ q, valOp vp.nn (gatherVar (sols.getD 1 []) (vp.cells.getD e [])) vp.shapeVals q 0
        = vp.valueAt (fieldAt sols 1) e q 0 := fun q => valOp_gather vp wfp _ e hep q 0
    have hvg : ∀ q, sliceVar (numNodesCumsum [vu, vp]) 0
        ((packedCell [vu, vp] vu.nq (vu.quadPoint e) e).vGradsJxW q) = vu.vGradsJxW e q := fun q =>
      packedCell_vgrads [vu, vp] _ _ e q 0 (by simp)
    have hj : ∀ q, (packedCell [vu, vp] vu.nq (vu.quadPoint e) e).JxW.getD 1 0 q = vp.measure e q := by
      intro q
      rw [packedCell_jxw [vu, vp] _ _ e 1 (by simp)]
      exact vp.jxw_eq e q
    have hcs : cellShapes [vu.fe, vp.fe] = cellShapes ([vu, vp].map CVar.fe) := rfl
    match i, hi with
    | 0, _ =>
      intro (a : Fin vu.nn) c (hc : c < vu.vec)
      change at2 (mk2 vu.nn vu.vec _) a c = _
      rw [at2_mk2 _ _ _ _ _ a.2 hc]
      simp only [List.getElem_cons_zero, hcs, hu, hp, hV]
      rw [fluxOp_eq vu e _ _ _ hvg a c]
      change _ + ∑ q ∈ Finset.range vu.nq, _ = ∑ q ∈ Finset.range vu.nq, _
      change ∑ q ∈ Finset.range vu.nq, _ + _ = _
      rw [← Finset.sum_add_distrib]
      refine Finset.sum_congr rfl fun q _ => ?_
      simp only [hG, if_true, zero_mul, add_zero, hvg]
      rw [Fin.sum_univ_two, Fin.sum_univ_two]
      by_cases h0 : c = 0
      · subst h0
        simp only [vu.vGradsJxW_getD, vu.jxw_eq]
        simp
        ring
      · by_cases h1 : c = 1
        · subst h1
          simp only [vu.vGradsJxW_getD, vu.jxw_eq]
          simp
          ring
        · have h2 : ¬ c < 2 := by omega
          simp [h0, h1, h2]
    | 1, _ =>
      intro (a : Fin vp.nn) c (hc : c < vp.vec)
      change at2 (mk2 vp.nn vp.vec _) a c = _
      rw [at2_mk2 _ _ _ _ _ a.2 hc]
      simp only [List.getElem_cons_zero, hcs, hu, srcOp]
      change ∑ q ∈ Finset.range vu.nq, _ = _
      refine Finset.sum_congr rfl fun q _ => ?_
      simp only [hG, hj]
      simp [CVar.divAt]

/-- **C76 (weak form).** The kernel assembles, for every test velocity `v` and test pressure `r`,
`Σ_e Σ_q (∇u : ∇v + p div v) μ_u + Σ_e Σ_q r div u μ_p`, each field interpolated with the shape functions
of its own variable. -/
theorem C76_weak_form (vu vp : CVar 2) (hw : WFVars [vu, vp]) (hvu : vu.vec = 2) (hvp : vp.vec = 1)
    (sols : List (List (List ℝ))) (hs : HasShapes (solShapes ([vu, vp].map CVar.fe)) sols) :
    ∃ R, coupledResidual [vu, vp] (stokesKernel vu vp) (List.replicate vu.cells.length ()) sols = .ok R ∧
      HasShapes (solShapes ([vu, vp].map CVar.fe)) R ∧
      ∀ w : Nat → Nat → Nat → ℝ, tested [vu, vp] R w
        = vu.integral (fun e q => vu.gradDot (fieldAt sols 0) (w 0) e q
            + vp.valueAt (fieldAt sols 1) e q 0 * vu.divAt (w 0) e q)
          + vp.integral (fun e q => vp.valueAt (w 1) e q 0 * vu.divAt (fieldAt sols 0) e q) := by
  obtain ⟨R, r1, r2, r3⟩ := stokes_entries vu vp hw sols hs
  refine ⟨R, r1, r2, fun w => ?_⟩
  rw [r3 w]
  change ∑ i : Fin 2, _ = _
  have hq := hw.quads vu (by simp) vp (by simp)
  have hc := hw.cells vu (by simp) vp (by simp)
  rw [Fin.sum_univ_two]
  congr 1
  · refine Finset.sum_congr rfl fun e _ => Finset.sum_congr rfl fun q _ => ?_
    change (∑ c ∈ Finset.range vu.vec, _) * vu.measure e q = _
    congr 1
    simp only [CVar.gradDot, CVar.divAt, hvu, Finset.sum_range_succ, Finset.sum_range_zero, Fin.sum_univ_two]
    simp
    ring
  · rw [CVar.integral, ← hc, ← hq]
    refine Finset.sum_congr rfl fun e _ => Finset.sum_congr rfl fun q _ => ?_
    change (∑ c ∈ Finset.range vp.vec, _) * vp.measure e q = _
    congr 1
    rw [hvp]
    simp
    ring

/-- **C76 (discrete incompressibility).** Where no pressure is prescribed, a solution satisfies
`Σ_e Σ_q r div u μ_p = 0` for every test pressure `r`. -/
theorem C76_incompressible (vu vp : CVar 2) (hw : WFVars [vu, vp]) (hvu : vu.vec = 2) (hvp : vp.vec = 1)
    (sols : List (List (List ℝ))) (hs : HasShapes (solShapes ([vu, vp].map CVar.fe)) sols)
    (D : Nat → Nat → Nat → Prop) (hD : ∀ n c, ¬ D 1 n c) (R : List (List (List ℝ)))
    (hR : coupledResidual [vu, vp] (stokesKernel vu vp) (List.replicate vu.cells.length ()) sols = .ok R)
    (h0 : FreeZero [vu, vp] D R) (r : Nat → Nat → ℝ) :
    vp.integral (fun e q => vp.valueAt r e q 0 * vu.divAt (fieldAt sols 0) e q) = 0 := by
  obtain ⟨R', r1, -, r3⟩ := C76_weak_form vu vp hw hvu hvp sols hs
  obtain rfl : R = R' := by
    rw [hR] at r1
    exact Except.ok.inj r1
  have hz := tested_zero [vu, vp] D R h0 (fun i n c => if i = 1 then r n c else 0) (by
    intro i hi n hn c hc hd
    by_cases h1 : i = 1
    · subst h1
      exact absurd hd (hD n c)
    · simp [h1])
  rw [r3] at hz
  have e1 : vu.integral (fun e q => vu.gradDot (fieldAt sols 0)
      ((fun i n c => if i = 1 then r n c else 0 : Nat → Nat → Nat → ℝ) 0) e q
      + vp.valueAt (fieldAt sols 1) e q 0
        * vu.divAt ((fun i n c => if i = 1 then r n c else 0 : Nat → Nat → Nat → ℝ) 0) e q) = 0 := by
    refine (vu.integral_congr fun e _ q _ => ?_).trans ((vu.integral_smul 0 fun _ _ => 0).trans (by simp))
    simp [CVar.gradDot, CVar.divAt, CVar.gradAt_eq]
  rw [e1, zero_add] at hz
  exact hz

/-- **C76 (uniqueness of the velocity).** On one geometry with positive measures, two solutions with the
same prescribed velocities (and pressures) have the same velocity gradient at every quadrature point. -/
theorem C76_velocity_unique (vu vp : CVar 2) (hw : WFVars [vu, vp]) (hvu : vu.vec = 2) (hvp : vp.vec = 1)
    (hm : SameMeasure vu vp) (hpos : vu.Positive)
    (s t : List (List (List ℝ))) (hs : HasShapes (solShapes ([vu, vp].map CVar.fe)) s)
    (ht : HasShapes (solShapes ([vu, vp].map CVar.fe)) t)
    (D : Nat → Nat → Nat → Prop)
    (hD : ∀ i n c, D i n c → at3 s i n c = at3 t i n c) (Rs Rt : List (List (List ℝ)))
    (hRs : coupledResidual [vu, vp] (stokesKernel vu vp) (List.replicate vu.cells.length ()) s = .ok Rs)
    (hRt : coupledResidual [vu, vp] (stokesKernel vu vp) (List.replicate vu.cells.length ()) t = .ok Rt)
    (hzs : FreeZero [vu, vp] D Rs) (hzt : FreeZero [vu, vp] D Rt) :
    ∀ e < vu.cells.length, ∀ q < vu.nq, ∀ c < 2, ∀ j,
      vu.gradAt (fieldAt s 0) e q c j = vu.gradAt (fieldAt t 0) e q c j := by
  obtain ⟨Rs', s1, -, s3⟩ := C76_weak_form vu vp hw hvu hvp s hs
  obtain ⟨Rt', t1, -, t3⟩ := C76_weak_form vu vp hw hvu hvp t ht
  obtain rfl : Rs = Rs' := by
    rw [hRs] at s1
    exact Except.ok.inj s1
  obtain rfl : Rt = Rt' := by
    rw [hRt] at t1
    exact Except.ok.inj t1
  have hq := hw.quads vu (by simp) vp (by simp)
  have hc := hw.cells vu (by simp) vp (by simp)
  -- test with the difference of the velocities and minus the difference of the pressures
  let w : Nat → Nat → Nat → ℝ := fun i => if i = 0 then fun n c => fieldAt s 0 n c - fieldAt t 0 n c
    else fun n c => - (fieldAt s 1 n c - fieldAt t 1 n c)
  have hw0 : ∀ i (hi : i < [vu, vp].length), ∀ n < [vu, vp][i].numTotalNodes, ∀ c < [vu, vp][i].vec,
      D i n c → w i n c = 0 := by
    intro i hi n _ c _ hd
    have hst := hD i n c hd
    match i, hi with
    | 0, _ => simp only [w, fieldAt, if_true]; rw [hst, sub_self]
    | 1, _ =>
      simp only [w, fieldAt, one_ne_zero, if_false]
      rw [hst, sub_self, neg_zero]
  have zs := tested_zero _ D Rs hzs w hw0
  have zt := tested_zero _ D Rt hzt w hw0
  rw [s3, vu.integral_same vp hc hq hm, ← vu.integral_add] at zs
  rw [t3, vu.integral_same vp hc hq hm, ← vu.integral_add] at zt
  have key : vu.integral (fun e q => ∑ c ∈ Finset.range 2, ∑ j,
      (vu.gradAt (fieldAt s 0) e q c j - vu.gradAt (fieldAt t 0) e q c j) ^ 2) = 0 := by
    refine Eq.trans ?_ ((congrArg₂ (fun a b : ℝ => a - b) zs zt).trans (sub_zero 0))
    rw [← vu.integral_sub]
    refine vu.integral_congr fun e _ q _ => ?_
    have hgr : ∀ c j, vu.gradAt (w 0) e q c j
        = vu.gradAt (fieldAt s 0) e q c j - vu.gradAt (fieldAt t 0) e q c j := fun c j =>
      vu.gradAt_sub (fieldAt s 0) (fieldAt t 0) e q c j
    have hva : vp.valueAt (w 1) e q 0
        = -(vp.valueAt (fieldAt s 1) e q 0 - vp.valueAt (fieldAt t 1) e q 0) :=
      (vp.valueAt_neg (fun n c => fieldAt s 1 n c - fieldAt t 1 n c) e q 0).trans
        (congrArg _ (vp.valueAt_sub (fieldAt s 1) (fieldAt t 1) e q 0))
    simp only [CVar.gradDot, CVar.divAt, hgr, hva, hvu, Finset.sum_range_succ, Finset.sum_range_zero,
      Fin.sum_univ_two]
    ring
  intro e he q hq' c hc' j
  have h1 := vu.integral_eq_zero hpos _ (fun e _ q _ => Finset.sum_nonneg fun c _ =>
    Finset.sum_nonneg fun j _ => sq_nonneg _) key e he q hq'
  have h2 := (Finset.sum_eq_zero_iff_of_nonneg fun c _ =>
    Finset.sum_nonneg fun j _ => sq_nonneg _).1 h1 c (Finset.mem_range.2 hc')
  have h3 := (Finset.sum_eq_zero_iff_of_nonneg fun j _ => sq_nonneg _).1 h2 j (Finset.mem_univ j)
  exact sub_eq_zero.1 (pow_eq_zero_iff (two_ne_zero)|>.1 h3)

/-! ### A concrete case -/

/-- A linear triangle with one quadrature point at the centroid; the nodes are `(0,0)`, `(1,0)`, `(0,1)`. -/
noncomputable def triVar (vec : Nat) : CVar 2 :=
  { numTotalNodes := 3, vec := vec, nn := 3, nq := 1, nfq := 0,
    points := [![0, 0], ![1, 0], ![0, 1]], cells := [[0, 1, 2]],
    shapeVals := fun _ _ => 1 / 3,
    shapeGradsRef := fun _ a => ([![-1, -1], ![1, 0], ![0, 1]] : List (Fin 2 → ℝ)).getD a 0,
    quadWeights := fun _ => 1 / 2,
    faceShapeVals := fun _ _ _ => 0, faceShapeGradsRef := fun _ _ _ _ => 0,
    faceQuadWeights := fun _ _ => 0, faceNormals := fun _ _ => 0 }

theorem triVar_wf (k : Nat) : (triVar k).WF := by
  intro cell hc
  simp only [triVar, List.mem_cons, List.not_mem_nil, or_false] at hc
  subst hc
  exact ⟨rfl, by simp [triVar]⟩

theorem triVar_vars (k l : Nat) : WFVars [triVar k, triVar l] := by
  refine ⟨by simp, ?_, ?_, ?_, ?_⟩
  · intro v hv
    simp only [List.mem_cons, List.not_mem_nil, or_false] at hv
    rcases hv with rfl | rfl <;> exact triVar_wf _
  all_goals
    intro v hv
    simp only [List.mem_cons, List.not_mem_nil, or_false] at hv
  · intro w hw
    simp only [List.mem_cons, List.not_mem_nil, or_false] at hw
    rcases hv with rfl | rfl <;> rcases hw with rfl | rfl <;> rfl
  · intro w hw
    simp only [List.mem_cons, List.not_mem_nil, or_false] at hw
    rcases hv with rfl | rfl <;> rcases hw with rfl | rfl <;> rfl
  · rcases hv with rfl | rfl <;> simp [triVar]

theorem triVar_jac (k : Nat) : ((triVar k).X 0).transpose * (triVar k).G 0 = 1 := by
  ext i j
  rw [Matrix.mul_apply]
  change ∑ a : Fin 3, (triVar k).X 0 a i * (triVar k).G 0 a j = _
  rw [Fin.sum_univ_three]
  change (![0, 0] : Fin 2 → ℝ) i * (![-1, -1] : Fin 2 → ℝ) j
    + (![1, 0] : Fin 2 → ℝ) i * (![1, 0] : Fin 2 → ℝ) j
    + (![0, 1] : Fin 2 → ℝ) i * (![0, 1] : Fin 2 → ℝ) j = _
  fin_cases i <;> fin_cases j <;> simp

theorem triVar_measure (k : Nat) : (triVar k).measure 0 0 = 1 / 2 := by
  rw [CVar.measure, triVar_jac, Matrix.det_one, one_mul]
  rfl

theorem triVar_positive (k : Nat) : (triVar k).Positive := by
  intro e he q hq
  obtain rfl : e = 0 := by simpa [triVar] using he
  obtain rfl : q = 0 := by simpa [triVar] using hq
  rw [triVar_measure]
  norm_num

theorem triVar_same (k l : Nat) : SameMeasure (triVar k) (triVar l) := by
  intro e he q hq
  obtain rfl : e = 0 := by simpa [triVar] using he
  obtain rfl : q = 0 := by simpa [triVar] using hq
  rw [triVar_measure, triVar_measure]

theorem triVar_grad (k : Nat) (u : Nat → Nat → ℝ) (c : Nat) :
    (triVar k).gradAt u 0 0 c = ![u 1 c - u 0 c, u 2 c - u 0 c] := by
  rw [CVar.gradAt, triVar_jac, inv_one, Matrix.mul_one]
  funext j
  rw [Matrix.vecMul, dotProduct]
  change ∑ a : Fin 3, u ((triVar k).node 0 a) c * (triVar k).G 0 a j = _
  rw [Fin.sum_univ_three]
  change u 0 c * (![-1, -1] : Fin 2 → ℝ) j + u 1 c * (![1, 0] : Fin 2 → ℝ) j
    + u 2 c * (![0, 1] : Fin 2 → ℝ) j = _
  fin_cases j <;> simp <;> ring

/-- The hypotheses of the theorems hold for velocity and pressure on this triangle; with the velocity
`(x, y)`, whose divergence is 2, and pressure 3 the residual tested with `v = (x, 0)`, `r = 1` is
`(1 + 3) / 2 + 2 / 2 = 3`. -/
example : ∃ R, coupledResidual [triVar 2, triVar 1] (stokesKernel (triVar 2) (triVar 1)) [()]
      [[[0, 0], [1, 0], [0, 1]], [[3], [3], [3]]] = .ok R ∧
    tested [triVar 2, triVar 1] R
      (fun i n c => if i = 0 then (if n = 1 ∧ c = 0 then 1 else 0) else 1) = 3 := by
  obtain ⟨R, r1, -, r3⟩ := C76_weak_form (triVar 2) (triVar 1) (triVar_vars 2 1) rfl rfl
    [[[0, 0], [1, 0], [0, 1]], [[3], [3], [3]]] (by simp [HasShapes, solShapes, triVar, CVar.fe])
  refine ⟨R, r1, ?_⟩
  rw [r3]
  have h1 : (triVar 2).cells.length = 1 := rfl
  have h2 : (triVar 1).cells.length = 1 := rfl
  have h3 : (triVar 2).nq = 1 := rfl
  have h4 : (triVar 1).nq = 1 := rfl
  have h5 : (triVar 2).vec = 2 := rfl
  have h6 : ∀ u : Nat → Nat → ℝ, (triVar 1).valueAt u 0 0 0 = (u 0 0 + u 1 0 + u 2 0) / 3 := by
    intro u
    rw [CVar.valueAt]
    change ∑ a : Fin 3, _ = _
    rw [Fin.sum_univ_three]
    simp [CVar.node, triVar]
    ring
  simp only [CVar.integral, h1, h2, h3, h4, CVar.gradDot, CVar.divAt, h5,
    Finset.sum_range_succ, Finset.sum_range_zero, Fin.sum_univ_two, triVar_grad, triVar_measure, h6]
  simp [fieldAt, at3]
  norm_num

end JaxFem
