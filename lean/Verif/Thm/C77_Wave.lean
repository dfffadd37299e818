import Verif.Thm.C76_Stokes

/-!
# C77: the scheme of the wave equation never gains energy
-/

namespace JaxFem

/-- **C77 (weak form).** The residual of a time step tested with `w` is
`Σ_e Σ_q (c² dt² ∇u·∇w + (u - 2 u₁ + u₂) w) μ`, where `u₁`, `u₂` are the states one and two steps
before. -/
theorem C77_weak_form (c dt : ℝ) (v : CVar 2) (hw : WFVars [v]) (s2 s1 s : List (List ℝ))
    (hs : HasShapes (solShapes ([v].map CVar.fe)) [s]) :
    ∃ R, waveResidual c dt v s2 s1 s = .ok R ∧ HasShapes (solShapes ([v].map CVar.fe)) R ∧
      ∀ w : Nat → Nat → Nat → ℝ, tested [v] R w
        = v.integral (fun e q => c ^ 2 * dt ^ 2 * v.gradDot (fieldAt [s] 0) (w 0) e q
            + v.valDot (fun n k => fieldAt [s] 0 n k - 2 * fieldAt [s1] 0 n k + fieldAt [s2] 0 n k)
                (w 0) e q) := by
  have hwf := hw.wf v (by simp)
  obtain ⟨R, r1, r2, r3⟩ := coupled_weak_form [v] hw (by simp) (waveKernel c dt v)
    ((List.range v.cells.length).map fun e => (dofToQuad v s2 e, dofToQuad v s1 e)) (by simp) [s] hs
    (fun _ e q k j => c ^ 2 * dt ^ 2 * v.gradAt (fieldAt [s] 0) e q k j)
    (fun _ e q k => v.valueAt (fieldAt [s] 0) e q k
      - (2 * v.valueAt (fieldAt [s1] 0) e q k - v.valueAt (fieldAt [s2] 0) e q k))
    (fun x d iv => ravelSol_length (hasShapes_one v _)) (by
      intro e he
      have hec : e < v.cells.length := by simpa using he
      have hl := coupled_local [v] hw [s] hs e hec 0 (by simp)
      simp only [List.getElem_cons_zero] at hl
      refine ⟨_, hasShapes_one v _, rfl, fun i hi => ?_⟩
      have hG : ∀ q (k : Nat) (j : Fin 2), gradOp v.nn (gatherVar ([s].getD 0 []) (v.cells.getD e []))
          (fun q => sliceVar (numNodesCumsum [v]) 0
            ((packedCell [v] v.nq (v.quadPoint e) e).shapeGrads q)) q k j
          = v.gradAt (fieldAt [s] 0) e q k j := fun q k j =>
        gradOp_gather v hwf _ e hec _ q k (packedCell_grads [v] _ _ e q 0 (by simp)) j
      have hV : ∀ q k, valOp v.nn (gatherVar ([s].getD 0 []) (v.cells.getD e [])) v.shapeVals q k
          = v.valueAt (fieldAt [s] 0) e q k := fun q k => valOp_gather v hwf _ e hec q k
      have hV1 : ∀ q k, dofToQuad v s1 e q k = v.valueAt (fieldAt [s1] 0) e q k := fun q k =>
        valOp_gather v hwf s1 e hec q k
      have hV2 : ∀ q k, dofToQuad v s2 e q k = v.valueAt (fieldAt [s2] 0) e q k := fun q k =>
        valOp_gather v hwf s2 e hec q k
      have hvg : ∀ q, sliceVar (numNodesCumsum [v]) 0
          ((packedCell [v] v.nq (v.quadPoint e) e).vGradsJxW q) = v.vGradsJxW e q := fun q =>
        packedCell_vgrads [v] _ _ e q 0 (by simp)
      have hj : ∀ q, (packedCell [v] v.nq (v.quadPoint e) e).JxW.getD 0 0 q = v.measure e q := by
        intro q
        rw [packedCell_jxw [v] _ _ e 0 (by simp)]
        exact v.jxw_eq e q
      have hcs : cellShapes [v.fe] = cellShapes ([v].map CVar.fe) := rfl
      match i, hi with
      | 0, _ =>
        intro (a : Fin v.nn) k (hk : k < v.vec)
        change at2 (mk2 v.nn v.vec _) a k = _
        rw [at2_mk2 _ _ _ _ _ a.2 hk]
        simp only [List.getElem_cons_zero, hcs, hl, List.getElem_map, List.getElem_range]
        rw [fluxOp_eq v e _ _ _ hvg a k]
        simp only [srcOp]
        change ∑ q ∈ Finset.range v.nq, _ + ∑ q ∈ Finset.range v.nq, _ - ∑ q ∈ Finset.range v.nq, _ = _
        rw [← Finset.sum_add_distrib, ← Finset.sum_sub_distrib]
        refine Finset.sum_congr rfl fun q _ => ?_
        simp only [hG, hV, hV1, hV2, hj]
        ring)
  refine ⟨R, r1, r2, fun w => ?_⟩
  rw [r3 w]
  change ∑ i : Fin 1, _ = _
  rw [Fin.sum_univ_one]
  refine Finset.sum_congr rfl fun e _ => Finset.sum_congr rfl fun q _ => ?_
  change (∑ k ∈ Finset.range v.vec, _) * v.measure e q = _
  congr 1
  simp only [CVar.gradDot, CVar.valDot]
  rw [Finset.mul_sum, ← Finset.sum_add_distrib]
  refine Finset.sum_congr rfl fun k _ => ?_
  have h1 : v.valueAt (fun n k => fieldAt [s] 0 n k - 2 * fieldAt [s1] 0 n k + fieldAt [s2] 0 n k) e q k
      = v.valueAt (fieldAt [s] 0) e q k - 2 * v.valueAt (fieldAt [s1] 0) e q k
        + v.valueAt (fieldAt [s2] 0) e q k := by
    simp only [CVar.valueAt, Finset.mul_sum, ← Finset.sum_sub_distrib, ← Finset.sum_add_distrib]
    exact Finset.sum_congr rfl fun a _ => by ring
  change (∑ j, _ * v.gradAt (w 0) e q k j) + _ * v.valueAt (w 0) e q k = _
  rw [h1, Finset.mul_sum]
  congr 1
  · exact Finset.sum_congr rfl fun j _ => by ring
  · ring

/-- **C77 (energy).** If a time step is solved exactly and the prescribed values do not change in this
step, the energy changes by exactly `-∫ ½ |δ - δ₁|² - ½ c² dt² |∇δ|²`, where `δ` and `δ₁` are the
increments of this step and the one before. -/
theorem C77_energy_step (c dt : ℝ) (v : CVar 2) (hw : WFVars [v]) (s2 s1 s : List (List ℝ))
    (hs : HasShapes (solShapes ([v].map CVar.fe)) [s])
    (D : Nat → Nat → Prop) (hD : ∀ n k, D n k → fieldAt [s] 0 n k = fieldAt [s1] 0 n k)
    (R : List (List (List ℝ))) (hR : waveResidual c dt v s2 s1 s = .ok R)
    (hz : FreeZero [v] (fun _ => D) R) :
    waveEnergy c dt v (fieldAt [s1] 0) (fieldAt [s] 0)
      = waveEnergy c dt v (fieldAt [s2] 0) (fieldAt [s1] 0)
        - v.integral (fun e q =>
          1 / 2 * v.valDot (fun n k => fieldAt [s] 0 n k - 2 * fieldAt [s1] 0 n k + fieldAt [s2] 0 n k)
            (fun n k => fieldAt [s] 0 n k - 2 * fieldAt [s1] 0 n k + fieldAt [s2] 0 n k) e q
          + 1 / 2 * c ^ 2 * dt ^ 2 * v.gradDot (fun n k => fieldAt [s] 0 n k - fieldAt [s1] 0 n k)
            (fun n k => fieldAt [s] 0 n k - fieldAt [s1] 0 n k) e q) := by
  obtain ⟨R', r1, -, r3⟩ := C77_weak_form c dt v hw s2 s1 s hs
  obtain rfl : R = R' := by
    rw [hR] at r1
    exact Except.ok.inj r1
  have hz := tested_zero [v] _ R hz (fun _ n k => fieldAt [s] 0 n k - fieldAt [s1] 0 n k) (by
    intro i _ n _ k _ hd
    show fieldAt [s] 0 n k - fieldAt [s1] 0 n k = 0
    rw [hD n k hd, sub_self])
  rw [r3] at hz
  rw [eq_sub_iff_add_eq, ← sub_eq_zero, waveEnergy, waveEnergy, ← v.integral_add, ← v.integral_sub]
  refine Eq.trans (v.integral_congr fun e _ q _ => ?_) hz
  simp only [CVar.gradDot, CVar.valDot, v.gradAt_sub, v.valueAt_sub]
  have h1 : ∀ k, v.valueAt (fun n k => fieldAt [s] 0 n k - 2 * fieldAt [s1] 0 n k + fieldAt [s2] 0 n k) e q k
      = v.valueAt (fieldAt [s] 0) e q k - 2 * v.valueAt (fieldAt [s1] 0) e q k
        + v.valueAt (fieldAt [s2] 0) e q k := by
    intro k
    simp only [CVar.valueAt, Finset.mul_sum, ← Finset.sum_sub_distrib, ← Finset.sum_add_distrib]
    exact Finset.sum_congr rfl fun a _ => by ring
  simp only [h1, Finset.mul_sum, ← Finset.sum_add_distrib, ← Finset.sum_sub_distrib]
  refine Finset.sum_congr rfl fun k _ => ?_
  rw [Fin.sum_univ_two, Fin.sum_univ_two, Fin.sum_univ_two, Fin.sum_univ_two]
  ring

/-- **C77 (stability).** In a run of the loop whose prescribed values do not change after the first
step, the energy after any later step is at most the energy after the first step, whatever the size of
`dt`. -/
theorem C77_stable (c dt : ℝ) (v : CVar 2) (hw : WFVars [v]) (hp : v.Positive)
    (us : Nat → List (List ℝ)) (hs : ∀ n, HasShapes (solShapes ([v].map CVar.fe)) [us n])
    (D : Nat → Nat → Prop) (g : Nat → Nat → ℝ)
    (hD : ∀ t n k, D n k → fieldAt [us (t + 2)] 0 n k = g n k)
    (Rs : Nat → List (List (List ℝ)))
    (hR : ∀ t, waveResidual c dt v (us t) (us (t + 1)) (us (t + 2)) = .ok (Rs t))
    (hz : ∀ t, FreeZero [v] (fun _ => D) (Rs t)) (t : Nat) :
    waveEnergy c dt v (fieldAt [us (t + 1)] 0) (fieldAt [us (t + 2)] 0)
      ≤ waveEnergy c dt v (fieldAt [us 1] 0) (fieldAt [us 2] 0) := by
  induction t with
  | zero => exact le_rfl
  | succ t ih =>
    refine le_trans ?_ ih
    rw [C77_energy_step c dt v hw (us (t + 1)) (us (t + 2)) (us (t + 3)) (hs _) D
      (fun n k hd => (hD (t + 1) n k hd).trans (hD t n k hd).symm) (Rs (t + 1)) (hR (t + 1)) (hz _)]
    rw [sub_le_self_iff]
    refine v.integral_nonneg hp _ fun e _ q _ => ?_
    refine add_nonneg (mul_nonneg (by norm_num) ?_) (mul_nonneg (by positivity) ?_)
    · exact Finset.sum_nonneg fun k _ => mul_self_nonneg _
    · exact Finset.sum_nonneg fun k _ => Finset.sum_nonneg fun j _ => mul_self_nonneg _

/-- The hypotheses on the mesh hold for the triangle of C76. -/
theorem triVar_one : WFVars [triVar 1] :=
  ⟨by simp, by intro v hv; rw [List.mem_singleton.1 hv]; exact triVar_wf 1,
    by intro v hv w hw; rw [List.mem_singleton.1 hv, List.mem_singleton.1 hw],
    by intro v hv w hw; rw [List.mem_singleton.1 hv, List.mem_singleton.1 hw],
    by intro v hv; rw [List.mem_singleton.1 hv]; simp [triVar]⟩

/-- A run that is not constant: without prescribed values, the constant field `t` at time `t` solves
every step. -/
example (c dt : ℝ) : ∃ Rs : Nat → List (List (List ℝ)), ∀ t : Nat,
    waveResidual c dt (triVar 1) [[(t : ℝ)], [(t : ℝ)], [(t : ℝ)]]
      [[(t : ℝ) + 1], [(t : ℝ) + 1], [(t : ℝ) + 1]] [[(t : ℝ) + 2], [(t : ℝ) + 2], [(t : ℝ) + 2]] = .ok (Rs t)
    ∧ FreeZero [triVar 1] (fun _ _ _ => False) (Rs t) := by
  have h : ∀ t : Nat, ∃ R, waveResidual c dt (triVar 1) [[(t : ℝ)], [(t : ℝ)], [(t : ℝ)]]
      [[(t : ℝ) + 1], [(t : ℝ) + 1], [(t : ℝ) + 1]] [[(t : ℝ) + 2], [(t : ℝ) + 2], [(t : ℝ) + 2]] = .ok R
      ∧ FreeZero [triVar 1] (fun _ _ _ => False) R := by
    intro t
    obtain ⟨R, r1, -, r3⟩ := C77_weak_form c dt (triVar 1) triVar_one [[(t : ℝ)], [(t : ℝ)], [(t : ℝ)]]
      [[(t : ℝ) + 1], [(t : ℝ) + 1], [(t : ℝ) + 1]] [[(t : ℝ) + 2], [(t : ℝ) + 2], [(t : ℝ) + 2]]
      (by simp [HasShapes, solShapes, triVar, CVar.fe])
    refine ⟨R, r1, freeZero_of_tested _ R fun w => ?_⟩
    rw [r3]
    refine Finset.sum_eq_zero fun e he => Finset.sum_eq_zero fun q hq => ?_
    obtain rfl : e = 0 := by simpa [triVar] using he
    obtain rfl : q = 0 := by simpa [triVar] using hq
    have hv : (triVar 1).vec = 1 := rfl
    have hval : ∀ u : Nat → Nat → ℝ, (triVar 1).valueAt u 0 0 0 = (u 0 0 + u 1 0 + u 2 0) / 3 := by
      intro u
      rw [CVar.valueAt]
      change ∑ a : Fin 3, _ = _
      rw [Fin.sum_univ_three]
      simp [CVar.node, triVar]
      ring
    simp only [CVar.gradDot, CVar.valDot, hv, Finset.sum_range_one, triVar_grad, Fin.sum_univ_two, hval]
    simp [fieldAt, at3]
    ring_nf
    simp
  choose Rs hRs using h
  exact ⟨Rs, hRs⟩

end JaxFem
