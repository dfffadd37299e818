import Verif.Spec.Control
import Verif.Thm.C78_Thermoelastic
import Verif.Thm.C100_Linear

/-!
# C101: weak form of the thermal mechanical control problem
-/

namespace JaxFem.Control

open scoped BigOperators

variable {vu vT : CVar 2}

/-! ### Helper lemmas -/

theorem strain_contract (u v : Nat → Nat → ℝ) (e q : Nat) :
    ∑ i : Fin 2, ∑ j : Fin 2, strain (vu := vu) u e q i j * vu.gradAt v e q i j
      = ∑ i : Fin 2, ∑ j : Fin 2, strain (vu := vu) u e q i j * strain (vu := vu) v e q i j := by
  simp only [strain, Fin.sum_univ_two, Fin.isValue, Fin.val_zero, Fin.val_one]
  ring

/-! ### Property theorem -/

/-- **C101 (weak form).** On well-formed meshes the residual is computed without an error, and tested with a displacement
`w₀` and a temperature `w₁` it is `∫ λ div u div w₀ + 2 μ ε(u) : ε(w₀) - ∫ κ T div w₀ + ∫ k ∇T · ∇w₁`. -/
theorem C101_weak_form (m : Material) (vu vT : CVar 2) (hw : WFVars [vu, vT]) (hvu : vu.vec = 2)
    (hvT : vT.vec = 1) (sols : List (List (List ℝ))) (hs : HasShapes (solShapes ([vu, vT].map CVar.fe)) sols) :
    ∃ R, residual m vu vT sols = .ok R ∧
      HasShapes (solShapes ([vu, vT].map CVar.fe)) R ∧
      ∀ w : Nat → Nat → Nat → ℝ, tested [vu, vT] R w
        = elasticForm (vu := vu) m (fieldAt sols 0) (w 0) - thermalLoad vu vT m (fieldAt sols 1) (w 0)
          + heatForm (vT := vT) m (fieldAt sols 1) (w 1) := by
  have wfu := hw.wf vu (by simp)
  have wfT := hw.wf vT (by simp)
  obtain ⟨R, r1, r2, r3⟩ := coupled_weak_form [vu, vT] hw (by simp) (kernel m vu vT)
    (List.replicate vu.cells.length ()) (by simp) sols hs
    (fun i e q c j => if i = 0 then
        (if h : c < 2 then m.lmbda * vu.divAt (fieldAt sols 0) e q * (if (⟨c, h⟩ : Fin 2) = j then 1 else 0)
          + 2 * m.mu * strain (vu := vu) (fieldAt sols 0) e q ⟨c, h⟩ j
          - m.kappa * vT.valueAt (fieldAt sols 1) e q 0 * (if (⟨c, h⟩ : Fin 2) = j then 1 else 0) else 0)
      else m.k * vT.gradAt (fieldAt sols 1) e q c j)
    (fun i e q c => 0)
    (fun x d iv => ravelSol_length (hasShapes_two vu vT _ _)) (by
      intro e he
      have hec : e < vu.cells.length := by simpa using he
      have heT : e < vT.cells.length := by
        rw [← hw.cells vu (by simp) vT (by simp)]; exact hec
      have hu := coupled_local [vu, vT] hw sols hs e hec 0 (by simp)
      have hT := coupled_local [vu, vT] hw sols hs e hec 1 (by simp)
      simp only [List.getElem_cons_zero, List.getElem_cons_succ] at hu hT
      refine ⟨_, hasShapes_two vu vT _ _, rfl, fun i hi => ?_⟩
      have hG : ∀ q (c : Nat) (j : Fin 2), gradOp vu.nn (gatherVar (sols.getD 0 []) (vu.cells.getD e []))
          (fun q => sliceVar (numNodesCumsum [vu, vT]) 0
            ((packedCell [vu, vT] vu.nq (vu.quadPoint e) e).shapeGrads q)) q c j
          = vu.gradAt (fieldAt sols 0) e q c j := fun q c j =>
        gradOp_gather vu wfu _ e hec _ q c (packedCell_grads [vu, vT] _ _ e q 0 (by simp)) j
      have hGT : ∀ q (c : Nat) (j : Fin 2), gradOp vT.nn (gatherVar (sols.getD 1 []) (vT.cells.getD e []))
          (fun q => sliceVar (numNodesCumsum [vu, vT]) 1
            ((packedCell [vu, vT] vu.nq (vu.quadPoint e) e).shapeGrads q)) q c j
          = vT.gradAt (fieldAt sols 1) e q c j := fun q c j =>
        gradOp_gather vT wfT _ e heT _ q c (packedCell_grads [vu, vT] _ _ e q 1 (by simp)) j
      have hV : ∀ q c, valOp vT.nn (gatherVar (sols.getD 1 []) (vT.cells.getD e [])) vT.shapeVals q c
          = vT.valueAt (fieldAt sols 1) e q c := fun q c => valOp_gather vT wfT _ e heT q c
      have hvg : ∀ q, sliceVar (numNodesCumsum [vu, vT]) 0
          ((packedCell [vu, vT] vu.nq (vu.quadPoint e) e).vGradsJxW q) = vu.vGradsJxW e q := fun q =>
        packedCell_vgrads [vu, vT] _ _ e q 0 (by simp)
      have hvgT : ∀ q, sliceVar (numNodesCumsum [vu, vT]) 1
          ((packedCell [vu, vT] vu.nq (vu.quadPoint e) e).vGradsJxW q) = vT.vGradsJxW e q := fun q =>
        packedCell_vgrads [vu, vT] _ _ e q 1 (by simp)
      have hcs : cellShapes [vu.fe, vT.fe] = cellShapes ([vu, vT].map CVar.fe) := rfl
      match i, hi with
      | 0, _ =>
        intro (a : Fin vu.nn) c (hc : c < vu.vec)
        change at2 (mk2 vu.nn vu.vec _) a c = _
        rw [at2_mk2 _ _ _ _ _ a.2 hc]
        simp only [List.getElem_cons_zero, hcs, hu, hT]
        rw [fluxOp_eq vu e _ _ _ hvg a c]
        change ∑ q ∈ Finset.range vu.nq, _ = _
        refine Finset.sum_congr rfl fun q _ => ?_
        simp only [if_true, zero_mul, add_zero]
        congr 1
        refine Finset.sum_congr rfl fun j _ => ?_
        congr 1
        have hc2 : c < 2 := by omega
        rw [dif_pos hc2, dif_pos hc2]
        simp only [stress, strain2, strain, CVar.divAt, hG, hV, Fin.isValue, Fin.val_zero, Fin.val_one]
        rw [show (0.5 : ℝ) = 1 / 2 by norm_num]
        ring
      | 1, _ =>
        intro (a : Fin vT.nn) c (hc : c < vT.vec)
        have hc0 : c = 0 := by omega
        subst hc0
        change at2 (mk2 vT.nn vT.vec _) a 0 = _
        rw [at2_mk2 _ _ _ _ _ a.2 hc]
        simp only [List.getElem_cons_zero, hcs, hu, hT]
        rw [fluxOp_eq vT e _ _ _ hvgT a 0]
        change ∑ q ∈ Finset.range vu.nq, _ = _
        refine Finset.sum_congr rfl fun q _ => ?_
        simp only [hGT, one_ne_zero, if_false, zero_mul, add_zero, List.getElem_cons_succ, List.getElem_cons_zero])
  have hq := hw.quads vu (by simp) vT (by simp)
  have hc := hw.cells vu (by simp) vT (by simp)
  refine ⟨R, r1, r2, fun w => ?_⟩
  rw [r3 w]
  change ∑ i : Fin 2, _ = _
  rw [Fin.sum_univ_two]
  congr 1
  · rw [elasticForm, thermalLoad, CVar.integral, CVar.integral, ← Finset.sum_sub_distrib]
    refine Finset.sum_congr rfl fun e _ => ?_
    rw [← Finset.sum_sub_distrib]
    refine Finset.sum_congr rfl fun q _ => ?_
    change (∑ c ∈ Finset.range vu.vec, _) * vu.measure e q = _
    rw [← sub_mul, ← strain_contract]
    congr 1
    rw [hvu, Finset.sum_range]
    simp only [Fin.sum_univ_two, Fin.isValue, Fin.val_zero, Fin.val_one, strain, CVar.divAt]
    simp
    ring
  · rw [heatForm, CVar.integral, ← hc, ← hq]
    refine Finset.sum_congr rfl fun e _ => Finset.sum_congr rfl fun q _ => ?_
    change (∑ c ∈ Finset.range vT.vec, _) * vT.measure e q = _
    congr 1
    simp only [hvT, Finset.sum_range_one, Fin.sum_univ_two]
    simp
    ring

end JaxFem.Control
