import Verif.Thm.C101_Values
import Verif.Thm.CoupledFields

/-!
# C101: the bilinear form behind the residual (helper lemmas)
-/

namespace JaxFem.Control

open scoped BigOperators

/-! ### Weak problems with a bilinear form -/

section weak

variable {fes : List FE} {bcs : List (List (BCEntry ℝ))}

/-- The matrix of a bilinear form, test functions as rows. -/
noncomputable def formMatrix {N : Nat} (B : (Fin N → ℝ) →ₗ[ℝ] (Fin N → ℝ) →ₗ[ℝ] ℝ) : Matrix (Fin N) (Fin N) ℝ :=
  Matrix.of fun k l => B (Pi.single l 1) (Pi.single k 1)

theorem formMatrix_mulVec {N : Nat} (B : (Fin N → ℝ) →ₗ[ℝ] (Fin N → ℝ) →ₗ[ℝ] ℝ) (x : Fin N → ℝ) (k : Fin N) :
    (formMatrix B).mulVec x k = B x (Pi.single k 1) := by
  rw [← LinearMap.flip_apply, Inverse.bilin_expand]
  simp only [Matrix.mulVec, dotProduct, formMatrix, Matrix.of_apply, LinearMap.flip_apply]
  exact Finset.sum_congr rfl fun l _ => mul_comm _ _

theorem form_regular (hb : WFBC fes bcs)
    (B : (Fin (totalDofs fes) → ℝ) →ₗ[ℝ] (Fin (totalDofs fes) → ℝ) →ₗ[ℝ] ℝ)
    (hdef : ∀ x ∈ vanishing fes bcs, (∀ y ∈ vanishing fes bcs, B x y = 0) → x = 0) :
    (elimRows fes bcs (formMatrix B)).det ≠ 0 := by
  intro hz
  obtain ⟨x, hx0, hx⟩ := Matrix.exists_mulVec_eq_zero_iff.2 hz
  apply hx0
  have hrow : ∀ k : Fin (totalDofs fes), (Prescribed fes bcs k none → B x (Pi.single k 1) = 0) ∧
      ∀ v, Prescribed fes bcs k (some v) → x k = 0 := by
    intro k
    have e := congrFun hx k
    obtain ⟨e1, e2⟩ := mulVec_elim fes bcs hb (formMatrix B) x k
    exact ⟨fun hp => by rw [← formMatrix_mulVec, ← e1 hp]; exact e, fun v hp => by rw [← e2 v hp]; exact e⟩
  exact hdef x (fun k v hp => (hrow k).2 v hp) ((Inverse.weak_iff hb (B x)).2 fun k hk => (hrow k).1 hk)

theorem form_solvable (hb : WFBC fes bcs)
    (B : (Fin (totalDofs fes) → ℝ) →ₗ[ℝ] (Fin (totalDofs fes) → ℝ) →ₗ[ℝ] ℝ)
    (hdef : ∀ x ∈ vanishing fes bcs, (∀ y ∈ vanishing fes bcs, B x y = 0) → x = 0)
    (φ : (Fin (totalDofs fes) → ℝ) →ₗ[ℝ] ℝ) :
    ∃ x ∈ vanishing fes bcs, ∀ y ∈ vanishing fes bcs, B x y = φ y := by
  classical
  set A := elimRows fes bcs (formMatrix B) with hA
  have hu : IsUnit A.det := isUnit_iff_ne_zero.2 (form_regular hb B hdef)
  let b : Fin (totalDofs fes) → ℝ := fun k => if Prescribed fes bcs k none then φ (Pi.single k 1) else 0
  have hAx : A.mulVec (A⁻¹.mulVec b) = b := by
    rw [Matrix.mulVec_mulVec, Matrix.mul_nonsing_inv A hu, Matrix.one_mulVec]
  set x := A⁻¹.mulVec b
  refine ⟨x, fun k v hp => ?_, ?_⟩
  · have e := congrFun hAx k
    rw [(mulVec_elim fes bcs hb (formMatrix B) x k).2 v hp] at e
    rw [e]
    refine if_neg fun hn => ?_
    have := prescribed_unique fes bcs hb k _ _ hn hp
    cases this
  · have := (Inverse.weak_iff hb (B x - φ)).2 fun k hk => ?_
    · intro y hy
      have := this y hy
      rw [LinearMap.sub_apply, sub_eq_zero] at this
      exact this
    · have e := congrFun hAx k
      rw [(mulVec_elim fes bcs hb (formMatrix B) x k).1 hk, formMatrix_mulVec] at e
      rw [LinearMap.sub_apply, e]
      exact sub_eq_zero.2 (if_pos hk)

end weak

variable {vu vT : CVar 2} {m : Material} {bu bT : DirichletLists} {n : Nat}

/-! ### The form is bilinear -/

/-- A nodal value as a linear map. -/
noncomputable def fieldL (vu vT : CVar 2) (i a c : Nat) : Dofs vu vT →ₗ[ℝ] ℝ where
  toFun := fun x => field x i a c
  map_add' := fun x y => by
    unfold field
    split
    · rfl
    · rw [add_zero]
  map_smul' := fun r x => by
    unfold field
    split
    · rfl
    · simp

theorem fieldL_apply (x : Dofs vu vT) (i a c : Nat) : fieldL vu vT i a c x = field x i a c := rfl

/-- A gradient as a linear map. -/
noncomputable def gradF (vu vT : CVar 2) (v : CVar 2) (i e q c : Nat) (j : Fin 2) : Dofs vu vT →ₗ[ℝ] ℝ where
  toFun := fun x => v.gradAt (field x i) e q c j
  map_add' := fun x y => by
    simp only [CVar.gradAt_eq, ← fieldL_apply, map_add, add_mul, Finset.sum_add_distrib]
  map_smul' := fun r x => by
    simp only [CVar.gradAt_eq, ← fieldL_apply, map_smul, smul_eq_mul, Finset.mul_sum, mul_assoc, RingHom.id_apply]

/-- A value as a linear map. -/
noncomputable def valueF (vu vT : CVar 2) (v : CVar 2) (i e q c : Nat) : Dofs vu vT →ₗ[ℝ] ℝ where
  toFun := fun x => v.valueAt (field x i) e q c
  map_add' := fun x y => by
    simp only [CVar.valueAt, ← fieldL_apply, map_add, mul_add, Finset.sum_add_distrib]
  map_smul' := fun r x => by
    simp only [CVar.valueAt, ← fieldL_apply, map_smul, smul_eq_mul, Finset.mul_sum, RingHom.id_apply]
    exact Finset.sum_congr rfl fun a _ => by ring

theorem gradF_apply (v : CVar 2) (x : Dofs vu vT) (i e q c : Nat) (j : Fin 2) :
    gradF vu vT v i e q c j x = v.gradAt (field x i) e q c j := rfl

theorem valueF_apply (v : CVar 2) (x : Dofs vu vT) (i e q c : Nat) :
    valueF vu vT v i e q c x = v.valueAt (field x i) e q c := rfl

/-- The form of the coupled problem as a bilinear map. -/
noncomputable def formB (m : Material) (vu vT : CVar 2) : Dofs vu vT →ₗ[ℝ] Dofs vu vT →ₗ[ℝ] ℝ :=
  LinearMap.mk₂ ℝ (form m)
    (fun x y z => by
      have e0 : elasticForm (vu := vu) m (field (x + y) 0) (field z 0)
          = elasticForm (vu := vu) m (field x 0) (field z 0) + elasticForm (vu := vu) m (field y 0) (field z 0) := by
        simp only [elasticForm, thermalLoad, heatForm, CVar.integral, strain, CVar.divAt, ← gradF_apply, ← valueF_apply,
          map_add, ← Finset.sum_add_distrib, Fin.sum_univ_two]
        exact Finset.sum_congr rfl fun e _ => Finset.sum_congr rfl fun q _ => by ring
      have e1 : thermalLoad vu vT m (field (x + y) 1) (field z 0)
          = thermalLoad vu vT m (field x 1) (field z 0) + thermalLoad vu vT m (field y 1) (field z 0) := by
        simp only [elasticForm, thermalLoad, heatForm, CVar.integral, strain, CVar.divAt, ← gradF_apply, ← valueF_apply,
          map_add, ← Finset.sum_add_distrib, Fin.sum_univ_two]
        exact Finset.sum_congr rfl fun e _ => Finset.sum_congr rfl fun q _ => by ring
      have e2 : heatForm (vT := vT) m (field (x + y) 1) (field z 1)
          = heatForm (vT := vT) m (field x 1) (field z 1) + heatForm (vT := vT) m (field y 1) (field z 1) := by
        simp only [elasticForm, thermalLoad, heatForm, CVar.integral, strain, CVar.divAt, ← gradF_apply, ← valueF_apply,
          map_add, ← Finset.sum_add_distrib, Fin.sum_univ_two]
        exact Finset.sum_congr rfl fun e _ => Finset.sum_congr rfl fun q _ => by ring
      rw [form, form, form, e0, e1, e2]
      ring)
    (fun a x z => by
      simp only [form, elasticForm, thermalLoad, heatForm, CVar.integral, strain, CVar.divAt, ← gradF_apply,
        ← valueF_apply, map_smul, smul_eq_mul, mul_add, mul_sub, Finset.mul_sum, Fin.sum_univ_two]
      congr 1
      · congr 1
        · exact Finset.sum_congr rfl fun e _ => Finset.sum_congr rfl fun q _ => by ring
        · exact Finset.sum_congr rfl fun e _ => Finset.sum_congr rfl fun q _ => by ring
      · exact Finset.sum_congr rfl fun e _ => Finset.sum_congr rfl fun q _ => by ring)
    (fun x y z => by
      have e0 : elasticForm (vu := vu) m (field x 0) (field (y + z) 0)
          = elasticForm (vu := vu) m (field x 0) (field y 0) + elasticForm (vu := vu) m (field x 0) (field z 0) := by
        simp only [elasticForm, thermalLoad, heatForm, CVar.integral, strain, CVar.divAt, ← gradF_apply, ← valueF_apply,
          map_add, ← Finset.sum_add_distrib, Fin.sum_univ_two]
        exact Finset.sum_congr rfl fun e _ => Finset.sum_congr rfl fun q _ => by ring
      have e1 : thermalLoad vu vT m (field x 1) (field (y + z) 0)
          = thermalLoad vu vT m (field x 1) (field y 0) + thermalLoad vu vT m (field x 1) (field z 0) := by
        simp only [elasticForm, thermalLoad, heatForm, CVar.integral, strain, CVar.divAt, ← gradF_apply, ← valueF_apply,
          map_add, ← Finset.sum_add_distrib, Fin.sum_univ_two]
        exact Finset.sum_congr rfl fun e _ => Finset.sum_congr rfl fun q _ => by ring
      have e2 : heatForm (vT := vT) m (field x 1) (field (y + z) 1)
          = heatForm (vT := vT) m (field x 1) (field y 1) + heatForm (vT := vT) m (field x 1) (field z 1) := by
        simp only [elasticForm, thermalLoad, heatForm, CVar.integral, strain, CVar.divAt, ← gradF_apply, ← valueF_apply,
          map_add, ← Finset.sum_add_distrib, Fin.sum_univ_two]
        exact Finset.sum_congr rfl fun e _ => Finset.sum_congr rfl fun q _ => by ring
      rw [form, form, form, e0, e1, e2]
      ring)
    (fun a x z => by
      simp only [form, elasticForm, thermalLoad, heatForm, CVar.integral, strain, CVar.divAt, ← gradF_apply,
        ← valueF_apply, map_smul, smul_eq_mul, mul_add, mul_sub, Finset.mul_sum, Fin.sum_univ_two]
      congr 1
      · congr 1
        · exact Finset.sum_congr rfl fun e _ => Finset.sum_congr rfl fun q _ => by ring
        · exact Finset.sum_congr rfl fun e _ => Finset.sum_congr rfl fun q _ => by ring
      · exact Finset.sum_congr rfl fun e _ => Finset.sum_congr rfl fun q _ => by ring)

theorem formB_apply (x y : Dofs vu vT) : formB m vu vT x y = form m x y := rfl

/-! ### The form depends on the values at the nodes -/

theorem node_lt' {v : CVar 2} (hv : v.WF) {e : Nat} (he : e < v.cells.length) (a : Fin v.nn) :
    v.node e a < v.numTotalNodes := by
  have hmem : v.cells.getD e [] ∈ v.cells := by
    rw [List.getD_eq_getElem _ _ he]; exact List.getElem_mem he
  obtain ⟨h1, h2⟩ := hv _ hmem
  have ha : (a : Nat) < (v.cells.getD e []).length := by rw [h1]; exact a.2
  refine h2 _ ?_
  rw [CVar.node, List.getD_eq_getElem _ _ ha]
  exact List.getElem_mem ha

theorem gradAt_congr {v : CVar 2} (hv : v.WF) {u w : Nat → Nat → ℝ} {c : Nat}
    (h : ∀ a < v.numTotalNodes, u a c = w a c) {e : Nat} (he : e < v.cells.length) (q : Nat) (j : Fin 2) :
    v.gradAt u e q c j = v.gradAt w e q c j := by
  rw [CVar.gradAt_eq, CVar.gradAt_eq]
  exact Finset.sum_congr rfl fun a _ => by rw [h _ (node_lt' hv he a)]

theorem valueAt_congr {v : CVar 2} (hv : v.WF) {u w : Nat → Nat → ℝ} {c : Nat}
    (h : ∀ a < v.numTotalNodes, u a c = w a c) {e : Nat} (he : e < v.cells.length) (q : Nat) :
    v.valueAt u e q c = v.valueAt w e q c :=
  Finset.sum_congr rfl fun a _ => by rw [h _ (node_lt' hv he a)]

theorem elasticForm_congr (hv : vu.WF) {u u' w w' : Nat → Nat → ℝ}
    (hu : ∀ a < vu.numTotalNodes, ∀ c < 2, u a c = u' a c) (hw : ∀ a < vu.numTotalNodes, ∀ c < 2, w a c = w' a c) :
    elasticForm (vu := vu) m u w = elasticForm (vu := vu) m u' w' := by
  refine CVar.integral_congr vu fun e he q hq => ?_
  have h1 : ∀ (c : Fin 2) j, vu.gradAt u e q c j = vu.gradAt u' e q c j := fun c j =>
    gradAt_congr hv (fun a ha => hu a ha c c.2) he q j
  have h2 : ∀ (c : Fin 2) j, vu.gradAt w e q c j = vu.gradAt w' e q c j := fun c j =>
    gradAt_congr hv (fun a ha => hw a ha c c.2) he q j
  have d1 : vu.divAt u e q = vu.divAt u' e q := congrArg₂ (· + ·) (h1 0 0) (h1 1 1)
  have d2 : vu.divAt w e q = vu.divAt w' e q := congrArg₂ (· + ·) (h2 0 0) (h2 1 1)
  rw [d1, d2]
  simp only [strain, h1, h2]

theorem thermalLoad_congr (hw : WFVars [vu, vT]) {T T' w w' : Nat → Nat → ℝ}
    (hT : ∀ a < vT.numTotalNodes, T a 0 = T' a 0) (hw' : ∀ a < vu.numTotalNodes, ∀ c < 2, w a c = w' a c) :
    thermalLoad vu vT m T w = thermalLoad vu vT m T' w' := by
  refine CVar.integral_congr vu fun e he q hq => ?_
  have heT : e < vT.cells.length := by rw [← hw.cells vu (by simp) vT (by simp)]; exact he
  have h2 : ∀ (c : Fin 2) j, vu.gradAt w e q c j = vu.gradAt w' e q c j := fun c j =>
    gradAt_congr (hw.wf vu (by simp)) (fun a ha => hw' a ha c c.2) he q j
  have d2 : vu.divAt w e q = vu.divAt w' e q := congrArg₂ (· + ·) (h2 0 0) (h2 1 1)
  rw [d2, valueAt_congr (hw.wf vT (by simp)) hT heT]

theorem heatForm_congr (hv : vT.WF) {T T' w w' : Nat → Nat → ℝ}
    (hT : ∀ a < vT.numTotalNodes, T a 0 = T' a 0) (hw : ∀ a < vT.numTotalNodes, w a 0 = w' a 0) :
    heatForm (vT := vT) m T w = heatForm (vT := vT) m T' w' := by
  refine CVar.integral_congr vT fun e he q hq => ?_
  have h1 : ∀ j, vT.gradAt T e q 0 j = vT.gradAt T' e q 0 j := fun j => gradAt_congr hv hT he q j
  have h2 : ∀ j, vT.gradAt w e q 0 j = vT.gradAt w' e q 0 j := fun j => gradAt_congr hv hw he q j
  simp only [h1, h2]

/-! ### The residual -/

theorem solList_shapes (x : Dofs vu vT) : HasShapes (solShapes (fes vu vT)) (solList vu vT x) :=
  unravelSol_hasShapes _ _ (by simp [totalDofs_eq])

theorem solList_at (x : Dofs vu vT) {i a c : Nat} (hi : i < (fes vu vT).length) (ha : a < (fes vu vT)[i].numTotalNodes)
    (hc : c < (fes vu vT)[i].vec) : at3 (solList vu vT x) i a c = field x i a c := by
  have hlt : dofNum (fes vu vT) i a c < totalDofs (fes vu vT) :=
    dofNum_lt (fes vu vT) (List.getElem?_eq_getElem hi) ha hc
  rw [← ravelSol_dofNum (fes vu vT) _ (solList_shapes x) hi ha hc, solList,
    ravelSol_unravelSol _ _ (by simp [totalDofs_eq]), field, dif_pos hlt,
    List.getD_eq_getElem _ _ (by simpa using hlt), List.getElem_ofFn]

theorem field_single (k : Fin (totalDofs (fes vu vT))) {i a c i' a' c' : Nat} (hi : i < (fes vu vT).length)
    (ha : a < (fes vu vT)[i].numTotalNodes) (hc : c < (fes vu vT)[i].vec) (hk : (k : Nat) = dofNum (fes vu vT) i a c)
    (hi' : i' < (fes vu vT).length) (ha' : a' < (fes vu vT)[i'].numTotalNodes) (hc' : c' < (fes vu vT)[i'].vec) :
    field (Pi.single k 1 : Dofs vu vT) i' a' c' = if i' = i ∧ a' = a ∧ c' = c then 1 else 0 := by
  have hlt : dofNum (fes vu vT) i' a' c' < totalDofs (fes vu vT) :=
    dofNum_lt (fes vu vT) (List.getElem?_eq_getElem hi') ha' hc'
  rw [field, dif_pos hlt]
  by_cases h : i' = i ∧ a' = a ∧ c' = c
  · obtain ⟨rfl, rfl, rfl⟩ := h
    rw [if_pos ⟨rfl, rfl, rfl⟩]
    have : (⟨_, hlt⟩ : Fin (totalDofs (fes vu vT))) = k := Fin.ext hk.symm
    rw [this, Pi.single_eq_same]
  · rw [if_neg h]
    refine Pi.single_eq_of_ne (fun h' => h ?_) _
    have e : dofNum (fes vu vT) i' a' c' = dofNum (fes vu vT) i a c := by
      rw [← hk]; exact congrArg Fin.val h'
    exact dofNum_inj (fes vu vT) hi' ha' hc' hi ha hc e

theorem tested_single (R : List (List (List ℝ))) (k : Fin (totalDofs (fes vu vT))) {i a c : Nat}
    (hi : i < (fes vu vT).length) (ha : a < (fes vu vT)[i].numTotalNodes) (hc : c < (fes vu vT)[i].vec)
    (hk : (k : Nat) = dofNum (fes vu vT) i a c) :
    tested [vu, vT] R (fun i' => field (Pi.single k 1 : Dofs vu vT) i') = at3 R i a c := by
  have hfe : ∀ i' (h : i' < [vu, vT].length) (h' : i' < (fes vu vT).length),
      (fes vu vT)[i'] = [vu, vT][i'].fe := by
    intro i' h h'
    rcases i' with _ | _ | i'
    · rfl
    · rfl
    · simp [fes] at h'
  have hlen : (fes vu vT).length = [vu, vT].length := rfl
  rw [tested, Finset.sum_eq_single ⟨i, by rw [← hlen]; exact hi⟩, Finset.sum_eq_single a, Finset.sum_eq_single c]
  · rw [field_single k hi ha hc hk hi ha hc, if_pos ⟨rfl, rfl, rfl⟩, one_mul]
  · intro c' hc' hne
    rw [field_single k hi ha hc hk hi ha (by rw [hfe i (by rw [← hlen]; exact hi)]; exact Finset.mem_range.1 hc'),
      if_neg (fun h => hne h.2.2), zero_mul]
  · intro h
    refine absurd ?_ h
    rw [hfe i (by rw [← hlen]; exact hi)] at hc
    exact Finset.mem_range.2 hc
  · intro a' ha' hne
    refine Finset.sum_eq_zero fun c' hc' => ?_
    rw [field_single k hi ha hc hk hi (by rw [hfe i (by rw [← hlen]; exact hi)]; exact Finset.mem_range.1 ha')
      (by rw [hfe i (by rw [← hlen]; exact hi)]; exact Finset.mem_range.1 hc'), if_neg (fun h => hne h.2.1), zero_mul]
  · intro h
    refine absurd ?_ h
    rw [hfe i (by rw [← hlen]; exact hi)] at ha
    exact Finset.mem_range.2 ha
  · intro i' _ hne
    refine Finset.sum_eq_zero fun a' ha' => Finset.sum_eq_zero fun c' hc' => ?_
    have hi' : (i' : Nat) < (fes vu vT).length := by rw [hlen]; exact i'.2
    rw [field_single k hi ha hc hk hi' (by rw [hfe i' i'.2]; exact Finset.mem_range.1 ha')
      (by rw [hfe i' i'.2]; exact Finset.mem_range.1 hc'), if_neg (fun h => hne (Fin.ext h.1)), zero_mul]
  · intro h; exact absurd (Finset.mem_univ _) h

theorem form_solList (hw : WFVars [vu, vT]) (hvu : vu.vec = 2) (hvT : vT.vec = 1) (x y : Dofs vu vT) :
    elasticForm (vu := vu) m (fieldAt (solList vu vT x) 0) (field y 0)
      - thermalLoad vu vT m (fieldAt (solList vu vT x) 1) (field y 0)
      + heatForm (vT := vT) m (fieldAt (solList vu vT x) 1) (field y 1) = form m x y := by
  have h0 : ∀ a < vu.numTotalNodes, ∀ c < 2, fieldAt (solList vu vT x) 0 a c = field x 0 a c := fun a ha c hc =>
    solList_at x (i := 0) (by simp [fes]) ha (by show c < vu.vec; rw [hvu]; exact hc)
  have h1 : ∀ a < vT.numTotalNodes, fieldAt (solList vu vT x) 1 a 0 = field x 1 a 0 := fun a ha =>
    solList_at x (i := 1) (by simp [fes]) ha (by show 0 < vT.vec; rw [hvT]; exact Nat.one_pos)
  rw [form, elasticForm_congr (hw.wf vu (by simp)) h0 (fun _ _ _ _ => rfl),
    thermalLoad_congr hw h1 (fun _ _ _ _ => rfl), heatForm_congr (hw.wf vT (by simp)) h1 (fun _ _ => rfl)]

theorem flatResidual_eq (hw : WFVars [vu, vT]) (hvu : vu.vec = 2) (hvT : vT.vec = 1) (x : Dofs vu vT)
    (k : Fin (totalDofs (fes vu vT))) : flatResidual m vu vT x k = form m x (Pi.single k 1) := by
  obtain ⟨R, r1, r2, r3⟩ := C101_weak_form m vu vT hw hvu hvT (solList vu vT x) (solList_shapes x)
  obtain ⟨i, a, c, hi, ha, hc, hk⟩ := exists_dofNum (fes vu vT) k k.2
  rw [flatResidual, r1]
  dsimp only
  rw [hk, ravelSol_dofNum (fes vu vT) R r2 hi ha hc, ← tested_single R k hi ha hc hk, r3]
  exact form_solList hw hvu hvT x _

/-! ### Parts of a vector -/

/-- The displacements (`true`) or the temperatures of a vector. -/
def part (x : Dofs vu vT) (disp : Bool) : Dofs vu vT := fun k =>
  if decide ((k : Nat) < vu.numTotalNodes * vu.vec) = disp then x k else 0

theorem field_part (x : Dofs vu vT) (disp : Bool) {i a c : Nat} (hi : i < (fes vu vT).length)
    (ha : a < (fes vu vT)[i].numTotalNodes) (hc : c < (fes vu vT)[i].vec) :
    field (part x disp) i a c = if decide (i = 0) = disp then field x i a c else 0 := by
  have hlt : dofNum (fes vu vT) i a c < totalDofs (fes vu vT) :=
    dofNum_lt (fes vu vT) (List.getElem?_eq_getElem hi) ha hc
  have hd : decide (dofNum (fes vu vT) i a c < vu.numTotalNodes * vu.vec) = decide (i = 0) := by
    rcases i with _ | _ | i
    · have ha' : a < vu.numTotalNodes := ha
      have hc' : c < vu.vec := hc
      simp only [decide_true, decide_eq_true_eq]
      have : dofNum (fes vu vT) 0 a c = a * vu.vec + c := by simp [dofNum, fes, CVar.fe]
      rw [this]
      calc a * vu.vec + c < a * vu.vec + vu.vec := by omega
        _ = (a + 1) * vu.vec := by ring
        _ ≤ vu.numTotalNodes * vu.vec := Nat.mul_le_mul_right _ ha'
    · have : dofNum (fes vu vT) 1 a c = vu.numTotalNodes * vu.vec + a * vT.vec + c := by simp [dofNum, fes, CVar.fe]
      show decide (dofNum (fes vu vT) 1 a c < _) = _
      rw [this]
      simp
      omega
    · simp [fes] at hi
  rw [field, dif_pos hlt, part]
  dsimp only
  rw [hd, field, dif_pos hlt]

theorem part_vanishes (hvu : vu.vec = 2) (hvT : vT.vec = 1) {x : Dofs vu vT} (hx : Vanishes bu bT x) (disp : Bool) :
    Vanishes bu bT (part x disp) := by
  refine ⟨fun a ha c hc h => ?_, fun a ha h => ?_⟩
  · rw [field_part x disp (i := 0) (by simp [fes]) ha (by show c < vu.vec; rw [hvu]; exact hc), hx.1 a ha c hc h, ite_self]
  · rw [field_part x disp (i := 1) (by simp [fes]) ha (by show 0 < vT.vec; rw [hvT]; exact Nat.one_pos), hx.2 a ha h,
      ite_self]

section parts

variable (hw : WFVars [vu, vT]) (hvu : vu.vec = 2) (hvT : vT.vec = 1)
include hvu

theorem part_true_0 (x : Dofs vu vT) (a : Nat) (ha : a < vu.numTotalNodes) (c : Nat) (hc : c < 2) :
    field (part x true) 0 a c = field x 0 a c := by
  rw [field_part x true (i := 0) (by simp [fes]) ha (by show c < vu.vec; rw [hvu]; exact hc)]
  simp

theorem part_false_0 (x : Dofs vu vT) (a : Nat) (ha : a < vu.numTotalNodes) (c : Nat) (hc : c < 2) :
    field (part x false) 0 a c = 0 := by
  rw [field_part x false (i := 0) (by simp [fes]) ha (by show c < vu.vec; rw [hvu]; exact hc)]
  simp

omit hvu
include hvT

theorem part_true_1 (x : Dofs vu vT) (a : Nat) (ha : a < vT.numTotalNodes) : field (part x true) 1 a 0 = 0 := by
  rw [field_part x true (i := 1) (by simp [fes]) ha (by show 0 < vT.vec; rw [hvT]; exact Nat.one_pos)]
  simp

theorem part_false_1 (x : Dofs vu vT) (a : Nat) (ha : a < vT.numTotalNodes) :
    field (part x false) 1 a 0 = field x 1 a 0 := by
  rw [field_part x false (i := 1) (by simp [fes]) ha (by show 0 < vT.vec; rw [hvT]; exact Nat.one_pos)]
  simp

end parts

theorem elasticForm_zero (u : Nat → Nat → ℝ) : elasticForm (vu := vu) m u (fun _ _ => 0) = 0 := by
  simp [elasticForm, strain, CVar.divAt, CVar.integral, CVar.gradAt_eq]

theorem thermalLoad_zero (T : Nat → Nat → ℝ) : thermalLoad vu vT m T (fun _ _ => 0) = 0 := by
  simp [thermalLoad, CVar.divAt, CVar.integral, CVar.gradAt_eq]

theorem thermalLoad_zero_left (w : Nat → Nat → ℝ) : thermalLoad vu vT m (fun _ _ => 0) w = 0 := by
  simp [thermalLoad, CVar.integral, CVar.valueAt]

theorem heatForm_zero (T : Nat → Nat → ℝ) : heatForm (vT := vT) m T (fun _ _ => 0) = 0 := by
  simp [heatForm, CVar.integral, CVar.gradAt_eq]

theorem elasticForm_symm (u w : Nat → Nat → ℝ) : elasticForm (vu := vu) m u w = elasticForm (vu := vu) m w u := by
  simp only [elasticForm, mul_comm]

theorem heatForm_symm (u w : Nat → Nat → ℝ) : heatForm (vT := vT) m u w = heatForm (vT := vT) m w u := by
  simp only [heatForm, mul_comm]

theorem form_true (hw : WFVars [vu, vT]) (hvu : vu.vec = 2) (hvT : vT.vec = 1) (x y : Dofs vu vT) :
    form m x (part y true) = elasticForm (vu := vu) m (field x 0) (field y 0)
      - thermalLoad vu vT m (field x 1) (field y 0) := by
  rw [form, elasticForm_congr (hw.wf vu (by simp)) (fun _ _ _ _ => rfl) (part_true_0 hvu y),
    thermalLoad_congr hw (fun _ _ => rfl) (part_true_0 hvu y),
    heatForm_congr (hw.wf vT (by simp)) (fun _ _ => rfl) (w' := fun _ _ => 0) (part_true_1 hvT y), heatForm_zero, add_zero]

theorem form_false (hw : WFVars [vu, vT]) (hvu : vu.vec = 2) (hvT : vT.vec = 1) (x y : Dofs vu vT) :
    form m x (part y false) = heatForm (vT := vT) m (field x 1) (field y 1) := by
  rw [form, elasticForm_congr (hw.wf vu (by simp)) (fun _ _ _ _ => rfl) (w' := fun _ _ => 0) (part_false_0 hvu y),
    thermalLoad_congr hw (fun _ _ => rfl) (w' := fun _ _ => 0) (part_false_0 hvu y),
    heatForm_congr (hw.wf vT (by simp)) (fun _ _ => rfl) (part_false_1 hvT y), elasticForm_zero, thermalLoad_zero]
  ring

theorem form_true_left (hw : WFVars [vu, vT]) (hvu : vu.vec = 2) (hvT : vT.vec = 1) (x y : Dofs vu vT) :
    form m (part x true) y = elasticForm (vu := vu) m (field x 0) (field y 0) := by
  rw [form, elasticForm_congr (hw.wf vu (by simp)) (part_true_0 hvu x) (fun _ _ _ _ => rfl),
    thermalLoad_congr hw (T' := fun _ _ => 0) (part_true_1 hvT x) (fun _ _ _ _ => rfl),
    heatForm_congr (hw.wf vT (by simp)) (T' := fun _ _ => 0) (part_true_1 hvT x) (fun _ _ => rfl), heatForm_symm,
    heatForm_zero, thermalLoad_zero_left]
  ring

/-! ### Definiteness -/

theorem strain_zero (hP : Plate m vu vT bu bT n) (u : Nat → Nat → ℝ) (h : elasticForm (vu := vu) m u u = 0) :
    ∀ e < vu.cells.length, ∀ q < vu.nq, ∀ i j, strain (vu := vu) u e q i j = 0 := by
  have key : ∀ e q, m.lmbda * (vu.divAt u e q * vu.divAt u e q)
      + 2 * m.mu * ∑ i, ∑ j, strain (vu := vu) u e q i j * strain (vu := vu) u e q i j
      = (m.lmbda + m.mu) * (strain (vu := vu) u e q 0 0 + strain (vu := vu) u e q 1 1) ^ 2
        + m.mu * (strain (vu := vu) u e q 0 0 - strain (vu := vu) u e q 1 1) ^ 2
        + 4 * m.mu * strain (vu := vu) u e q 0 1 ^ 2 := by
    intro e q
    simp only [strain, CVar.divAt, Fin.sum_univ_two, Fin.isValue, Fin.val_zero, Fin.val_one]
    ring
  have hmu := hP.mu
  have hb := hP.bulk
  intro e he q hq
  have h0 := CVar.integral_eq_zero vu hP.posU _ (fun e _ q _ => by rw [key]; positivity) h e he q hq
  rw [key] at h0
  have p1 : 0 ≤ (m.lmbda + m.mu) * (strain (vu := vu) u e q 0 0 + strain (vu := vu) u e q 1 1) ^ 2 := by positivity
  have p2 : 0 ≤ m.mu * (strain (vu := vu) u e q 0 0 - strain (vu := vu) u e q 1 1) ^ 2 := by positivity
  have p3 : 0 ≤ 4 * m.mu * strain (vu := vu) u e q 0 1 ^ 2 := by positivity
  have z1 : (m.lmbda + m.mu) * (strain (vu := vu) u e q 0 0 + strain (vu := vu) u e q 1 1) ^ 2 = 0 := by linarith
  have z2 : m.mu * (strain (vu := vu) u e q 0 0 - strain (vu := vu) u e q 1 1) ^ 2 = 0 := by linarith
  have z3 : 4 * m.mu * strain (vu := vu) u e q 0 1 ^ 2 = 0 := by linarith
  have y1 := pow_eq_zero_iff (two_ne_zero) |>.1 ((mul_eq_zero.1 z1).resolve_left hb.ne')
  have y2 := pow_eq_zero_iff (two_ne_zero) |>.1 ((mul_eq_zero.1 z2).resolve_left hmu.ne')
  have y3 := pow_eq_zero_iff (two_ne_zero) |>.1 ((mul_eq_zero.1 z3).resolve_left (by positivity))
  have y4 : strain (vu := vu) u e q 1 0 = 0 := by rw [← y3, strain, strain, add_comm]
  intro i j
  fin_cases i <;> fin_cases j
  · show strain (vu := vu) u e q 0 0 = 0
    linarith
  · exact y3
  · exact y4
  · show strain (vu := vu) u e q 1 1 = 0
    linarith

theorem elastic_zero (hP : Plate m vu vT bu bT n) {x : Dofs vu vT} (hx : Vanishes bu bT x)
    (h : elasticForm (vu := vu) m (field x 0) (field x 0) = 0) :
    ∀ a < vu.numTotalNodes, ∀ c < 2, field x 0 a c = 0 :=
  hP.held x hx (strain_zero hP _ h)

theorem heat_zero (hP : Plate m vu vT bu bT n) {x : Dofs vu vT} (hx : Vanishes bu bT x)
    (h : heatForm (vT := vT) m (field x 1) (field x 1) = 0) : ∀ a < vT.numTotalNodes, field x 1 a 0 = 0 := by
  refine hP.cooled x hx fun e he q hq j => ?_
  have hk := hP.k
  have h0 := CVar.integral_eq_zero vT hP.posT _ (fun e _ q _ => mul_nonneg hk.le
    (Finset.sum_nonneg fun j _ => mul_self_nonneg _)) h e he q hq
  have h1 := (mul_eq_zero.1 h0).resolve_left hk.ne'
  exact mul_self_eq_zero.1 ((Finset.sum_eq_zero_iff_of_nonneg fun j _ => mul_self_nonneg _).1 h1 j (Finset.mem_univ j))

theorem zero_of_fields (hP : Plate m vu vT bu bT n) (x : Dofs vu vT)
    (h0 : ∀ a < vu.numTotalNodes, ∀ c < 2, field x 0 a c = 0) (h1 : ∀ a < vT.numTotalNodes, field x 1 a 0 = 0) :
    x = 0 := by
  funext k
  obtain ⟨i, a, c, hi, ha, hc, hk⟩ := exists_dofNum (fes vu vT) k k.2
  rw [← field_dof x k i a c hk]
  rcases i with _ | _ | i
  · exact h0 a ha c (by rw [← hP.vecU]; exact hc)
  · have hc0 : c = 0 := by
      have : c < vT.vec := hc
      rw [hP.vecT] at this
      omega
    subst hc0
    exact h1 a ha
  · simp [fes] at hi

theorem form_definite (hP : Plate m vu vT bu bT n) (x : Dofs vu vT) (hx : Vanishes bu bT x)
    (h : ∀ y, Vanishes bu bT y → form m x y = 0) : x = 0 := by
  have h1 := heat_zero hP hx ((form_false hP.wf hP.vecU hP.vecT x x).symm.trans
    (h _ (part_vanishes hP.vecU hP.vecT hx false)))
  refine zero_of_fields hP x (elastic_zero hP hx ?_) h1
  have h2 := (form_true hP.wf hP.vecU hP.vecT x x).symm.trans (h _ (part_vanishes hP.vecU hP.vecT hx true))
  rw [thermalLoad_congr hP.wf (T' := fun _ _ => 0) h1 (fun _ _ _ _ => rfl), thermalLoad_zero_left, sub_zero] at h2
  exact h2

theorem form_definite_flip (hP : Plate m vu vT bu bT n) (x : Dofs vu vT) (hx : Vanishes bu bT x)
    (h : ∀ y, Vanishes bu bT y → form m y x = 0) : x = 0 := by
  have h0 := elastic_zero hP hx ((form_true_left hP.wf hP.vecU hP.vecT x x).symm.trans
    (h _ (part_vanishes hP.vecU hP.vecT hx true)))
  refine zero_of_fields hP x h0 (heat_zero hP hx ?_)
  have h2 := h x hx
  rw [form, elasticForm_congr (hP.wf.wf vu (by simp)) (w' := fun _ _ => 0) (fun _ _ _ _ => rfl) h0,
    thermalLoad_congr hP.wf (w' := fun _ _ => 0) (fun _ _ => rfl) h0, elasticForm_zero, thermalLoad_zero] at h2
  linarith

end JaxFem.Control
