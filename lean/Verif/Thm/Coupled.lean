import Verif.Spec.Coupled
import Verif.Thm.Kernel

/-!
# Helper lemmas for problems with several variables
-/

namespace JaxFem

variable {dim : Nat} {IV : Type}

/-! ### Packing -/

theorem cumsum_getD (ns : List Nat) (acc i : Nat) (hi : i ≤ ns.length) :
    (ns.scanl (· + ·) acc).getD i 0 = acc + (ns.take i).sum := by
  induction ns generalizing acc i with
  | nil =>
    have : i = 0 := by simpa using hi
    subst this
    simp
  | cons n ns ih =>
    cases i with
    | zero => simp
    | succ i =>
      rw [List.scanl_cons, List.getD_cons_succ, ih _ _ (by simpa using hi)]
      simp [Nat.add_assoc]

theorem slice_flatMap {α β : Type} (l : List α) (f : α → List β) (len : α → Nat)
    (h : ∀ a ∈ l, (f a).length = len a) (i : Nat) (hi : i < l.length) :
    slice (l.flatMap f) (((l.take i).map len).sum) (((l.take (i + 1)).map len).sum) = f l[i] := by
  induction l generalizing i with
  | nil => simp at hi
  | cons a l ih =>
    have ha := h a (by simp)
    cases i with
    | zero =>
      simp only [slice, List.flatMap_cons, List.take_zero, List.map_nil, List.sum_nil, Nat.zero_add,
        List.take_succ_cons, List.map_cons, List.sum_cons, List.drop_zero, List.getElem_cons_zero,
        Nat.add_zero]
      rw [List.take_append_of_le_length (by omega), List.take_of_length_le (by omega)]
    | succ i =>
      have := ih (fun b hb => h b (by simp [hb])) i (by simpa using hi)
      simp only [slice, List.flatMap_cons, List.take_succ_cons, List.map_cons, List.sum_cons,
        List.getElem_cons_succ] at this ⊢
      rw [List.take_append, List.drop_append, ha]
      have e1 : (f a).take (len a + (List.map len (List.take (i + 1) l)).sum) = f a :=
        List.take_of_length_le (by omega)
      rw [e1, ha, List.drop_of_length_le (by omega), List.nil_append]
      simpa using this

theorem sliceVar_flatMap {β : Type} (vars : List (CVar dim)) (f : CVar dim → List β)
    (h : ∀ v ∈ vars, (f v).length = v.nn) (i : Nat) (hi : i < vars.length) :
    sliceVar (numNodesCumsum vars) i (vars.flatMap f) = f vars[i] := by
  rw [sliceVar, numNodesCumsum, cumsum_getD _ _ _ (by simpa using hi.le),
    cumsum_getD _ _ _ (by simpa using hi), Nat.zero_add, Nat.zero_add, ← List.map_take, ← List.map_take]
  exact slice_flatMap vars f CVar.nn h i hi

/-- The packed arrays of cell `e`. -/
noncomputable def packedCell (vars : List (CVar dim)) (nq : Nat) (x : Nat → Fin dim → ℝ) (e : Nat) :
    PackedCell dim :=
  { numQuads := nq
    quadPoints := x
    shapeGrads := fun q => vars.flatMap fun v => v.shapeGrads e q
    JxW := vars.map fun v => v.jxw e
    vGradsJxW := fun q => vars.flatMap fun v => v.vGradsJxW e q }

theorem packedCell_grads (vars : List (CVar dim)) (nq : Nat) (x) (e q i : Nat) (hi : i < vars.length) :
    sliceVar (numNodesCumsum vars) i ((packedCell vars nq x e).shapeGrads q) = vars[i].shapeGrads e q :=
  sliceVar_flatMap vars _ (fun v _ => by simp [CVar.shapeGrads]) i hi

theorem packedCell_vgrads (vars : List (CVar dim)) (nq : Nat) (x) (e q i : Nat) (hi : i < vars.length) :
    sliceVar (numNodesCumsum vars) i ((packedCell vars nq x e).vGradsJxW q) = vars[i].vGradsJxW e q :=
  sliceVar_flatMap vars _ (fun v _ => by simp [CVar.vGradsJxW, CVar.shapeGrads]) i hi

theorem packedCell_jxw (vars : List (CVar dim)) (nq : Nat) (x) (e i : Nat) (hi : i < vars.length) :
    (packedCell vars nq x e).JxW.getD i 0 = vars[i].jxw e := by
  rw [List.getD_eq_getElem _ _ (by simpa [packedCell] using hi)]
  simp [packedCell]

theorem pack_ok (vars : List (CVar dim)) (h : WFVars vars) (h0 : 0 < vars.length) :
    pack vars [] = .ok
      ⟨(List.range vars[0].cells.length).map fun e => packedCell vars vars[0].nq (vars[0].quadPoint e) e,
        []⟩ := by
  cases vars with
  | nil => simp at h0
  | cons v0 vars =>
    rw [pack, if_pos, if_pos (by simp)]
    · rfl
    · rw [List.all_eq_true]
      intro v hv
      simp [h.cells v hv v0 (by simp), h.quads v hv v0 (by simp)]

/-! ### Entries of the operators -/

namespace CVar

variable (v : CVar dim)

theorem shapeGrads_getD (e q : Nat) (a : Fin v.nn) :
    (v.shapeGrads e q).getD a 0 = shapeGradsPhysical (v.coos e) (v.gref q) a := by
  rw [shapeGrads, List.getD_eq_getElem _ _ (by simp)]
  simp

theorem vGradsJxW_getD (e q : Nat) (a : Fin v.nn) (j : Fin dim) :
    (v.vGradsJxW e q).getD a 0 j = shapeGradsPhysical (v.coos e) (v.gref q) a j * v.jxw e q := by
  rw [vGradsJxW, List.getD_eq_getElem _ _ (by simp [shapeGrads]), List.getElem_map]
  congr 1
  have := congrFun (v.shapeGrads_getD e q a) j
  rw [List.getD_eq_getElem _ _ (by simp [shapeGrads])] at this
  exact this

theorem jac_eq (e q : Nat) : jacobianDxDeta (v.coos e) (v.gref q) = (v.X e).transpose * v.G q := by
  ext i j
  simp [jacobianDxDeta, Matrix.mul_apply, X, G, coos, gref, physicalCoos, node]

theorem jxw_eq (e q : Nat) : v.jxw e q = v.measure e q := by
  rw [jxw, cellJxW, jac_eq, measure]

theorem gradAt_eq (u : Nat → Nat → ℝ) (e q c : Nat) (j : Fin dim) :
    v.gradAt u e q c j
      = ∑ a : Fin v.nn, u (v.node e a) c * shapeGradsPhysical (v.coos e) (v.gref q) a j := by
  rw [gradAt, Matrix.vecMul, dotProduct]
  refine Finset.sum_congr rfl fun a _ => ?_
  rw [shapeGradsPhysical, jac_eq, Matrix.mul_apply]
  rfl

end CVar

theorem gather_at2 (v : CVar dim) (hv : v.WF) (sol : List (List ℝ)) (e : Nat) (he : e < v.cells.length)
    (a : Nat) (ha : a < v.nn) (c : Nat) :
    at2 (gatherVar sol (v.cells.getD e [])) a c = (sol.getD (v.node e a) []).getD c 0 := by
  have hl : (v.cells.getD e []).length = v.nn := by
    rw [List.getD_eq_getElem _ _ he]; exact (hv _ (List.getElem_mem he)).1
  rw [at2]
  congr 1
  rw [gatherVar, CVar.node, List.getD_eq_getElem _ _ (by simpa using hl ▸ ha), List.getElem_map,
    List.getD_eq_getElem (v.cells.getD e []) _ (by omega)]

theorem gradOp_gather (v : CVar dim) (hv : v.WF) (sol : List (List ℝ)) (e : Nat)
    (he : e < v.cells.length) (g : Nat → List (Fin dim → ℝ)) (q c : Nat) (hg : g q = v.shapeGrads e q)
    (j : Fin dim) :
    gradOp v.nn (gatherVar sol (v.cells.getD e [])) g q c j
      = v.gradAt (fun n c => (sol.getD n []).getD c 0) e q c j := by
  rw [gradOp, v.gradAt_eq, Finset.sum_range]
  refine Finset.sum_congr rfl fun a _ => ?_
  rw [gather_at2 v hv sol e he a a.2, hg, v.shapeGrads_getD]

theorem valOp_gather (v : CVar dim) (hv : v.WF) (sol : List (List ℝ)) (e : Nat)
    (he : e < v.cells.length) (q c : Nat) :
    valOp v.nn (gatherVar sol (v.cells.getD e [])) v.shapeVals q c
      = v.valueAt (fun n c => (sol.getD n []).getD c 0) e q c := by
  rw [valOp, CVar.valueAt, Finset.sum_range]
  exact Finset.sum_congr rfl fun a _ => by rw [gather_at2 v hv sol e he a a.2, mul_comm]

theorem fluxOp_eq (v : CVar dim) (e nq : Nat) (flux : Nat → Nat → Fin dim → ℝ)
    (vg : Nat → List (Fin dim → ℝ)) (hvg : ∀ q, vg q = v.vGradsJxW e q) (a : Fin v.nn) (c : Nat) :
    fluxOp nq flux vg a c = ∑ q ∈ Finset.range nq,
      (∑ j, flux q c j * shapeGradsPhysical (v.coos e) (v.gref q) a j) * v.measure e q := by
  rw [fluxOp]
  refine Finset.sum_congr rfl fun q _ => ?_
  rw [Finset.sum_mul]
  refine Finset.sum_congr rfl fun j _ => ?_
  rw [hvg, v.vGradsJxW_getD, v.jxw_eq]
  ring

/-! ### Shapes -/

theorem mk2_length (n k : Nat) (f : Nat → Nat → ℝ) : (mk2 n k f).length = n := by simp [mk2]

theorem mk2_row (n k : Nat) (f : Nat → Nat → ℝ) : ∀ r ∈ mk2 n k f, r.length = k := by
  intro r hr
  obtain ⟨a, -, rfl⟩ := List.mem_map.1 hr
  simp

theorem at2_mk2 (n k : Nat) (f : Nat → Nat → ℝ) (a c : Nat) (ha : a < n) (hc : c < k) :
    at2 (mk2 n k f) a c = f a c := by
  have e1 : (mk2 n k f).getD a [] = (List.range k).map fun c => f a c := by
    rw [mk2, List.getD_eq_getElem _ _ (by simpa using ha), List.getElem_map, List.getElem_range]
  rw [at2, e1, List.getD_eq_getElem _ _ (by simpa using hc), List.getElem_map, List.getElem_range]

/-! ### The weak form of a kernel in divergence form -/

theorem WFVars.mesh {vars : List (CVar dim)} (h : WFVars vars) : WFMesh (vars.map CVar.fe) := by
  intro fe hfe
  obtain ⟨v, hv, rfl⟩ := List.mem_map.1 hfe
  refine ⟨?_, fun cell hc => h.wf v hv cell hc⟩
  cases vars with
  | nil => simp at hv
  | cons v0 vars => exact h.cells v hv v0 (by simp)

theorem numCells_map (v0 : CVar dim) (vars : List (CVar dim)) :
    numCells ((v0 :: vars).map CVar.fe) = v0.cells.length := rfl

theorem coupled_local (vars : List (CVar dim)) (h : WFVars vars) (sols : List (List (List ℝ)))
    (hs : HasShapes (solShapes (vars.map CVar.fe)) sols) (e : Nat)
    (he : e < numCells (vars.map CVar.fe)) (i : Nat) (hi : i < vars.length) :
    (unravelSol (cellShapes (vars.map CVar.fe)) (cellSolFlat (vars.map CVar.fe) sols e)).getD i []
      = gatherVar (sols.getD i []) (vars[i].cells.getD e []) := by
  rw [cellSolFlat, unravelSol_ravelSol (cellSolFlat_hasShapes _ h.mesh sols hs e he)]
  have hl : sols.length = vars.length := by simpa [solShapes] using hs.length_eq
  rw [List.getD_eq_getElem _ _ (by simp [cellNodes, hl, hi]), List.getElem_zipWith,
    List.getD_eq_getElem _ _ (by omega)]
  simp [cellNodes, CVar.fe]

/-- Weak form of a kernel whose result is `Σ_q (flux · ∇N + src N) JxW`. -/
theorem coupled_weak_form (vars : List (CVar dim)) (h : WFVars vars) (h0 : 0 < vars.length)
    (kernel : List ℝ → PackedCell dim → IV → List ℝ)
    (ivs : List IV) (hiv : ivs.length = vars[0].cells.length)
    (sols : List (List (List ℝ))) (hs : HasShapes (solShapes (vars.map CVar.fe)) sols)
    (flux : Nat → Nat → Nat → Nat → Fin dim → ℝ) (src : Nat → Nat → Nat → Nat → ℝ)
    (hlen : ∀ x d iv, (kernel x d iv).length = localSize (vars.map CVar.fe))
    (hker : ∀ e (he : e < ivs.length), ∃ S, HasShapes (cellShapes (vars.map CVar.fe)) S ∧
      kernel (cellSolFlat (vars.map CVar.fe) sols e)
        (packedCell vars vars[0].nq (vars[0].quadPoint e) e) ivs[e] = ravelSol S ∧
      ∀ i (hi : i < vars.length), ∀ a : Fin vars[i].nn, ∀ c < vars[i].vec,
        at2 (S.getD i []) a c = ∑ q ∈ Finset.range vars[0].nq,
          ((∑ j, flux i e q c j * shapeGradsPhysical (vars[i].coos e) (vars[i].gref q) a j)
            + src i e q c * vars[i].shapeVals q a) * vars[i].measure e q) :
    ∃ R, coupledResidual vars kernel ivs sols = .ok R ∧
      HasShapes (solShapes (vars.map CVar.fe)) R ∧
      ∀ w : Nat → Nat → Nat → ℝ, tested vars R w
        = ∑ i : Fin vars.length, ∑ e ∈ Finset.range vars[0].cells.length,
          ∑ q ∈ Finset.range vars[0].nq, (∑ c ∈ Finset.range vars[i].vec,
            ((∑ j, flux i e q c j * vars[i].gradAt (w i) e q c j)
              + src i e q c * vars[i].valueAt (w i) e q c)) * vars[i].measure e q := by
  have hnc : numCells (vars.map CVar.fe) = vars[0].cells.length := by
    cases vars with
    | nil => simp at h0
    | cons v0 vars => rfl
  set fes := vars.map CVar.fe with hfes
  set data : List (PackedCell dim × IV) := ((List.range vars[0].cells.length).map fun e =>
    packedCell vars vars[0].nq (vars[0].quadPoint e) e).zip ivs with hdata
  have hdl : data.length = numCells fes := by simp [hdata, hiv, hnc]
  have wf : WFArgs (K := ℝ) (β := List ℝ) (F := Unit) fes [] data [] [] :=
    { mesh := h.mesh
      cells := by rw [hnc]; exact h.pos _ (List.getElem_mem h0)
      boundary := by intro b hb; simp at hb
      data := hdl
      kernels := rfl
      faces := rfl
      face := by intro j hj; simp at hj }
  have hk : KernelOk fes (cellTerms (fun x (d : PackedCell dim × IV) => kernel x d.1 d.2) data
      ++ faceTerms (F := Unit) [] [] []) := by
    intro t ht s _
    simp only [faceTerms, List.append_nil] at ht
    obtain ⟨j, hj, rfl⟩ := List.mem_iff_getElem.1 ht
    simp only [cellTerms, List.getElem_mapIdx]
    exact hlen _ _ _
  obtain ⟨R, r1, r2, r3⟩ := C03_residual_sum fes [] _ data [] [] wf hk sols hs
    (cellSolFlat fes sols) (fun e he => isLocal_cellSolFlat fes h.mesh sols hs e he)
  refine ⟨R, ?_, r2, fun w => ?_⟩
  · rw [coupledResidual, pack_ok vars h h0]
    exact r1
  · simp only [faceTerms, List.append_nil] at r3
    rw [tested]
    refine Finset.sum_congr rfl fun i _ => ?_
    have hi : (i : Nat) < fes.length := by simp [hfes]
    have hfi : fes[(i : Nat)] = vars[i].fe := by simp [hfes]
    rw [Finset.sum_comm]
    have step : ∀ c ∈ Finset.range vars[i].vec,
        ∑ n ∈ Finset.range vars[i].numTotalNodes, w i n c * at3 R i n c
          = ∑ e ∈ Finset.range vars[0].cells.length, ∑ q ∈ Finset.range vars[0].nq,
            ((∑ j, flux i e q c j * vars[i].gradAt (w i) e q c j)
              + src i e q c * vars[i].valueAt (w i) e q c) * vars[i].measure e q := by
      intro c hc
      have hc' : c < vars[i].vec := Finset.mem_range.1 hc
      have key := weighted_nodalSum fes h.mesh
        ((cellTerms (fun x (d : PackedCell dim × IV) => kernel x d.1 d.2) data).map
          fun t => (t.1, t.2 (cellSolFlat fes sols t.1)))
        (by
          intro t ht
          obtain ⟨t0, h0', rfl⟩ := List.mem_map.1 ht
          rw [← hdl]
          exact cellTerms_cell_lt _ _ _ h0') i c hi (fun n => w i n c)
      rw [hfi] at key
      have e1 : vars[i].fe.numTotalNodes = vars[i].numTotalNodes := rfl
      have e2 : vars[i].fe.numNodes = vars[i].nn := rfl
      rw [e1, e2] at key
      have e3 : ∑ n ∈ Finset.range vars[i].numTotalNodes, w i n c * at3 R i n c
          = ∑ n ∈ Finset.range vars[i].numTotalNodes, w i n c * nodalSum fes
            ((cellTerms (fun x (d : PackedCell dim × IV) => kernel x d.1 d.2) data).map
              fun t => (t.1, t.2 (cellSolFlat fes sols t.1))) i n c :=
        Finset.sum_congr rfl fun n _ => by
          rw [r3 i hi n c (by rw [hfi]; exact hc')]
      rw [e3, key, List.map_map]
      have e4 : (List.map ((fun t : Nat × List ℝ => ∑ a ∈ Finset.range vars[i].nn,
            w i (nodeOf fes i t.1 a) c * t.2.getD (localPos fes i a c) 0) ∘
            fun t : Nat × (List ℝ → List ℝ) => (t.1, t.2 (cellSolFlat fes sols t.1)))
          (cellTerms (fun x (d : PackedCell dim × IV) => kernel x d.1 d.2) data))
          = (List.range vars[0].cells.length).map fun e => ∑ q ∈ Finset.range vars[0].nq,
            ((∑ j, flux i e q c j * vars[i].gradAt (w i) e q c j)
              + src i e q c * vars[i].valueAt (w i) e q c) * vars[i].measure e q := by
        refine List.ext_getElem (by simp [cellTerms, hdata, hiv]) fun e h1 h2 => ?_
        have he : e < vars[0].cells.length := by simpa using h2
        have he' : e < ivs.length := by omega
        obtain ⟨S, hS, hk1, hk2⟩ := hker e he'
        have hde : data[e]'(by rw [hdl, hnc]; exact he)
            = (packedCell vars vars[0].nq (vars[0].quadPoint e) e, ivs[e]) := by
          simp [hdata]
        have ht : (cellTerms (fun x (d : PackedCell dim × IV) => kernel x d.1 d.2) data)[e]'(by
            simpa [cellTerms] using h1) = (e, fun x => kernel x
              (packedCell vars vars[0].nq (vars[0].quadPoint e) e) ivs[e]) := by
          simp only [cellTerms, List.getElem_mapIdx, hde]
        rw [List.getElem_map, ht, List.getElem_map, List.getElem_range]
        simp only [Function.comp]
        rw [hk1, Finset.sum_range]
        have entry : ∀ a : Fin vars[i].nn, (ravelSol S).getD (localPos fes i a c) 0
            = ∑ q ∈ Finset.range vars[0].nq,
              ((∑ j, flux i e q c j * shapeGradsPhysical (vars[i].coos e) (vars[i].gref q) a j)
                + src i e q c * vars[i].shapeVals q a) * vars[i].measure e q := by
          intro a
          rw [localPos_eq fes i a c hi]
          have hsh := cellShapes_getD fes i hi
          have := ravelSol_getD hS i a c 0 (by simpa [cellShapes] using hi)
            (by rw [hsh, hfi]; exact a.2) (by rw [hsh, hfi]; exact hc')
          rw [hsh] at this
          rw [this]
          exact hk2 i i.2 a c hc'
        have hnode : ∀ a : Nat, nodeOf fes i e a = vars[i].node e a := by
          intro a
          rw [nodeOf_eq fes i e a hi, hfi]
          rfl
        simp only [entry, hnode, Finset.mul_sum]
        rw [Finset.sum_comm]
        refine Finset.sum_congr rfl fun q _ => ?_
        simp only [vars[i].gradAt_eq, CVar.valueAt, Finset.mul_sum]
        rw [Finset.sum_comm, ← Finset.sum_add_distrib, Finset.sum_mul]
        refine Finset.sum_congr rfl fun a _ => ?_
        have e6 : ∑ j, flux i e q c j * (w i (vars[i].node e a) c *
            shapeGradsPhysical (vars[i].coos e) (vars[i].gref q) a j)
            = w i (vars[i].node e a) c * ∑ j, flux i e q c j *
              shapeGradsPhysical (vars[i].coos e) (vars[i].gref q) a j := by
          rw [Finset.mul_sum]
          exact Finset.sum_congr rfl fun j _ => by ring
        rw [e6]
        ring
      rw [e4, list_sum_range]
    rw [Finset.sum_congr rfl step, Finset.sum_comm]
    refine Finset.sum_congr rfl fun e _ => ?_
    rw [Finset.sum_comm]
    refine Finset.sum_congr rfl fun q _ => ?_
    rw [Finset.sum_mul]

end JaxFem
