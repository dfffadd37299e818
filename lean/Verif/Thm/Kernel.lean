import Verif.Thm.FlatAssembly
import Verif.Spec.WeakForm

/-! Helper lemmas about the element kernels. -/

namespace JaxFem

variable {K : Type} [Field K] {IV : Type} {nq nfq nn vec dim : Nat}

theorem jacobian_eq (X : Fin nn → Fin dim → K) (g : Fin nn → Fin dim → K) :
    jacobianDxDeta X g = mapJacobian (Matrix.of X) (Matrix.of g) := by
  ext i j
  simp [jacobianDxDeta, mapJacobian, Matrix.mul_apply]

theorem physicalCoos_eq (points : List (Fin dim → K)) (cell : List Nat) :
    Matrix.of (physicalCoos nn points cell) = coords nn points cell := by
  ext a i
  simp [physicalCoos, coords]

theorem grads_sum_zero (X : Fin nn → Fin dim → K) (g : Fin nn → Fin dim → K)
    (hg : GradSumsToZero g) (j : Fin dim) : ∑ a, shapeGradsPhysical X g a j = 0 := by
  simp only [shapeGradsPhysical]
  rw [Finset.sum_comm]
  simp_rw [← Finset.sum_mul]
  refine Finset.sum_eq_zero fun k _ => by rw [hg k, zero_mul]

/-- `Σ_a X_a ⊗ ∇N_a = 1`. -/
theorem coords_grads (X : Fin nn → Fin dim → K) (g : Fin nn → Fin dim → K)
    (h : (jacobianDxDeta X g).det ≠ 0) (i j : Fin dim) :
    ∑ a, X a i * shapeGradsPhysical X g a j = if i = j then 1 else 0 := by
  have h1 : jacobianDxDeta X g * (jacobianDxDeta X g)⁻¹ = 1 :=
    Matrix.mul_nonsing_inv _ (Ne.isUnit h)
  have h2 := congrFun (congrFun h1 i) j
  rw [Matrix.mul_apply, Matrix.one_apply] at h2
  rw [← h2]
  simp only [shapeGradsPhysical, jacobianDxDeta, Matrix.of_apply, Finset.mul_sum, Finset.sum_mul]
  rw [Finset.sum_comm]
  refine Finset.sum_congr rfl fun k _ => Finset.sum_congr rfl fun a _ => ?_
  ring

theorem ravel2_length (val : Fin nn → Fin vec → K) : (ravel2 val).length = nn * vec := by
  rw [ravel2, ravelSol_length (sh := [(nn, vec)])]
  · simp [totalSize]
  · refine ⟨_, _, rfl, by simp, fun r hr => ?_, rfl⟩
    rw [List.mem_ofFn] at hr
    obtain ⟨a, rfl⟩ := hr
    simp

theorem ravel2_getD (nt : Nat) (cells : List (List Nat)) (val : Fin nn → Fin vec → K) (a : Fin nn)
    (c : Fin vec) :
    (ravel2 val).getD (localPos [⟨nt, vec, nn, cells⟩] 0 a c) 0 = val a c := by
  have hsh : HasShapes [(nn, vec)] [List.ofFn fun a => List.ofFn fun c => val a c] := by
    refine ⟨_, _, rfl, by simp, fun r hr => ?_, rfl⟩
    rw [List.mem_ofFn] at hr
    obtain ⟨a, rfl⟩ := hr
    simp
  have := ravelSol_getD hsh 0 a c 0 (by simp) a.2 c.2
  rw [localPos_eq _ 0 a c (by simp)]
  have e : cellShapes [⟨nt, vec, nn, cells⟩] = [(nn, vec)] := rfl
  rw [e, ravel2]
  simp only [List.getElem_cons_zero]
  simp only [List.getD_cons_zero] at this
  rw [this]
  simp

theorem isLocal_cellSol {nt : Nat} {cells : List (List Nat)} {sols : List (List (List K))} {e : Nat}
    {x : List K} (h : IsLocal [⟨nt, vec, nn, cells⟩] sols e x) :
    cellSol nn vec x = nodalValues nn vec (sols.getD 0 []) (cells.getD e []) := by
  funext a c
  have h1 := h.2 0 (by simp) a a.2 c c.2
  have hx : x.length = totalSize [(nn, vec)] := by
    rw [h.1]; simp [localSize, totalSize]
  have h2 := unravelSol_getD [(nn, vec)] x hx 0 a c 0 (by simp) a.2 c.2
  rw [localPos_eq _ 0 a c (by simp)] at h1
  have e : cellShapes [⟨nt, vec, nn, cells⟩] = [(nn, vec)] := rfl
  rw [e] at h1
  simp only [List.getElem_cons_zero] at h1
  simp only [List.getD_cons_zero] at h2
  rw [cellSol, h2, h1]
  rfl

/-- Weighted sum of nodal sums over all nodes. -/
theorem weighted_nodalSum (fes : List FE) (hm : WFMesh fes) (T : List (Nat × List K))
    (hT : ∀ t ∈ T, t.1 < numCells fes) (i c : Nat) (hi : i < fes.length) (w : Nat → K) :
    ∑ n ∈ Finset.range fes[i].numTotalNodes, w n * nodalSum fes T i n c
      = (T.map fun t => ∑ a ∈ Finset.range fes[i].numNodes,
          w (nodeOf fes i t.1 a) * t.2.getD (localPos fes i a c) 0).sum := by
  induction T with
  | nil => simp [nodalSum]
  | cons t T ih =>
    have ih' := ih fun t' ht' => hT t' (by simp [ht'])
    rw [List.map_cons, List.sum_cons, ← ih']
    have hlt := hT t (by simp)
    have key : ∑ n ∈ Finset.range fes[i].numTotalNodes, w n *
        (∑ a ∈ Finset.range ((fes.map FE.numNodes).getD i 0),
          if nodeOf fes i t.1 a = n then t.2.getD (localPos fes i a c) 0 else 0)
        = ∑ a ∈ Finset.range fes[i].numNodes,
          w (nodeOf fes i t.1 a) * t.2.getD (localPos fes i a c) 0 := by
      rw [numNodes_getD fes i hi]
      simp_rw [Finset.mul_sum]
      rw [Finset.sum_comm]
      refine Finset.sum_congr rfl fun a ha => ?_
      rw [Finset.sum_eq_single (nodeOf fes i t.1 a)]
      · simp
      · intro n _ hn
        rw [if_neg (Ne.symm hn), mul_zero]
      · intro hn
        refine absurd (Finset.mem_range.2 ?_) hn
        rw [nodeOf_eq fes i t.1 a hi]
        exact node_lt hm hi hlt (Finset.mem_range.1 ha)
    rw [← key, ← Finset.sum_add_distrib]
    refine Finset.sum_congr rfl fun n _ => ?_
    simp only [nodalSum, List.map_cons, List.sum_cons, mul_add]

theorem faceTerms_map {S : Type} {Fc : Type} {D β : Type} (ss : List S) (faces : S → List Fc)
    (pr : Fc → Nat × Nat) (k : S → List K → D → β) (dat : Fc → D) :
    faceTerms (ss.map fun s => (faces s).map pr) (ss.map k) (ss.map fun s => (faces s).map dat)
      = ss.flatMap fun s => (faces s).map fun f => ((pr f).1, fun x => k s x (dat f)) := by
  induction ss with
  | nil => simp [faceTerms]
  | cons s ss ih =>
    rw [List.map_cons, List.map_cons, List.map_cons, faceTerms, ih, List.flatMap_cons]
    congr 1
    refine List.ext_getElem (by simp) fun j h1 h2 => by simp

theorem vadd_getD (a b : List K) (h : a.length = b.length) (k : Nat) :
    (vadd a b).getD k 0 = a.getD k 0 + b.getD k 0 := zipWith_add_getD a b h k

theorem cellKernel_length (el : RefElement K nq nn dim)
    (tensorMap : IV → (Fin vec → Fin dim → K) → Fin vec → Fin dim → K)
    (massMap : Option (IV → (Fin vec → K) → (Fin dim → K) → Fin vec → K))
    (x : List K) (d : CellData K IV nq nn dim) :
    (cellKernel el tensorMap massMap x d).length = nn * vec := by
  cases massMap with
  | none => simp [cellKernel, laplaceKernel, ravel2_length]
  | some m => simp [cellKernel, laplaceKernel, massKernel, vadd, ravel2_length]

namespace Problem1

variable {P : Problem1 IV nq nfq nn vec dim}

theorem WF.mesh (h : P.WF) : WFMesh P.fes := by
  intro fe hfe
  rw [fes, List.mem_singleton] at hfe
  subst hfe
  refine ⟨rfl, fun cell hcell => ?_⟩
  obtain ⟨c, hc, rfl⟩ := List.mem_map.1 hcell
  exact ⟨h.cell_length c hc, h.cell_lt c hc⟩

theorem numCells_fes : numCells P.fes = P.cells.length := by simp [fes, numCells, conn]

/-- The terms of the assembled residual. -/
noncomputable def terms (P : Problem1 IV nq nfq nn vec dim) : List (Nat × (List ℝ → List ℝ)) :=
  cellTerms (cellKernel P.el P.tensorMap P.massMap)
    (P.cells.map fun c => cellData P.el P.points c.nodes c.iv) ++
  P.surfaces.flatMap fun s => s.faces.map fun f => (f.cell, fun x => surfaceKernel s.map x
    (faceData P.fc P.points P.conn (f.cell, f.face) f.iv))

theorem terms_eq : P.terms = cellTerms (cellKernel P.el P.tensorMap P.massMap)
    (P.cells.map fun c => cellData P.el P.points c.nodes c.iv) ++
    faceTerms P.bs (P.surfaces.map fun s => surfaceKernel s.map)
      (P.surfaces.map fun s => s.faces.map fun f =>
        faceData P.fc P.points P.conn (f.cell, f.face) f.iv) := by
  rw [terms, bs, faceTerms_map P.surfaces (fun s => s.faces) (fun f => (f.cell, f.face))
    (fun s => surfaceKernel s.map) (fun f => faceData P.fc P.points P.conn (f.cell, f.face) f.iv)]

theorem WF.args (h : P.WF) : WFArgs P.fes P.bs
    (P.cells.map fun c => cellData P.el P.points c.nodes c.iv)
    (P.surfaces.map fun s => surfaceKernel (nfq := nfq) (nn := nn) s.map)
    (P.surfaces.map fun s => s.faces.map fun f =>
        faceData P.fc P.points P.conn (f.cell, f.face) f.iv) where
  mesh := h.mesh
  cells := by rw [numCells_fes]; exact List.length_pos_iff.2 h.nonempty
  boundary := by
    intro b hb p hp
    obtain ⟨s, hs, rfl⟩ := List.mem_map.1 hb
    obtain ⟨f, hf, rfl⟩ := List.mem_map.1 hp
    rw [numCells_fes]
    exact h.face_lt s hs f hf
  data := by simp [numCells_fes]
  kernels := by simp [bs]
  faces := by simp [bs]
  face := by
    intro j hj
    have hj' : j < P.surfaces.length := by simpa [bs] using hj
    rw [List.getD_eq_getElem _ _ (by simpa using hj')]
    simp [bs]

theorem kernelOk : KernelOk P.fes P.terms := by
  intro t ht s _
  have : localSize P.fes = nn * vec := by simp [localSize, fes]
  rw [this]
  rw [terms] at ht
  rcases List.mem_append.1 ht with h | h
  · obtain ⟨j, hj, rfl⟩ := List.mem_iff_getElem.1 h
    simp [cellTerms, cellKernel_length]
  · obtain ⟨s, _, h⟩ := List.mem_flatMap.1 h
    obtain ⟨f, _, rfl⟩ := List.mem_map.1 h
    simp [surfaceKernel, ravel2_length]

theorem terms_lt (h : P.WF) (t) (ht : t ∈ P.terms) : t.1 < numCells P.fes := by
  rw [terms_eq] at ht
  exact h.args.term_lt t ht

/-- The residual, as sums over cells and faces weighted by a nodal field. -/
theorem weighted_residual (h : P.WF) (sols : List (List (List ℝ)))
    (hs : HasShapes [(P.numTotalNodes, vec)] sols) :
    ∃ R, P.residual sols = .ok R ∧ HasShapes [(P.numTotalNodes, vec)] R ∧
      (∀ n c, c < vec → at3 R 0 n c = nodalSum P.fes (P.terms.map fun t =>
          (t.1, t.2 (cellSolFlat P.fes sols t.1))) 0 n c) ∧
      ∀ (w : Nat → ℝ) (c : Nat), c < vec →
      ∑ n ∈ Finset.range P.numTotalNodes, w n * at3 R 0 n c
        = (P.terms.map fun t => ∑ a ∈ Finset.range nn, w (nodeOf P.fes 0 t.1 a) *
            (t.2 (cellSolFlat P.fes sols t.1)).getD (localPos P.fes 0 a c) 0).sum := by
  have hs' : HasShapes (solShapes P.fes) sols := hs
  obtain ⟨R, r1, r2, r3⟩ := C03_residual_sum P.fes P.bs _ _ _ _ h.args
    (by rw [← terms_eq]; exact kernelOk) sols hs' (cellSolFlat P.fes sols)
    (fun e he => isLocal_cellSolFlat P.fes h.mesh sols hs' e he)
  rw [← terms_eq] at r3
  refine ⟨R, r1, r2, fun n c hc => r3 0 (by simp [fes]) n c hc, fun w c hc => ?_⟩
  have key := weighted_nodalSum P.fes h.mesh
    (P.terms.map fun t => (t.1, t.2 (cellSolFlat P.fes sols t.1)))
    (by intro t ht; obtain ⟨t0, h0, rfl⟩ := List.mem_map.1 ht; exact terms_lt h t0 h0)
    0 c (by simp [fes]) w
  rw [List.map_map] at key
  have h0 : 0 < P.fes.length := by simp [fes]
  have e1 : P.fes[0].numTotalNodes = P.numTotalNodes := rfl
  have e2 : P.fes[0].numNodes = nn := rfl
  rw [e1, e2] at key
  simp only [Function.comp_def] at key
  rw [← key]
  refine Finset.sum_congr rfl fun n _ => ?_
  rw [r3 0 (by simp [fes]) n c hc]

end Problem1

end JaxFem
