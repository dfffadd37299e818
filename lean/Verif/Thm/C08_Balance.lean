import Verif.Thm.Kernel

/-!
# C08, C09, C11: balance laws of the assembled weak form
-/

namespace JaxFem

variable {IV : Type} {nq nfq nn vec dim : Nat}

/-! ### Helper lemmas -/

theorem fold_cellSolFlat {P : Problem1 IV nq nfq nn vec dim} (h : P.WF) (sols : List (List (List ℝ)))
    (hs : HasShapes [(P.numTotalNodes, vec)] sols) (e : Nat) (he : e < P.cells.length) :
    cellSol nn vec (cellSolFlat P.fes sols e)
      = nodalValues nn vec (sols.getD 0 []) (P.conn.getD e []) :=
  isLocal_cellSol (isLocal_cellSolFlat P.fes h.mesh sols hs e
    (by rw [Problem1.numCells_fes]; exact he))

theorem interp_comm (N : Fin nn → ℝ) (U : Fin nn → Fin vec → ℝ) :
    (fun i => ∑ a, U a i * N a) = interp N U := by
  funext i
  simp [interp, mul_comm]

theorem physicalPoint_eq (N : Fin nn → ℝ) (points : List (Fin dim → ℝ)) (cell : List Nat) :
    physicalPoint N (physicalCoos nn points cell) = positionIn N (coords nn points cell) := by
  funext i
  simp [physicalPoint, positionIn, Matrix.vecMul, dotProduct, coords, physicalCoos]

theorem sum_range_fin (n : Nat) (f : Nat → ℝ) (g : Fin n → ℝ) (h : ∀ a : Fin n, f a = g a) :
    ∑ a ∈ Finset.range n, f a = ∑ a, g a := by
  rw [Finset.sum_range]
  exact Finset.sum_congr rfl fun a _ => h a

/-- Entry of the laplace kernel, with the physical gradients of the cell. -/
theorem laplace_entry {P : Problem1 IV nq nfq nn vec dim} (h : P.WF) (sols : List (List (List ℝ)))
    (hs : HasShapes [(P.numTotalNodes, vec)] sols) (e : Nat) (he : e < P.cells.length)
    (a : Fin nn) (c : Fin vec) :
    (laplaceKernel P.tensorMap (cellSolFlat P.fes sols e)
        (cellData P.el P.points P.cells[e].nodes P.cells[e].iv)).getD (localPos P.fes 0 a c) 0
      = ∑ q, ∑ j, P.tensorMap (P.cells[e].iv q) (fun i j => ∑ b,
          nodalValues nn vec (sols.getD 0 []) P.cells[e].nodes b i *
            shapeGradsPhysical (physicalCoos nn P.points P.cells[e].nodes) (P.el.shapeGradsRef q) b j)
          c j * (shapeGradsPhysical (physicalCoos nn P.points P.cells[e].nodes)
            (P.el.shapeGradsRef q) a j *
            cellJxW (physicalCoos nn P.points P.cells[e].nodes) (P.el.shapeGradsRef q)
              (P.el.quadWeights q)) := by
  have e1 : P.conn.getD e [] = P.cells[e].nodes := by
    rw [Problem1.conn, List.getD_eq_getElem _ _ (by simpa using he), List.getElem_map]
  rw [laplaceKernel, Problem1.fes, ravel2_getD]
  have := fold_cellSolFlat h sols hs e he
  rw [Problem1.fes] at this
  simp only [this, cellData, e1]

/-- Sum over the terms of a problem, cells then faces. -/
theorem terms_sum (P : Problem1 IV nq nfq nn vec dim)
    (φ : Nat → (List ℝ → List ℝ) → ℝ) (Φ : CellSpec IV nq → ℝ)
    (Ψ : Surface ℝ IV nfq vec dim → FaceSpec IV nfq → ℝ)
    (h1 : ∀ e (he : e < P.cells.length), φ e (fun x => cellKernel P.el P.tensorMap P.massMap x
      (cellData P.el P.points P.cells[e].nodes P.cells[e].iv)) = Φ P.cells[e])
    (h2 : ∀ s ∈ P.surfaces, ∀ f ∈ s.faces, φ f.cell (fun x => surfaceKernel s.map x
      (faceData P.fc P.points P.conn (f.cell, f.face) f.iv)) = Ψ s f) :
    (P.terms.map fun t => φ t.1 t.2).sum
      = (P.cells.map Φ).sum + (P.surfaces.map fun s => (s.faces.map (Ψ s)).sum).sum := by
  rw [Problem1.terms, List.map_append, List.sum_append]
  congr 1
  · congr 1
    refine List.ext_getElem (by simp [cellTerms]) fun k k1 k2 => ?_
    have hk : k < P.cells.length := by simpa using k2
    simp only [cellTerms, List.getElem_map, List.getElem_mapIdx]
    exact h1 k hk
  · rw [List.map_flatMap]
    have : ∀ ss : List (Surface ℝ IV nfq vec dim), (∀ s ∈ ss, s ∈ P.surfaces) →
        (ss.flatMap fun s => (s.faces.map fun f => (f.cell, fun x => surfaceKernel s.map x
          (faceData P.fc P.points P.conn (f.cell, f.face) f.iv))).map fun t => φ t.1 t.2).sum
        = (ss.map fun s => (s.faces.map (Ψ s)).sum).sum := by
      intro ss
      induction ss with
      | nil => simp
      | cons s ss ih =>
        intro hss
        rw [List.flatMap_cons, List.sum_append, List.map_cons, List.sum_cons,
          ih fun s' hs' => hss s' (by simp [hs'])]
        congr 2
        rw [List.map_map]
        refine List.map_congr_left fun f hf => ?_
        exact h2 s (hss s (by simp)) f hf
    exact this P.surfaces fun s hs => hs

/-! ### Property theorems -/

/-- **C08.** For a problem with a tensor map, optionally a mass map, and surface maps, the residual
summed over all nodes is, for every component, the integral of the mass map values plus the
integral of the surface map values; the tensor map contributes nothing, whatever it is. -/
theorem C08_force_balance (P : Problem1 IV nq nfq nn vec dim) (h : P.WF) (hel : P.el.Unity)
    (hfc : P.fc.Unity) (sols : List (List (List ℝ)))
    (hs : HasShapes [(P.numTotalNodes, vec)] sols) :
    ∃ R, P.residual sols = .ok R ∧ ∀ c : Fin vec,
      ∑ n ∈ Finset.range P.numTotalNodes, at3 R 0 n c
        = (match P.massMap with
            | none => 0
            | some m => P.massIntegral m (sols.getD 0 []) c)
          + P.surfaceIntegral (sols.getD 0 []) c := by
  obtain ⟨R, r1, -, -, r2⟩ := Problem1.weighted_residual h sols hs
  refine ⟨R, r1, fun c => ?_⟩
  have r3 := r2 (fun _ => 1) c c.2
  simp only [one_mul] at r3
  rw [r3]
  have hlap : ∀ e (he : e < P.cells.length), ∑ a ∈ Finset.range nn,
      (laplaceKernel P.tensorMap (cellSolFlat P.fes sols e)
        (cellData P.el P.points P.cells[e].nodes P.cells[e].iv)).getD (localPos P.fes 0 a c) 0
      = 0 := by
    intro e he
    rw [sum_range_fin nn _ _ fun a => laplace_entry h sols hs e he a c, Finset.sum_comm]
    refine Finset.sum_eq_zero fun q _ => ?_
    rw [Finset.sum_comm]
    refine Finset.sum_eq_zero fun j _ => ?_
    rw [← Finset.mul_sum, ← Finset.sum_mul, grads_sum_zero _ _ (hel q).2, zero_mul, mul_zero]
  rw [terms_sum P (fun e k => ∑ a ∈ Finset.range nn,
      (k (cellSolFlat P.fes sols e)).getD (localPos P.fes 0 a c) 0)
    (fun cell => match P.massMap with
      | none => 0
      | some m => cellIntegral P.el P.points cell.nodes fun q =>
        m (cell.iv q) (interp (P.el.shapeVals q) (nodalValues nn vec (sols.getD 0 []) cell.nodes))
        (positionIn (P.el.shapeVals q) (coords nn P.points cell.nodes)) c)
    (fun s f => ∑ q, s.map (f.iv q)
      (interp (P.fc.shapeVals f.face q)
        (nodalValues nn vec (sols.getD 0 []) (P.conn.getD f.cell [])))
      (positionIn (P.fc.shapeVals f.face q) (coords nn P.points (P.conn.getD f.cell []))) c
    * nansonScale (coords nn P.points (P.conn.getD f.cell [])) (P.fc.shapeGradsRef f.face q)
        (P.fc.normals f.face) (P.fc.quadWeights f.face q))]
  · congr 1
    cases hm : P.massMap with
    | none => simp
    | some m => rfl
  · intro e he
    have hl := hlap e he
    cases hm : P.massMap with
    | none => simpa only [cellKernel] using hl
    | some m =>
      simp only [cellKernel]
      have e1 : P.conn.getD e [] = P.cells[e].nodes := by
        rw [Problem1.conn, List.getD_eq_getElem _ _ (by simpa using he), List.getElem_map]
      have hadd : ∀ a ∈ Finset.range nn, (vadd
          (laplaceKernel P.tensorMap (cellSolFlat P.fes sols e)
            (cellData P.el P.points P.cells[e].nodes P.cells[e].iv))
          (massKernel P.el m (cellSolFlat P.fes sols e)
            (cellData P.el P.points P.cells[e].nodes P.cells[e].iv))).getD (localPos P.fes 0 a c) 0
          = (laplaceKernel P.tensorMap (cellSolFlat P.fes sols e)
            (cellData P.el P.points P.cells[e].nodes P.cells[e].iv)).getD (localPos P.fes 0 a c) 0
          + (massKernel P.el m (cellSolFlat P.fes sols e)
            (cellData P.el P.points P.cells[e].nodes P.cells[e].iv)).getD (localPos P.fes 0 a c) 0 :=
        fun a _ => vadd_getD _ _ (by simp [laplaceKernel, massKernel, ravel2_length]) _
      rw [Finset.sum_congr rfl hadd, Finset.sum_add_distrib, hl, zero_add]
      have hval : ∀ a : Fin nn, (massKernel P.el m (cellSolFlat P.fes sols e)
            (cellData P.el P.points P.cells[e].nodes P.cells[e].iv)).getD (localPos P.fes 0 a c) 0
          = ∑ q, m (P.cells[e].iv q)
              (interp (P.el.shapeVals q) (nodalValues nn vec (sols.getD 0 []) P.cells[e].nodes))
              (positionIn (P.el.shapeVals q) (coords nn P.points P.cells[e].nodes)) c
              * P.el.shapeVals q a * cellJxW (physicalCoos nn P.points P.cells[e].nodes)
                (P.el.shapeGradsRef q) (P.el.quadWeights q) := by
        intro a
        have hf := fold_cellSolFlat h sols hs e he
        rw [Problem1.fes] at hf ⊢
        rw [massKernel, ravel2_getD]
        simp only [hf, cellData, e1, interp_comm, physicalPoint_eq]
      rw [sum_range_fin nn _ _ hval, Finset.sum_comm, cellIntegral]
      refine Finset.sum_congr rfl fun q _ => ?_
      rw [← Finset.sum_mul, ← Finset.mul_sum, (hel q).1, mul_one, cellJxW, jacobian_eq,
        physicalCoos_eq]
  · intro s hsf f hf
    have hlt := h.face_lt s hsf f hf
    have hval : ∀ a : Fin nn, (surfaceKernel s.map (cellSolFlat P.fes sols f.cell)
          (faceData P.fc P.points P.conn (f.cell, f.face) f.iv)).getD (localPos P.fes 0 a c) 0
        = ∑ q, s.map (f.iv q) (interp (P.fc.shapeVals f.face q)
              (nodalValues nn vec (sols.getD 0 []) (P.conn.getD f.cell [])))
            (positionIn (P.fc.shapeVals f.face q) (coords nn P.points (P.conn.getD f.cell []))) c
            * P.fc.shapeVals f.face q a * nansonScale (coords nn P.points (P.conn.getD f.cell []))
              (P.fc.shapeGradsRef f.face q) (P.fc.normals f.face) (P.fc.quadWeights f.face q) := by
      intro a
      have hff := fold_cellSolFlat h sols hs f.cell hlt
      rw [Problem1.fes] at hff ⊢
      rw [surfaceKernel, ravel2_getD]
      simp only [hff, faceData, interp_comm, physicalPoint_eq]
      rfl
    rw [sum_range_fin nn _ _ hval, Finset.sum_comm]
    refine Finset.sum_congr rfl fun q _ => ?_
    rw [← Finset.sum_mul, ← Finset.mul_sum, (hfc f.face q).1, mul_one]

end JaxFem
