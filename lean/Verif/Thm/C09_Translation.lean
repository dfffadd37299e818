import Verif.Thm.C06_Order
import Verif.Thm.C08_Balance

/-!
# C09: translation invariance, C11: moment balance
-/

namespace JaxFem

variable {IV : Type} {nq nfq nn vec dim : Nat}

/-! ### Helper lemmas -/

theorem nodalValues_translate {sols sols' : List (List (List ℝ))} {cell : List Nat} {nt : Nat}
    (hcell : cell.length = nn) (hlt : ∀ n ∈ cell, n < nt) (t : Fin vec → ℝ)
    (ht : ∀ n < nt, ∀ c : Fin vec, at3 sols' 0 n c = at3 sols 0 n c + t c) (a : Fin nn)
    (c : Fin vec) : nodalValues nn vec (sols'.getD 0 []) cell a c
      = nodalValues nn vec (sols.getD 0 []) cell a c + t c := by
  have ha : (a : Nat) < cell.length := by rw [hcell]; exact a.2
  have := ht (cell.getD a 0) (by rw [List.getD_eq_getElem _ _ ha]; exact hlt _ (List.getElem_mem ha)) c
  exact this

theorem conn_getD (P : Problem1 IV nq nfq nn vec dim) (e : Nat) (he : e < P.cells.length) :
    P.conn.getD e [] = P.cells[e].nodes := by
  rw [Problem1.conn, List.getD_eq_getElem _ _ (by simpa using he), List.getElem_map]

/-! ### Property theorems -/

/-- **C09.** Adding one constant vector to the solution at all nodes leaves the residual unchanged,
for every tensor map, provided the mass map and the surface maps (if any) are loads that do not
depend on the solution. -/
theorem C09_translation (P : Problem1 IV nq nfq nn vec dim) (h : P.WF) (hel : P.el.Unity)
    (hmass : ∀ m, P.massMap = some m → ∀ iv u u' x, m iv u x = m iv u' x)
    (hsurf : ∀ s ∈ P.surfaces, ∀ iv u u' x, s.map iv u x = s.map iv u' x)
    (sols sols' : List (List (List ℝ))) (hs : HasShapes [(P.numTotalNodes, vec)] sols)
    (hs' : HasShapes [(P.numTotalNodes, vec)] sols') (t : Fin vec → ℝ)
    (ht : ∀ n < P.numTotalNodes, ∀ c : Fin vec, at3 sols' 0 n c = at3 sols 0 n c + t c) :
    ∃ R, P.residual sols = .ok R ∧ P.residual sols' = .ok R := by
  obtain ⟨R, r1, r2, r3, -⟩ := Problem1.weighted_residual h sols hs
  obtain ⟨R', r1', r2', r3', -⟩ := Problem1.weighted_residual h sols' hs'
  have hterms : (P.terms.map fun t => (t.1, t.2 (cellSolFlat P.fes sols' t.1)))
      = P.terms.map fun t => (t.1, t.2 (cellSolFlat P.fes sols t.1)) := by
    refine List.map_congr_left fun t ht' => ?_
    refine Prod.ext rfl ?_
    simp only
    rw [Problem1.terms] at ht'
    rcases List.mem_append.1 ht' with hc | hf
    · obtain ⟨e, he, rfl⟩ := List.mem_iff_getElem.1 hc
      have he' : e < P.cells.length := by simpa [cellTerms] using he
      simp only [cellTerms, List.getElem_mapIdx, List.getElem_map]
      have f1 := fold_cellSolFlat h sols hs e he'
      have f2 := fold_cellSolFlat h sols' hs' e he'
      rw [conn_getD P e he'] at f1 f2
      have hmem := List.getElem_mem he'
      have hN := fun a c => nodalValues_translate (h.cell_length _ hmem) (h.cell_lt _ hmem) _ ht a c
      have hlap : laplaceKernel P.tensorMap (cellSolFlat P.fes sols' e)
            (cellData P.el P.points P.cells[e].nodes P.cells[e].iv)
          = laplaceKernel P.tensorMap (cellSolFlat P.fes sols e)
            (cellData P.el P.points P.cells[e].nodes P.cells[e].iv) := by
        have hg : ∀ q, (fun i j => ∑ a, nodalValues nn vec (sols'.getD 0 []) P.cells[e].nodes a i *
              (cellData P.el P.points P.cells[e].nodes P.cells[e].iv).shapeGrads q a j)
            = fun i j => ∑ a, nodalValues nn vec (sols.getD 0 []) P.cells[e].nodes a i *
              (cellData P.el P.points P.cells[e].nodes P.cells[e].iv).shapeGrads q a j := by
          intro q
          funext i j
          simp_rw [hN, add_mul]
          rw [Finset.sum_add_distrib, ← Finset.mul_sum]
          simp only [cellData]
          rw [grads_sum_zero _ _ (hel q).2, mul_zero, add_zero]
        simp only [laplaceKernel, f1, f2]
        congr 1
        funext a i
        refine Finset.sum_congr rfl fun q _ => ?_
        rw [hg q]
      have aux : ∀ mm, P.massMap = mm → cellKernel P.el P.tensorMap mm (cellSolFlat P.fes sols' e)
            (cellData P.el P.points P.cells[e].nodes P.cells[e].iv)
          = cellKernel P.el P.tensorMap mm (cellSolFlat P.fes sols e)
            (cellData P.el P.points P.cells[e].nodes P.cells[e].iv) := by
        intro mm hm
        cases mm with
        | none => simpa only [cellKernel] using hlap
        | some m =>
          simp only [cellKernel, hlap]
          congr 1
          simp only [massKernel]
          congr 1
          funext a i
          refine Finset.sum_congr rfl fun q _ => ?_
          rw [hmass m hm _ _ _ _]
      exact aux _ rfl
    · obtain ⟨s, hsm, hf⟩ := List.mem_flatMap.1 hf
      obtain ⟨f, _, rfl⟩ := List.mem_map.1 hf
      simp only [surfaceKernel]
      congr 1
      funext a i
      refine Finset.sum_congr rfl fun q _ => ?_
      rw [hsurf s hsm _ _ _ _]
  have hRR : R' = R := by
    refine hasShapes_ext r2' r2 fun k hk => ?_
    obtain ⟨i, n, c, hi, hn, hc, rfl⟩ := exists_dofNum P.fes k (by rw [totalDofs_eq]; exact hk)
    rw [ravelSol_dofNum P.fes R' r2' hi hn hc, ravelSol_dofNum P.fes R r2 hi hn hc]
    have hi' : i = 0 := by simpa [Problem1.fes] using hi
    subst hi'
    rw [r3 n c hc, r3' n c hc, hterms]
  exact ⟨R, r1, hRR ▸ r1'⟩

/-- **C11.** If the tensor map always returns a symmetric tensor and all cells are mapped with an
invertible Jacobian, the total moment of the residual of the tensor map vanishes. -/
theorem C11_moment_balance (P : Problem1 IV nq nfq nn dim dim) (h : P.WF)
    (hmass : P.massMap = none) (hsurf : P.surfaces = [])
    (hreg : P.el.Regular P.points P.conn)
    (hsym : ∀ iv G i j, P.tensorMap iv G i j = P.tensorMap iv G j i)
    (sols : List (List (List ℝ))) (hs : HasShapes [(P.numTotalNodes, dim)] sols) :
    ∃ R, P.residual sols = .ok R ∧ ∀ i j : Fin dim,
      ∑ n ∈ Finset.range P.numTotalNodes,
        ((P.points.getD n 0) i * at3 R 0 n j - (P.points.getD n 0) j * at3 R 0 n i) = 0 := by
  obtain ⟨R, r1, -, -, r2⟩ := Problem1.weighted_residual h sols hs
  refine ⟨R, r1, fun i j => ?_⟩
  -- first moments of the residual
  have key : ∀ i c : Fin dim, ∑ n ∈ Finset.range P.numTotalNodes,
      (P.points.getD n 0) i * at3 R 0 n c = (P.cells.map fun cell => ∑ q,
        P.tensorMap (cell.iv q) (fun i j => ∑ b,
          nodalValues nn dim (sols.getD 0 []) cell.nodes b i *
            shapeGradsPhysical (physicalCoos nn P.points cell.nodes) (P.el.shapeGradsRef q) b j)
          c i * cellJxW (physicalCoos nn P.points cell.nodes) (P.el.shapeGradsRef q)
              (P.el.quadWeights q)).sum := by
    intro i c
    rw [r2 (fun n => (P.points.getD n 0) i) c c.2]
    rw [terms_sum P (fun e k => ∑ a ∈ Finset.range nn, (P.points.getD (nodeOf P.fes 0 e a) 0) i *
      (k (cellSolFlat P.fes sols e)).getD (localPos P.fes 0 a c) 0)
      (fun cell => ∑ q,
        P.tensorMap (cell.iv q) (fun i j => ∑ b,
          nodalValues nn dim (sols.getD 0 []) cell.nodes b i *
            shapeGradsPhysical (physicalCoos nn P.points cell.nodes) (P.el.shapeGradsRef q) b j)
          c i * cellJxW (physicalCoos nn P.points cell.nodes) (P.el.shapeGradsRef q)
              (P.el.quadWeights q)) (fun _ _ => 0)]
    · simp [hsurf]
    · intro e he
      simp only [hmass, cellKernel]
      have hpos : ∀ a : Fin nn, (P.points.getD (nodeOf P.fes 0 e a) 0) i
          = physicalCoos nn P.points P.cells[e].nodes a i := by
        intro a
        rw [nodeOf_eq P.fes 0 e a (by simp [Problem1.fes])]
        have : P.fes[0]'(by simp [Problem1.fes]) = ⟨P.numTotalNodes, dim, nn, P.conn⟩ := rfl
        rw [this, conn_getD P e he]
        rfl
      rw [sum_range_fin nn _ _ fun a => by
        rw [laplace_entry h sols hs e he a c, hpos a]]
      have hne : ∀ q, (jacobianDxDeta (physicalCoos nn P.points P.cells[e].nodes)
          (P.el.shapeGradsRef q)).det ≠ 0 := by
        intro q
        rw [jacobian_eq, physicalCoos_eq]
        exact hreg _ (List.mem_map.2 ⟨_, List.getElem_mem he, rfl⟩) q
      simp_rw [Finset.mul_sum]
      rw [Finset.sum_comm]
      refine Finset.sum_congr rfl fun q _ => ?_
      rw [Finset.sum_comm]
      have h2 : ∀ k : Fin dim, ∑ a, physicalCoos nn P.points P.cells[e].nodes a i *
          shapeGradsPhysical (physicalCoos nn P.points P.cells[e].nodes) (P.el.shapeGradsRef q) a k
          = if i = k then 1 else 0 := fun k => coords_grads _ _ (hne q) i k
      rw [Finset.sum_eq_single i]
      · have := h2 i
        rw [if_pos rfl] at this
        calc _ = _ * cellJxW _ _ _ * (∑ a, physicalCoos nn P.points P.cells[e].nodes a i *
          shapeGradsPhysical (physicalCoos nn P.points P.cells[e].nodes) (P.el.shapeGradsRef q) a i)
              := by
              rw [Finset.mul_sum]
              refine Finset.sum_congr rfl fun a _ => ?_
              ring
          _ = _ := by rw [this, mul_one]
      · intro k _ hk
        have := h2 k
        rw [if_neg (Ne.symm hk)] at this
        calc _ = P.tensorMap (P.cells[e].iv q) (fun i j => ∑ b,
              nodalValues nn dim (sols.getD 0 []) P.cells[e].nodes b i *
              shapeGradsPhysical (physicalCoos nn P.points P.cells[e].nodes)
                (P.el.shapeGradsRef q) b j) c k *
              cellJxW (physicalCoos nn P.points P.cells[e].nodes) (P.el.shapeGradsRef q)
                (P.el.quadWeights q) *
              (∑ a, physicalCoos nn P.points P.cells[e].nodes a i *
          shapeGradsPhysical (physicalCoos nn P.points P.cells[e].nodes) (P.el.shapeGradsRef q) a k)
              := by
              rw [Finset.mul_sum]
              refine Finset.sum_congr rfl fun a _ => ?_
              ring
          _ = _ := by rw [this, mul_zero]
      · intro hk; exact absurd (Finset.mem_univ i) hk
    · intro s hsf
      rw [hsurf] at hsf
      simp at hsf
  rw [Finset.sum_sub_distrib, key i j, key j i, sub_eq_zero]
  congr 1
  refine List.map_congr_left fun cell _ => Finset.sum_congr rfl fun q _ => ?_
  rw [hsym]

end JaxFem
