import Verif.Thm.FlatAssembly

/-!
# C07: sparsity, locality and symmetry of the tangent
-/

namespace JaxFem

universe u v w
variable {K : Type u} {D : Type v} {F : Type v}

/-! ### Helper lemmas -/

theorem nodeOf_mem {fes : List FE} (hm : WFMesh fes) {i e a : Nat} (hi : i < fes.length)
    (he : e < numCells fes) (ha : a < fes[i].numNodes) :
    nodeOf fes i e a ∈ fes[i].cells.getD e [] := by
  rw [nodeOf_eq fes i e a hi]
  have ha' : a < (fes[i].cells.getD e []).length := by rw [cell_length hm hi he]; exact ha
  rw [List.getD_eq_getElem _ _ ha']
  exact List.getElem_mem _

/-- A local unknown with a given global number belongs to a local node that is the given node. -/
theorem global_eq_node {fes : List FE} (hm : WFMesh fes) {g : Nat → Nat → Nat}
    (hg : IsGlobal fes g) {e p i n c : Nat} (he : e < numCells fes) (hp : p < localSize fes)
    (hi : i < fes.length) (hn : n < fes[i].numTotalNodes) (hc : c < fes[i].vec)
    (h : g e p = dofNum fes i n c) : n ∈ fes[i].cells.getD e [] := by
  obtain ⟨i', a, c', hi', ha, hc', rfl⟩ := exists_localPos fes p hp
  rw [hg e he i' hi' a ha c' hc'] at h
  obtain ⟨rfl, rfl, rfl⟩ := dofNum_inj fes hi'
    (by rw [nodeOf_eq fes i' e a hi']; exact node_lt hm hi' he ha) hc' hi hn hc h
  exact nodeOf_mem hm hi' he ha

/-! ### Property theorems -/

/-- **C07 (sparsity).** If no cell contains both node `n` of variable `i` and node `l` of variable
`j`, the matrix entry that couples them is zero. -/
theorem C07_sparsity [AddCommMonoid K] (fes : List FE) (bs : List BoundaryInds)
    (kernel : List K → D → List K × List (List K)) (data : List D)
    (ks : List (List K → F → List K × List (List K)))
    (dss : List (List F)) (wf : WFArgs fes bs data ks dss)
    (hk : JacOk fes (cellTerms kernel data ++ faceTerms bs ks dss))
    (sols : List (List (List K))) (hs : HasShapes (solShapes fes) sols)
    {i n c j l d : Nat} (hi : i < fes.length) (hn : n < fes[i].numTotalNodes) (hc : c < fes[i].vec)
    (hj : j < fes.length) (hl : l < fes[j].numTotalNodes) (hd : d < fes[j].vec)
    (hfar : ∀ e < numCells fes, n ∈ fes[i].cells.getD e [] → l ∉ fes[j].cells.getD e []) :
    ∃ R V, computeNewton fes bs kernel data ks dss sols = .ok (R, V) ∧
      cooEntry (cooI fes bs) (cooJ fes bs) V (dofNum fes i n c) (dofNum fes j l d) = 0 := by
  have hg := isGlobal_cellInds fes wf.mesh
  obtain ⟨R, V, r1, -, -, -, -, -, r3⟩ := C04_triplets fes bs kernel data ks dss wf hk sols hs _
    (isLocal_cellSolFlat fes wf.mesh sols hs) _ hg
  refine ⟨R, V, r1, ?_⟩
  rw [r3, matSum]
  refine List.sum_eq_zero fun x hx => ?_
  simp only [List.map_map, List.mem_map] at hx
  obtain ⟨t, ht, rfl⟩ := hx
  have hlt := wf.term_lt t ht
  refine Finset.sum_eq_zero fun p hp => Finset.sum_eq_zero fun q hq => if_neg fun h => ?_
  exact hfar t.1 hlt (global_eq_node wf.mesh hg hlt (Finset.mem_range.1 hp) hi hn hc h.1)
    (global_eq_node wf.mesh hg hlt (Finset.mem_range.1 hq) hj hl hd h.2)

/-- **C07 (locality).** The residual at node `n` of variable `i` is the same for two solutions that
agree on all nodes (of all variables) of the cells that contain the node. -/
theorem C07_locality [AddCommMonoid K] (fes : List FE) (bs : List BoundaryInds)
    (kernel : List K → D → List K) (data : List D) (ks : List (List K → F → List K))
    (dss : List (List F)) (wf : WFArgs fes bs data ks dss)
    (hk : KernelOk fes (cellTerms kernel data ++ faceTerms bs ks dss))
    (sols sols' : List (List (List K))) (hs : HasShapes (solShapes fes) sols)
    (hs' : HasShapes (solShapes fes) sols')
    {i n c : Nat} (hi : i < fes.length) (hc : c < fes[i].vec)
    (hagree : ∀ e < numCells fes, n ∈ fes[i].cells.getD e [] →
      ∀ j (hj : j < fes.length), ∀ l ∈ fes[j].cells.getD e [], ∀ d < fes[j].vec,
        at3 sols j l d = at3 sols' j l d) :
    ∃ R R', computeResidual fes bs kernel data ks dss sols = .ok R ∧
      computeResidual fes bs kernel data ks dss sols' = .ok R' ∧ at3 R i n c = at3 R' i n c := by
  have hloc := isLocal_cellSolFlat fes wf.mesh sols hs
  have hloc' := isLocal_cellSolFlat fes wf.mesh sols' hs'
  obtain ⟨R, r1, -, r3⟩ := C03_residual_sum fes bs kernel data ks dss wf hk sols hs _ hloc
  obtain ⟨R', s1, -, s3⟩ := C03_residual_sum fes bs kernel data ks dss wf hk sols' hs' _ hloc'
  refine ⟨R, R', r1, s1, ?_⟩
  rw [r3 i hi n c hc, s3 i hi n c hc, nodalSum, nodalSum, List.map_map, List.map_map]
  congr 1
  refine List.map_congr_left fun t ht => ?_
  have hlt := wf.term_lt t ht
  simp only [Function.comp_apply]
  by_cases hmem : n ∈ fes[i].cells.getD t.1 []
  · have : cellSolFlat fes sols t.1 = cellSolFlat fes sols' t.1 := by
      refine IsLocal.unique (sols := sols) (hloc t.1 hlt) ⟨(hloc' t.1 hlt).1, ?_⟩
      intro j hj a ha d hd
      rw [(hloc' t.1 hlt).2 j hj a ha d hd]
      exact (hagree t.1 hlt hmem j hj _ (nodeOf_mem wf.mesh hj hlt ha) d hd).symm
    rw [this]
  · refine Finset.sum_congr rfl fun a ha => ?_
    rw [Finset.mem_range, numNodes_getD fes i hi] at ha
    have hne : nodeOf fes i t.1 a ≠ n := fun h => hmem (h ▸ nodeOf_mem wf.mesh hi hlt ha)
    rw [if_neg hne, if_neg hne]

/-- **C07 (symmetry).** If every local Jacobian is symmetric, so is the assembled matrix. -/
theorem C07_symmetry [AddCommMonoid K] (fes : List FE) (bs : List BoundaryInds)
    (kernel : List K → D → List K × List (List K)) (data : List D)
    (ks : List (List K → F → List K × List (List K)))
    (dss : List (List F)) (wf : WFArgs fes bs data ks dss)
    (hk : JacOk fes (cellTerms kernel data ++ faceTerms bs ks dss))
    (sols : List (List (List K))) (hs : HasShapes (solShapes fes) sols)
    (hsym : ∀ t ∈ cellTerms kernel data ++ faceTerms bs ks dss, ∀ s : List K,
      s.length = localSize fes → ∀ p q,
        ((t.2 s).2.getD p []).getD q 0 = ((t.2 s).2.getD q []).getD p 0) :
    ∃ R V, computeNewton fes bs kernel data ks dss sols = .ok (R, V) ∧
      ∀ r c, cooEntry (cooI fes bs) (cooJ fes bs) V r c
        = cooEntry (cooI fes bs) (cooJ fes bs) V c r := by
  have hg := isGlobal_cellInds fes wf.mesh
  have hloc := isLocal_cellSolFlat fes wf.mesh sols hs
  obtain ⟨R, V, r1, -, -, -, -, -, r3⟩ := C04_triplets fes bs kernel data ks dss wf hk sols hs _
    hloc _ hg
  refine ⟨R, V, r1, fun r c => ?_⟩
  rw [r3, r3, matSum, matSum]
  congr 1
  refine List.map_congr_left fun t ht => ?_
  obtain ⟨t0, ht0, rfl⟩ := List.mem_map.1 ht
  rw [Finset.sum_comm]
  refine Finset.sum_congr rfl fun p _ => Finset.sum_congr rfl fun q _ => ?_
  rw [hsym t0 ht0 _ (hloc t0.1 (wf.term_lt t0 ht0)).1 q p]
  exact if_congr (And.comm) rfl rfl

/-- On the example mesh nodes 0 and 2 share no cell. -/
example : ∀ e < numCells exFes, 0 ∈ (exFes[0]'(by decide)).cells.getD e [] →
    2 ∉ (exFes[0]'(by decide)).cells.getD e [] := by decide

/-- A symmetric local matrix. -/
example : ∀ t ∈ cellTerms (K := Int) (fun s (_ : Int) =>
      (s, [[1, 2, 3, 4], [2, 6, 7, 8], [3, 7, 11, 12], [4, 8, 12, 16]])) [1, 2],
    ∀ s : List Int, ∀ p q, ((t.2 s).2.getD p []).getD q 0 = ((t.2 s).2.getD q []).getD p 0 := by
  intro t ht s p q
  simp [cellTerms] at ht
  rcases ht with rfl | rfl <;>
  · rcases p with _ | _ | _ | _ | p <;> rcases q with _ | _ | _ | _ | q <;> simp

end JaxFem
