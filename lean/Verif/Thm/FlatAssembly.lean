import Verif.Thm.C04_Coo

/-! Residual and local vectors in the flat numbering. -/

namespace JaxFem

universe u v w
variable {K : Type u} {D : Type v} {F : Type v} {β : Type w}

theorem localPos_lt (fes : List FE) {i a c : Nat} (hi : i < fes.length) (ha : a < fes[i].numNodes)
    (hc : c < fes[i].vec) : localPos fes i a c < localSize fes := by
  have hi' : i < (cellShapes fes).length := by simpa [cellShapes] using hi
  have e1 := cellShapes_getD fes i hi
  rw [localPos_eq fes i a c hi, localSize_eq, ← blockStart_length]
  have e := entry_lt (cellShapes fes) i a c hi' (by rw [e1]; exact ha) (by rw [e1]; exact hc)
  rw [e1] at e
  exact lt_of_lt_of_le e (blockStart_mono _ (by omega))

theorem localPos_inj (fes : List FE) {i a c i' a' c' : Nat} (hi : i < fes.length)
    (ha : a < fes[i].numNodes) (hc : c < fes[i].vec) (hi' : i' < fes.length)
    (ha' : a' < fes[i'].numNodes) (hc' : c' < fes[i'].vec)
    (h : localPos fes i a c = localPos fes i' a' c') : i = i' ∧ a = a' ∧ c = c' := by
  rw [localPos_eq fes i a c hi, localPos_eq fes i' a' c' hi'] at h
  have k1 : i < (cellShapes fes).length := by simpa [cellShapes] using hi
  have k2 : i' < (cellShapes fes).length := by simpa [cellShapes] using hi'
  have e1 := cellShapes_getD fes i hi
  have e2 := cellShapes_getD fes i' hi'
  exact block_unique (cellShapes fes) k1 (by rw [e1]; exact ha) (by rw [e1]; exact hc) k2
    (by rw [e2]; exact ha') (by rw [e2]; exact hc') (by rw [e1, e2]; exact h)

theorem dofNum_inj (fes : List FE) {i n c i' n' c' : Nat} (hi : i < fes.length)
    (hn : n < fes[i].numTotalNodes) (hc : c < fes[i].vec) (hi' : i' < fes.length)
    (hn' : n' < fes[i'].numTotalNodes) (hc' : c' < fes[i'].vec)
    (h : dofNum fes i n c = dofNum fes i' n' c') : i = i' ∧ n = n' ∧ c = c' := by
  rw [← (C01_row_number fes i n c hi).1, ← (C01_row_number fes i' n' c' hi').1] at h
  exact C01_injective fes hi hn hc hi' hn' hc' h

theorem exists_dofNum (fes : List FE) (k : Nat) (hk : k < totalDofs fes) :
    ∃ i n c, ∃ hi : i < fes.length, n < fes[i].numTotalNodes ∧ c < fes[i].vec ∧
      k = dofNum fes i n c := by
  have h0 : numDofs fes = totalDofs fes := by
    rw [numDofs_eq]; simp [totalDofs, totalSize, solShapes, Function.comp_def]
  obtain ⟨i, n, c, hi, h1, h2, h3⟩ := C01_surjective fes k (by rw [h0]; exact hk)
  exact ⟨i, n, c, hi, h1, h2, by rw [← h3, (C01_row_number fes i n c hi).1]⟩

theorem totalDofs_eq (fes : List FE) : totalDofs fes = totalSize (solShapes fes) := by
  simp [totalDofs, totalSize, solShapes, Function.comp_def]

/-- Nodal and flat form of a sum of element vectors agree. -/
theorem nodalSum_eq_vecSum [AddCommMonoid K] (fes : List FE) (hm : WFMesh fes)
    (g : Nat → Nat → Nat) (hg : IsGlobal fes g) (T : List (Nat × List K))
    (hT : ∀ t ∈ T, t.1 < numCells fes) (i n c : Nat) (hi : i < fes.length)
    (hn : n < fes[i].numTotalNodes) (hc : c < fes[i].vec) :
    nodalSum fes T i n c = vecSum (localSize fes) g T (dofNum fes i n c) := by
  rw [nodalSum, vecSum]
  congr 1
  refine List.map_congr_left fun t ht => ?_
  have he := hT t ht
  rw [numNodes_getD fes i hi]
  symm
  rw [← Finset.sum_subset (s₁ := (Finset.range fes[i].numNodes).image fun a => localPos fes i a c)]
  · rw [Finset.sum_image]
    · refine Finset.sum_congr rfl fun a ha => ?_
      have ha' := Finset.mem_range.1 ha
      rw [hg t.1 he i hi a ha' c hc]
      refine if_congr ⟨fun h => ?_, fun h => by rw [h]⟩ rfl rfl
      exact (dofNum_inj fes hi (by rw [nodeOf_eq fes i t.1 a hi]; exact node_lt hm hi he ha') hc hi hn hc h).2.1
    · intro a ha b hb hab
      exact (localPos_inj fes hi (Finset.mem_range.1 ha) hc hi (Finset.mem_range.1 hb) hc hab).2.1
  · intro p hp
    obtain ⟨a, ha, rfl⟩ := Finset.mem_image.1 hp
    exact Finset.mem_range.2 (localPos_lt fes hi (Finset.mem_range.1 ha) hc)
  · intro p hp hnot
    refine if_neg fun h => hnot ?_
    obtain ⟨i', a, c', hi', ha, hc', rfl⟩ := exists_localPos fes p (Finset.mem_range.1 hp)
    rw [hg t.1 he i' hi' a ha c' hc'] at h
    obtain ⟨rfl, -, rfl⟩ := dofNum_inj fes hi'
      (by rw [nodeOf_eq fes i' t.1 a hi']; exact node_lt hm hi' he ha) hc' hi hn hc h
    exact Finset.mem_image.2 ⟨a, Finset.mem_range.2 ha, rfl⟩

theorem ravelSol_dofNum [Zero K] (fes : List FE) (s : List (List (List K)))
    (hs : HasShapes (solShapes fes) s) {i n c : Nat} (hi : i < fes.length)
    (hn : n < fes[i].numTotalNodes) (hc : c < fes[i].vec) :
    (ravelSol s).getD (dofNum fes i n c) 0 = at3 s i n c := by
  have e1 := solShapes_getD fes i hi
  have := ravelSol_getD hs i n c 0 (by simpa [solShapes] using hi) (by rw [e1]; exact hn)
    (by rw [e1]; exact hc)
  rw [e1] at this
  rw [dofNum_eq fes i n c hi]
  exact this

/-- The flattened residual, entry by entry. -/
theorem residual_flat [AddCommMonoid K] (fes : List FE) (bs : List BoundaryInds)
    (kernel : List K → D → List K) (data : List D) (ks : List (List K → F → List K))
    (dss : List (List F)) (wf : WFArgs fes bs data ks dss)
    (hk : KernelOk fes (cellTerms kernel data ++ faceTerms bs ks dss))
    (sols : List (List (List K))) (hs : HasShapes (solShapes fes) sols)
    (loc : Nat → List K) (hloc : ∀ e < numCells fes, IsLocal fes sols e (loc e))
    (g : Nat → Nat → Nat) (hg : IsGlobal fes g) :
    ∃ R, computeResidual fes bs kernel data ks dss sols = .ok R ∧
      HasShapes (solShapes fes) R ∧ ∀ k, k < totalDofs fes →
      (ravelSol R).getD k 0 = vecSum (localSize fes) g
        ((cellTerms kernel data ++ faceTerms bs ks dss).map fun t => (t.1, t.2 (loc t.1))) k := by
  obtain ⟨R, h1, h2, h3⟩ := C03_residual_sum fes bs kernel data ks dss wf hk sols hs loc hloc
  refine ⟨R, h1, h2, fun k hk' => ?_⟩
  obtain ⟨i, n, c, hi, hn, hc, rfl⟩ := exists_dofNum fes k hk'
  rw [ravelSol_dofNum fes R h2 hi hn hc, h3 i hi n c hc]
  refine nodalSum_eq_vecSum fes wf.mesh g hg _ (fun t ht => ?_) i n c hi hn hc
  obtain ⟨t0, ht0, rfl⟩ := List.mem_map.1 ht
  exact wf.term_lt t0 ht0

/-- Gather in the flat numbering. -/
theorem cellSolFlat_flat [Zero K] (fes : List FE) (hm : WFMesh fes) (sols : List (List (List K)))
    (hs : HasShapes (solShapes fes) sols) (g : Nat → Nat → Nat) (hg : IsGlobal fes g)
    {e p : Nat} (he : e < numCells fes) (hp : p < localSize fes) :
    (cellSolFlat fes sols e).getD p 0 = (ravelSol sols).getD (g e p) 0 := by
  obtain ⟨i, a, c, hi, ha, hc, rfl⟩ := exists_localPos fes p hp
  have h := (isLocal_cellSolFlat fes hm sols hs e he).2 i hi a ha c hc
  rw [h, hg e he i hi a ha c hc, ravelSol_dofNum fes sols hs hi
    (by rw [nodeOf_eq fes i e a hi]; exact node_lt hm hi he ha) hc]

end JaxFem
