import Verif.Thm.FlatAssembly

/-!
# C06: assembly does not depend on the cell order and commutes with node renumbering
-/

namespace JaxFem

universe u v w
variable {K : Type u} {D : Type v} {F : Type v} {β : Type w}

/-! ### Helper lemmas -/

/-- A term with its cell number replaced by the nodes of the cell (for every variable). -/
def resolve (fes : List FE) (t : Nat × β) : List (List Nat) × β := (cellNodes fes t.1, t.2)

theorem offsetsFrom_congr {fes fes' : List FE} (h : solShapes fes = solShapes fes') (acc : Nat) :
    offsetsFrom acc fes = offsetsFrom acc fes' := by
  induction fes generalizing fes' acc with
  | nil =>
    cases fes' with
    | nil => rfl
    | cons a l => simp [solShapes] at h
  | cons fe fes ih =>
    cases fes' with
    | nil => simp [solShapes] at h
    | cons fe' fes' =>
      simp only [solShapes, List.map_cons, List.cons.injEq, Prod.mk.injEq] at h
      obtain ⟨⟨h1, h2⟩, h3⟩ := h
      have ih' := fun acc => ih (fes' := fes') h3 acc
      cases fes with
      | nil =>
        cases fes' with
        | nil => rfl
        | cons a l => simp at h3
      | cons f fs =>
        cases fes' with
        | nil => simp at h3
        | cons f' fs' =>
          simp only [offsetsFrom, FE.numTotalDofs, h1, h2]
          rw [ih']

theorem offsets_congr {fes fes' : List FE} (h : solShapes fes = solShapes fes') :
    offsets fes = offsets fes' := by
  rw [offsets, offsets, offsetsFrom_congr h]

theorem findInd_congr {fes fes' : List FE} (h : solShapes fes = solShapes fes') (offs : List Nat)
    (x : List (List Nat)) : findInd fes offs x = findInd fes' offs x := by
  induction fes generalizing fes' offs x with
  | nil =>
    cases fes' with
    | nil => rfl
    | cons a l => simp [solShapes] at h
  | cons fe fes ih =>
    cases fes' with
    | nil => simp [solShapes] at h
    | cons fe' fes' =>
      simp only [solShapes, List.map_cons, List.cons.injEq, Prod.mk.injEq] at h
      obtain ⟨⟨h1, h2⟩, h3⟩ := h
      cases offs with
      | nil => simp [findInd]
      | cons o offs =>
        cases x with
        | nil => simp [findInd]
        | cons y x => simp only [findInd, h2]; rw [ih h3]

theorem hasShapes_ext [Zero K] {sh : List (Nat × Nat)} {s s' : List (List (List K))}
    (h : HasShapes sh s) (h' : HasShapes sh s')
    (he : ∀ k < totalSize sh, (ravelSol s).getD k 0 = (ravelSol s').getD k 0) : s = s' := by
  have : ravelSol s = ravelSol s' := by
    refine List.ext_getElem (by rw [ravelSol_length h, ravelSol_length h']) fun k h1 h2 => ?_
    have := he k (by rw [← ravelSol_length h]; exact h1)
    rwa [List.getD_eq_getElem _ _ h1, List.getD_eq_getElem _ _ h2] at this
  rw [← unravelSol_ravelSol h, ← unravelSol_ravelSol h', this]

/-! ### Property theorems -/

/-- **C06 (order, general form).** The residual depends on the cells and faces only through the
multiset of pairs (nodes of the cell, kernel of the cell or face): two problems with the same
sizes whose pairs are permutations of each other give the same residual. -/
theorem C06_residual_order [AddCommMonoid K] {D' F' : Type v} (fes fes' : List FE)
    (bs bs' : List BoundaryInds)
    (kernel : List K → D → List K) (data : List D) (ks : List (List K → F → List K))
    (dss : List (List F)) (kernel' : List K → D' → List K) (data' : List D')
    (ks' : List (List K → F' → List K)) (dss' : List (List F'))
    (wf : WFArgs fes bs data ks dss) (wf' : WFArgs fes' bs' data' ks' dss')
    (hk : KernelOk fes (cellTerms kernel data ++ faceTerms bs ks dss))
    (hk' : KernelOk fes' (cellTerms kernel' data' ++ faceTerms bs' ks' dss'))
    (hsol : solShapes fes' = solShapes fes) (hcell : cellShapes fes' = cellShapes fes)
    (hperm : ((cellTerms kernel' data' ++ faceTerms bs' ks' dss').map (resolve fes')).Perm
      ((cellTerms kernel data ++ faceTerms bs ks dss).map (resolve fes)))
    (sols : List (List (List K))) (hs : HasShapes (solShapes fes) sols) :
    ∃ R, computeResidual fes bs kernel data ks dss sols = .ok R ∧
      computeResidual fes' bs' kernel' data' ks' dss' sols = .ok R := by
  have hs' : HasShapes (solShapes fes') sols := by rw [hsol]; exact hs
  obtain ⟨R, r1, r2, r3⟩ := residual_flat fes bs kernel data ks dss wf hk sols hs _
    (isLocal_cellSolFlat fes wf.mesh sols hs) _ (isGlobal_cellInds fes wf.mesh)
  obtain ⟨R', s1, s2, s3⟩ := residual_flat fes' bs' kernel' data' ks' dss' wf' hk' sols hs' _
    (isLocal_cellSolFlat fes' wf'.mesh sols hs') _ (isGlobal_cellInds fes' wf'.mesh)
  have hm : localSize fes' = localSize fes := by rw [localSize_eq, localSize_eq, hcell]
  refine ⟨R, r1, ?_⟩
  have : R' = R := by
    rw [hsol] at s2
    refine hasShapes_ext s2 r2 fun k hk'' => ?_
    have hk1 : k < totalDofs fes := by rw [totalDofs_eq]; exact hk''
    have hk2 : k < totalDofs fes' := by rw [totalDofs_eq, hsol]; exact hk''
    rw [r3 k hk1, s3 k hk2, vecSum, vecSum, List.map_map, List.map_map, hm]
    let φ : List (List Nat) × (List K → List K) → K := fun x =>
      ∑ p ∈ Finset.range (localSize fes), if (findInd fes (offsets fes) x.1).getD p 0 = k then
        (x.2 (ravelSol (List.zipWith gatherVar sols x.1))).getD p 0 else 0
    have e1 : ∀ T : List (Nat × (List K → List K)),
        T.map ((fun t : Nat × List K => ∑ p ∈ Finset.range (localSize fes),
          if (cellInds fes t.1).getD p 0 = k then t.2.getD p 0 else 0) ∘
          fun t => (t.1, t.2 (cellSolFlat fes sols t.1))) = (T.map (resolve fes)).map φ := by
      intro T
      rw [List.map_map]
      rfl
    have e2 : ∀ T : List (Nat × (List K → List K)),
        T.map ((fun t : Nat × List K => ∑ p ∈ Finset.range (localSize fes),
          if (cellInds fes' t.1).getD p 0 = k then t.2.getD p 0 else 0) ∘
          fun t => (t.1, t.2 (cellSolFlat fes' sols t.1))) = (T.map (resolve fes')).map φ := by
      intro T
      rw [List.map_map]
      refine List.map_congr_left fun t _ => ?_
      have hci : cellInds fes' t.1 = findInd fes (offsets fes) (cellNodes fes' t.1) := by
        rw [cellInds, offsets_congr hsol, findInd_congr hsol]
      refine Finset.sum_congr rfl fun p _ => if_congr ?_ rfl rfl
      simp only [hci, resolve]
    rw [e1, e2]
    exact (hperm.map φ).sum_eq
  rw [s1, this]

/-- **C06 (order, matrix).** The same for the matrix described by the triplets. -/
theorem C06_matrix_order [AddCommMonoid K] {D' F' : Type v} (fes fes' : List FE)
    (bs bs' : List BoundaryInds)
    (kernel : List K → D → List K × List (List K)) (data : List D)
    (ks : List (List K → F → List K × List (List K)))
    (dss : List (List F)) (kernel' : List K → D' → List K × List (List K)) (data' : List D')
    (ks' : List (List K → F' → List K × List (List K))) (dss' : List (List F'))
    (wf : WFArgs fes bs data ks dss) (wf' : WFArgs fes' bs' data' ks' dss')
    (hk : JacOk fes (cellTerms kernel data ++ faceTerms bs ks dss))
    (hk' : JacOk fes' (cellTerms kernel' data' ++ faceTerms bs' ks' dss'))
    (hsol : solShapes fes' = solShapes fes) (hcell : cellShapes fes' = cellShapes fes)
    (hperm : ((cellTerms kernel' data' ++ faceTerms bs' ks' dss').map (resolve fes')).Perm
      ((cellTerms kernel data ++ faceTerms bs ks dss).map (resolve fes)))
    (sols : List (List (List K))) (hs : HasShapes (solShapes fes) sols) :
    ∃ R V R' V', computeNewton fes bs kernel data ks dss sols = .ok (R, V) ∧
      computeNewton fes' bs' kernel' data' ks' dss' sols = .ok (R', V') ∧
      ∀ r c, cooEntry (cooI fes bs) (cooJ fes bs) V r c
        = cooEntry (cooI fes' bs') (cooJ fes' bs') V' r c := by
  have hs' : HasShapes (solShapes fes') sols := by rw [hsol]; exact hs
  obtain ⟨R, V, r1, -, -, -, -, -, r3⟩ := C04_triplets fes bs kernel data ks dss wf hk sols hs _
    (isLocal_cellSolFlat fes wf.mesh sols hs) _ (isGlobal_cellInds fes wf.mesh)
  obtain ⟨R', V', s1, -, -, -, -, -, s3⟩ := C04_triplets fes' bs' kernel' data' ks' dss' wf' hk' sols
    hs' _ (isLocal_cellSolFlat fes' wf'.mesh sols hs') _ (isGlobal_cellInds fes' wf'.mesh)
  have hm : localSize fes' = localSize fes := by rw [localSize_eq, localSize_eq, hcell]
  refine ⟨R, V, R', V', r1, s1, fun r c => ?_⟩
  rw [r3, s3, matSum, matSum, List.map_map, List.map_map, hm]
  let φ : List (List Nat) × (List K → List K × List (List K)) → K := fun x =>
    ∑ p ∈ Finset.range (localSize fes), ∑ q ∈ Finset.range (localSize fes),
      if (findInd fes (offsets fes) x.1).getD p 0 = r ∧ (findInd fes (offsets fes) x.1).getD q 0 = c then
      ((x.2 (ravelSol (List.zipWith gatherVar sols x.1))).2.getD p []).getD q 0 else 0
  refine Eq.trans (b := (((cellTerms kernel data ++ faceTerms bs ks dss).map (resolve fes)).map φ).sum)
    ?_ (Eq.trans (hperm.map φ).sum_eq.symm ?_)
  · rw [List.map_map]; rfl
  · rw [List.map_map]
    congr 1
    refine List.map_congr_left fun t _ => ?_
    have hci : cellInds fes' t.1 = findInd fes (offsets fes) (cellNodes fes' t.1) := by
      rw [cellInds, offsets_congr hsol, findInd_congr hsol]
    refine Finset.sum_congr rfl fun p _ => Finset.sum_congr rfl fun q _ => if_congr ?_ rfl rfl
    simp only [hci, resolve]

/-- Reordering the cells of every variable: new cell `e` is old cell `perm[e]`. -/
def reorderCells (perm : List Nat) (fes : List FE) : List FE :=
  fes.map fun fe => { fe with cells := perm.map fun e => fe.cells.getD e [] }

theorem faceTerms_resolve_perm (fes : List FE) (perm : List Nat)
    (bs : List BoundaryInds) (bs' : List BoundaryInds) (ks : List (List K → F → β))
    (dss dss' : List (List F)) (hb' : WFBoundary (reorderCells perm fes) bs')
    (hl : bs'.length = bs.length) (hl2 : dss.length = bs.length) (hl3 : dss'.length = bs.length)
    (hlp : ∀ fe ∈ fes, fe.cells.length = perm.length)
    (hface : ∀ j < bs.length,
      (((bs'.getD j []).map fun p => perm.getD p.1 0).zip (dss'.getD j [])).Perm
        (((bs.getD j []).map Prod.fst).zip (dss.getD j []))) :
    ((faceTerms bs' ks dss').map (resolve (reorderCells perm fes))).Perm
      ((faceTerms bs ks dss).map (resolve fes)) := by
  induction bs generalizing bs' ks dss dss' with
  | nil =>
    have : bs' = [] := by simpa using hl
    subst this; simp [faceTerms]
  | cons b bs ih =>
    cases bs' with
    | nil => simp at hl
    | cons b' bs' =>
      cases dss with
      | nil => simp at hl2
      | cons ds dss =>
        cases dss' with
        | nil => simp at hl3
        | cons ds' dss' =>
          cases ks with
          | nil => simp [faceTerms]
          | cons k ks =>
            simp only [faceTerms, List.map_append]
            refine List.Perm.append ?_ (ih bs' ks dss dss' (fun x hx => hb' x (by simp [hx]))
              (by simpa using hl) (by simpa using hl2) (by simpa using hl3) fun j hj => ?_)
            · have h0 := hface 0 (by simp)
              simp only [List.getD_cons_zero] at h0
              have h1 := h0.map fun x : Nat × F => ((cellNodes fes x.1, fun s => k s x.2) :
                List (List Nat) × (List K → β))
              have e1 : ((b.map Prod.fst).zip ds).map (fun x : Nat × F =>
                  ((cellNodes fes x.1, fun s => k s x.2) : List (List Nat) × (List K → β)))
                  = (List.zipWith (fun (p : Nat × Nat) d => (p.1, fun s => k s d)) b ds).map
                    (resolve fes) := by
                refine List.ext_getElem (by simp) fun i h1 h2 => ?_
                simp [resolve]
              have e2 : ((b'.map fun p => perm.getD p.1 0).zip ds').map (fun x : Nat × F =>
                  ((cellNodes fes x.1, fun s => k s x.2) : List (List Nat) × (List K → β)))
                  = (List.zipWith (fun (p : Nat × Nat) d => (p.1, fun s => k s d)) b' ds').map
                    (resolve (reorderCells perm fes)) := by
                refine List.ext_getElem (by simp) fun i h1 h2 => ?_
                simp only [List.length_map, List.length_zip, List.length_zipWith] at h1 h2
                have hi : i < b'.length := by omega
                have hlt := hb' b' (by simp) _ (List.getElem_mem hi)
                simp only [List.getElem_map, List.getElem_zip, resolve, List.getElem_zipWith,
                  cellNodes, reorderCells, List.map_map, Prod.mk.injEq, and_true]
                refine List.map_congr_left fun fe hfe => ?_
                have hnc : numCells (reorderCells perm fes) = perm.length := by
                  cases fes with
                  | nil => simp at hfe
                  | cons f fs => simp [numCells, reorderCells]
                rw [hnc] at hlt
                simp only [Function.comp_apply]
                rw [List.getD_eq_getElem (List.map _ perm) [] (by simpa using hlt),
                  List.getElem_map, List.getD_eq_getElem perm 0 hlt]
              rw [e1, e2] at h1
              exact h1
            · have := hface (j + 1) (by simpa using hj)
              simpa using this

theorem wfMesh_reorder (fes : List FE) (hm : WFMesh fes) (perm : List Nat)
    (hp : perm.Perm (List.range (numCells fes))) :
    WFMesh (reorderCells perm fes) := by
  intro fe hfe
  obtain ⟨fe0, h0, rfl⟩ := List.mem_map.1 hfe
  have hlen : perm.length = numCells fes := by simpa using hp.length_eq
  have hnc : numCells (reorderCells perm fes) = perm.length := by
    cases fes with
    | nil => simp at h0
    | cons f fs => simp [numCells, reorderCells]
  refine ⟨by simp [hnc], fun cell hcell => ?_⟩
  obtain ⟨e, he, rfl⟩ := List.mem_map.1 hcell
  have he' : e < fe0.cells.length := by
    rw [(hm fe0 h0).1]; exact List.mem_range.1 (hp.mem_iff.1 he)
  refine (hm fe0 h0).2 _ ?_
  rw [List.getD_eq_getElem _ _ he']
  exact List.getElem_mem _

theorem cellTerms_resolve_perm (fes : List FE) (perm : List Nat) (kernel : List K → D → β)
    (data : List D) (d0 : D) (hp : perm.Perm (List.range data.length)) :
    ((cellTerms kernel (perm.map fun e => data.getD e d0)).map (resolve (reorderCells perm fes))).Perm
      ((cellTerms kernel data).map (resolve fes)) := by
  have h := hp.map fun e => ((cellNodes fes e, fun s => kernel s (data.getD e d0)) :
    List (List Nat) × (List K → β))
  have e1 : perm.map (fun e => ((cellNodes fes e, fun s => kernel s (data.getD e d0)) :
      List (List Nat) × (List K → β)))
      = (cellTerms kernel (perm.map fun e => data.getD e d0)).map (resolve (reorderCells perm fes)) := by
    refine List.ext_getElem (by simp [cellTerms]) fun i h1 h2 => ?_
    have hi : i < perm.length := by simpa using h1
    simp only [List.getElem_map, cellTerms, List.getElem_mapIdx, resolve, cellNodes, reorderCells,
      List.map_map, Prod.mk.injEq, and_true]
    refine List.map_congr_left fun fe _ => ?_
    simp only [Function.comp_apply]
    rw [List.getD_eq_getElem (List.map _ perm) [] (by simpa using hi), List.getElem_map]
  have e2 : (List.range data.length).map (fun e => ((cellNodes fes e, fun s => kernel s (data.getD e d0)) :
      List (List Nat) × (List K → β))) = (cellTerms kernel data).map (resolve fes) := by
    refine List.ext_getElem (by simp [cellTerms]) fun i h1 h2 => ?_
    have hi : i < data.length := by simpa using h1
    simp [cellTerms, resolve, List.getElem?_eq_getElem hi]
  rw [e1, e2] at h
  exact h

/-- **C06 (cell order).** Reordering the cells together with their data, and listing the selected
faces in any order (with their data), leaves the residual unchanged. -/
theorem C06_cell_permutation [AddCommMonoid K] (fes : List FE) (bs bs' : List BoundaryInds)
    (kernel : List K → D → List K) (data : List D) (d0 : D) (ks : List (List K → F → List K))
    (dss dss' : List (List F)) (perm : List Nat)
    (hp : perm.Perm (List.range (numCells fes)))
    (wf : WFArgs fes bs data ks dss)
    (wf' : WFArgs (reorderCells perm fes) bs' (perm.map fun e => data.getD e d0) ks dss')
    (hface : ∀ j < bs.length,
      (((bs'.getD j []).map fun p => perm.getD p.1 0).zip (dss'.getD j [])).Perm
        (((bs.getD j []).map Prod.fst).zip (dss.getD j [])))
    (hk : ∀ d : D, ∀ s : List K, s.length = localSize fes → (kernel s d).length = localSize fes)
    (hkf : ∀ k ∈ ks, ∀ (d : F) (s : List K), s.length = localSize fes →
      (k s d).length = localSize fes)
    (sols : List (List (List K))) (hs : HasShapes (solShapes fes) sols) :
    ∃ R, computeResidual fes bs kernel data ks dss sols = .ok R ∧
      computeResidual (reorderCells perm fes) bs' kernel (perm.map fun e => data.getD e d0) ks dss'
        sols = .ok R := by
  have hsol : solShapes (reorderCells perm fes) = solShapes fes := by
    simp [solShapes, reorderCells, Function.comp_def]
  have hcell : cellShapes (reorderCells perm fes) = cellShapes fes := by
    simp [cellShapes, reorderCells, Function.comp_def]
  have hls : localSize (reorderCells perm fes) = localSize fes := by
    rw [localSize_eq, localSize_eq, hcell]
  have hlp : ∀ fe ∈ fes, fe.cells.length = perm.length := fun fe hfe => by
    rw [(wf.mesh fe hfe).1]; simpa using hp.length_eq.symm
  have kok : ∀ (bs : List BoundaryInds) (data : List D) (dss : List (List F)),
      KernelOk fes (cellTerms kernel data ++ faceTerms bs ks dss) := by
    intro bs data dss t ht s hsl
    rcases List.mem_append.1 ht with h | h
    · obtain ⟨j, hj, rfl⟩ := List.mem_iff_getElem.1 h
      simp only [cellTerms, List.getElem_mapIdx]
      exact hk _ s hsl
    · clear wf wf' hface ht
      induction bs generalizing ks dss with
      | nil => simp [faceTerms] at h
      | cons b bs ih =>
        cases ks with
        | nil => simp [faceTerms] at h
        | cons k ks =>
          cases dss with
          | nil => simp [faceTerms] at h
          | cons ds dss =>
            rw [faceTerms] at h
            rcases List.mem_append.1 h with h | h
            · obtain ⟨j, hj, rfl⟩ := List.mem_iff_getElem.1 h
              simp only [List.getElem_zipWith]
              exact hkf k (by simp) _ s hsl
            · exact ih ks (fun k hk => hkf k (by simp [hk])) dss h
  refine C06_residual_order fes (reorderCells perm fes) bs bs' kernel data ks dss kernel _ ks dss'
    wf wf' (kok _ _ _) (fun t ht s hsl => by rw [hls] at hsl ⊢; exact kok _ _ _ t ht s hsl) hsol hcell ?_
    sols hs
  rw [List.map_append, List.map_append]
  refine List.Perm.append (cellTerms_resolve_perm fes perm kernel data d0
    (by rw [wf.data]; exact hp)) ?_
  refine faceTerms_resolve_perm fes perm bs bs' ks dss dss' wf'.boundary ?_ wf.faces ?_ hlp hface
  · rw [← wf.kernels, wf'.kernels]
  · rw [wf'.faces, ← wf.kernels, wf'.kernels]

/-! ### Renumbering of the nodes -/

/-- Renumbered connectivity: node `n` of variable `i` becomes `π i n`. -/
def renumber (π : Nat → Nat → Nat) (fes : List FE) : List FE :=
  fes.mapIdx fun i fe => { fe with cells := fe.cells.map fun cell => cell.map (π i) }

/-- `π i` is a permutation of the nodes of variable `i`. -/
def Renumbering (fes : List FE) (π : Nat → Nat → Nat) : Prop :=
  ∀ i (hi : i < fes.length), Set.BijOn (π i) (Set.Iio fes[i].numTotalNodes)
    (Set.Iio fes[i].numTotalNodes)

theorem renumber_length (π : Nat → Nat → Nat) (fes : List FE) :
    (renumber π fes).length = fes.length := by simp [renumber]

theorem renumber_getElem (π : Nat → Nat → Nat) (fes : List FE) (i : Nat) (hi : i < fes.length) :
    (renumber π fes)[i]'(by rw [renumber_length]; exact hi)
      = { fes[i] with cells := fes[i].cells.map fun cell => cell.map (π i) } := by
  simp [renumber]

theorem numCells_renumber (π : Nat → Nat → Nat) (fes : List FE) :
    numCells (renumber π fes) = numCells fes := by
  cases fes with
  | nil => rfl
  | cons f fs => simp [numCells, renumber, List.mapIdx_cons]

theorem solShapes_renumber (π : Nat → Nat → Nat) (fes : List FE) :
    solShapes (renumber π fes) = solShapes fes := by
  refine List.ext_getElem (by simp [solShapes, renumber]) fun i h1 h2 => ?_
  simp [solShapes, renumber]

theorem cellShapes_renumber (π : Nat → Nat → Nat) (fes : List FE) :
    cellShapes (renumber π fes) = cellShapes fes := by
  refine List.ext_getElem (by simp [cellShapes, renumber]) fun i h1 h2 => ?_
  simp [cellShapes, renumber]

theorem localSize_renumber (π : Nat → Nat → Nat) (fes : List FE) :
    localSize (renumber π fes) = localSize fes := by
  rw [localSize_eq, localSize_eq, cellShapes_renumber]

theorem wfMesh_renumber {fes : List FE} (hm : WFMesh fes) {π : Nat → Nat → Nat}
    (hπ : Renumbering fes π) : WFMesh (renumber π fes) := by
  intro fe hfe
  obtain ⟨i, hi, rfl⟩ := List.mem_iff_getElem.1 hfe
  rw [renumber_length] at hi
  rw [renumber_getElem π fes i hi]
  have h0 := hm _ (List.getElem_mem hi)
  refine ⟨by simp [numCells_renumber, h0.1], fun cell hcell => ?_⟩
  obtain ⟨cell0, hc0, rfl⟩ := List.mem_map.1 hcell
  refine ⟨by simp [(h0.2 _ hc0).1], fun n hn => ?_⟩
  obtain ⟨n0, hn0, rfl⟩ := List.mem_map.1 hn
  exact (hπ i hi).mapsTo ((h0.2 _ hc0).2 n0 hn0)

theorem nodeOf_renumber {fes : List FE} (hm : WFMesh fes) (π : Nat → Nat → Nat) {i e a : Nat}
    (hi : i < fes.length) (he : e < numCells fes) (ha : a < fes[i].numNodes) :
    nodeOf (renumber π fes) i e a = π i (nodeOf fes i e a) := by
  have hi' : i < (renumber π fes).length := by rw [renumber_length]; exact hi
  rw [nodeOf_eq _ i e a hi', nodeOf_eq _ i e a hi]
  rw [renumber_getElem π fes i hi]
  have he' : e < fes[i].cells.length := by rw [(hm _ (List.getElem_mem hi)).1]; exact he
  have ha' := cell_length hm hi he
  rw [List.getD_eq_getElem _ _ he'] at ha'
  rw [List.getD_eq_getElem (List.map _ _) [] (by simpa using he'), List.getElem_map,
    List.getD_eq_getElem fes[i].cells [] he',
    List.getD_eq_getElem (List.map _ _) 0 (by simpa [ha'] using ha), List.getElem_map,
    List.getD_eq_getElem (fes[i].cells[e]) 0 (by simpa [ha'] using ha)]

theorem localPos_renumber (π : Nat → Nat → Nat) (fes : List FE) {i : Nat} (hi : i < fes.length)
    (a c : Nat) : localPos (renumber π fes) i a c = localPos fes i a c := by
  rw [localPos_eq _ i a c (by rw [renumber_length]; exact hi), localPos_eq _ i a c hi,
    cellShapes_renumber, renumber_getElem π fes i hi]

theorem dofNum_renumber (π : Nat → Nat → Nat) (fes : List FE) {i : Nat} (hi : i < fes.length)
    (n c : Nat) : dofNum (renumber π fes) i n c = dofNum fes i n c := by
  rw [dofNum_eq _ i n c (by rw [renumber_length]; exact hi), dofNum_eq _ i n c hi,
    solShapes_renumber, renumber_getElem π fes i hi]

theorem isLocal_renumber [Zero K] {fes : List FE} (hm : WFMesh fes) {π : Nat → Nat → Nat}
    {sols sols' : List (List (List K))}
    (hval : ∀ i (hi : i < fes.length), ∀ n < fes[i].numTotalNodes, ∀ c < fes[i].vec,
      at3 sols' i (π i n) c = at3 sols i n c) {e : Nat} (he : e < numCells fes) {x : List K}
    (h : IsLocal fes sols e x) : IsLocal (renumber π fes) sols' e x := by
  refine ⟨by rw [localSize_renumber]; exact h.1, fun i hi a ha c hc => ?_⟩
  rw [renumber_length] at hi
  rw [renumber_getElem π fes i hi] at ha hc
  rw [localPos_renumber π fes hi, nodeOf_renumber hm π hi he ha,
    hval i hi _ (by rw [nodeOf_eq fes i e a hi]; exact node_lt hm hi he ha) c hc]
  exact h.2 i hi a ha c hc

/-- **C06 (renumbering, residual).** If the nodes of every variable are renumbered and the solution
is permuted accordingly, the residual is permuted accordingly. -/
theorem C06_renumber_residual [AddCommMonoid K] (fes : List FE) (bs : List BoundaryInds)
    (kernel : List K → D → List K) (data : List D) (ks : List (List K → F → List K))
    (dss : List (List F)) (wf : WFArgs fes bs data ks dss)
    (hk : KernelOk fes (cellTerms kernel data ++ faceTerms bs ks dss))
    (π : Nat → Nat → Nat) (hπ : Renumbering fes π)
    (sols sols' : List (List (List K))) (hs : HasShapes (solShapes fes) sols)
    (hs' : HasShapes (solShapes fes) sols')
    (hval : ∀ i (hi : i < fes.length), ∀ n < fes[i].numTotalNodes, ∀ c < fes[i].vec,
      at3 sols' i (π i n) c = at3 sols i n c) :
    ∃ R R', computeResidual fes bs kernel data ks dss sols = .ok R ∧
      computeResidual (renumber π fes) bs kernel data ks dss sols' = .ok R' ∧
      ∀ i (hi : i < fes.length), ∀ n < fes[i].numTotalNodes, ∀ c < fes[i].vec,
        at3 R' i (π i n) c = at3 R i n c := by
  have hnc := numCells_renumber π fes
  have wf' : WFArgs (renumber π fes) bs data ks dss :=
    ⟨wfMesh_renumber wf.mesh hπ, by rw [hnc]; exact wf.cells,
      fun b hb p hp => by rw [hnc]; exact wf.boundary b hb p hp, by rw [hnc]; exact wf.data,
      wf.kernels, wf.faces, wf.face⟩
  have hk' : KernelOk (renumber π fes) (cellTerms kernel data ++ faceTerms bs ks dss) := by
    intro t ht s hsl
    rw [localSize_renumber] at hsl ⊢
    exact hk t ht s hsl
  have hloc := isLocal_cellSolFlat fes wf.mesh sols hs
  obtain ⟨R, r1, -, r3⟩ := C03_residual_sum fes bs kernel data ks dss wf hk sols hs _ hloc
  obtain ⟨R', s1, -, s3⟩ := C03_residual_sum (renumber π fes) bs kernel data ks dss wf' hk' sols'
    (by rw [solShapes_renumber]; exact hs') (cellSolFlat fes sols)
    (fun e he => by rw [hnc] at he; exact isLocal_renumber wf.mesh hval he (hloc e he))
  refine ⟨R, R', r1, s1, fun i hi n hn c hc => ?_⟩
  have hi' : i < (renumber π fes).length := by rw [renumber_length]; exact hi
  rw [r3 i hi n c hc, s3 i hi' (π i n) c (by rw [renumber_getElem π fes i hi]; exact hc),
    nodalSum, nodalSum, numNodes_getD _ i hi', numNodes_getD _ i hi, renumber_getElem π fes i hi]
  congr 1
  refine List.map_congr_left fun t ht => ?_
  obtain ⟨t0, ht0, rfl⟩ := List.mem_map.1 ht
  have hlt := wf.term_lt t0 ht0
  refine Finset.sum_congr rfl fun a ha => ?_
  have ha' := Finset.mem_range.1 ha
  simp only at ha' ⊢
  rw [nodeOf_renumber wf.mesh π hi hlt ha', localPos_renumber π fes hi]
  refine if_congr ⟨fun h => (hπ i hi).injOn ?_ hn h, fun h => by rw [h]⟩ rfl rfl
  rw [Set.mem_Iio, nodeOf_eq fes i _ a hi]
  exact node_lt wf.mesh hi hlt ha'

/-- **C06 (renumbering, matrix).** Rows and columns of the matrix are permuted accordingly. -/
theorem C06_renumber_matrix [AddCommMonoid K] (fes : List FE) (bs : List BoundaryInds)
    (kernel : List K → D → List K × List (List K)) (data : List D)
    (ks : List (List K → F → List K × List (List K)))
    (dss : List (List F)) (wf : WFArgs fes bs data ks dss)
    (hk : JacOk fes (cellTerms kernel data ++ faceTerms bs ks dss))
    (π : Nat → Nat → Nat) (hπ : Renumbering fes π)
    (sols sols' : List (List (List K))) (hs : HasShapes (solShapes fes) sols)
    (hs' : HasShapes (solShapes fes) sols')
    (hval : ∀ i (hi : i < fes.length), ∀ n < fes[i].numTotalNodes, ∀ c < fes[i].vec,
      at3 sols' i (π i n) c = at3 sols i n c) :
    ∃ R V R' V', computeNewton fes bs kernel data ks dss sols = .ok (R, V) ∧
      computeNewton (renumber π fes) bs kernel data ks dss sols' = .ok (R', V') ∧
      ∀ i (hi : i < fes.length), ∀ n < fes[i].numTotalNodes, ∀ c < fes[i].vec,
      ∀ j (hj : j < fes.length), ∀ l < fes[j].numTotalNodes, ∀ d < fes[j].vec,
        cooEntry (cooI (renumber π fes) bs) (cooJ (renumber π fes) bs) V'
            (dofNum fes i (π i n) c) (dofNum fes j (π j l) d)
          = cooEntry (cooI fes bs) (cooJ fes bs) V (dofNum fes i n c) (dofNum fes j l d) := by
  have hnc := numCells_renumber π fes
  have wf' : WFArgs (renumber π fes) bs data ks dss :=
    ⟨wfMesh_renumber wf.mesh hπ, by rw [hnc]; exact wf.cells,
      fun b hb p hp => by rw [hnc]; exact wf.boundary b hb p hp, by rw [hnc]; exact wf.data,
      wf.kernels, wf.faces, wf.face⟩
  have hk' : JacOk (renumber π fes) (cellTerms kernel data ++ faceTerms bs ks dss) := by
    intro t ht s hsl
    rw [localSize_renumber] at hsl ⊢
    exact hk t ht s hsl
  have hloc := isLocal_cellSolFlat fes wf.mesh sols hs
  have hg := isGlobal_cellInds fes wf.mesh
  have hg' := isGlobal_cellInds (renumber π fes) wf'.mesh
  obtain ⟨R, V, r1, -, -, -, -, -, r3⟩ := C04_triplets fes bs kernel data ks dss wf hk sols hs _ hloc
    _ hg
  obtain ⟨R', V', s1, -, -, -, -, -, s3⟩ := C04_triplets (renumber π fes) bs kernel data ks dss wf'
    hk' sols' (by rw [solShapes_renumber]; exact hs') (cellSolFlat fes sols)
    (fun e he => by rw [hnc] at he; exact isLocal_renumber wf.mesh hval he (hloc e he)) _ hg'
  -- relation between the two numberings
  have key : ∀ e < numCells fes, ∀ p < localSize fes, ∀ i (hi : i < fes.length),
      ∀ n < fes[i].numTotalNodes, ∀ c < fes[i].vec,
      ((cellInds (renumber π fes) e).getD p 0 = dofNum fes i (π i n) c ↔
        (cellInds fes e).getD p 0 = dofNum fes i n c) := by
    intro e he p hp i hi n hn c hc
    obtain ⟨i', a, c', hi', ha, hc', rfl⟩ := exists_localPos fes p hp
    have h1 := hg e he i' hi' a ha c' hc'
    have h2 := hg' e (by rw [hnc]; exact he) i' (by rw [renumber_length]; exact hi') a
      (by rw [renumber_getElem π fes i' hi']; exact ha) c'
      (by rw [renumber_getElem π fes i' hi']; exact hc')
    simp only at h1 h2
    rw [localPos_renumber π fes hi', dofNum_renumber π fes hi', nodeOf_renumber wf.mesh π hi' he ha]
      at h2
    rw [h1, h2]
    have hnl : nodeOf fes i' e a < fes[i'].numTotalNodes := by
      rw [nodeOf_eq fes i' e a hi']; exact node_lt wf.mesh hi' he ha
    constructor
    · intro h
      obtain ⟨rfl, h4, rfl⟩ := dofNum_inj fes hi' ((hπ i' hi').mapsTo hnl) hc' hi
        ((hπ i hi).mapsTo hn) hc h
      rw [(hπ i' hi).injOn hnl hn h4]
    · intro h
      obtain ⟨rfl, rfl, rfl⟩ := dofNum_inj fes hi' hnl hc' hi hn hc h
      rfl
  refine ⟨R, V, R', V', r1, s1, fun i hi n hn c hc j hj l hl d hd => ?_⟩
  rw [r3, s3, matSum, matSum, localSize_renumber]
  congr 1
  refine List.map_congr_left fun t ht => ?_
  obtain ⟨t0, ht0, rfl⟩ := List.mem_map.1 ht
  have hlt := wf.term_lt t0 ht0
  refine Finset.sum_congr rfl fun p hp => Finset.sum_congr rfl fun q hq => ?_
  refine if_congr (and_congr ?_ ?_) rfl rfl
  · exact key _ hlt p (Finset.mem_range.1 hp) i hi n hn c hc
  · exact key _ hlt q (Finset.mem_range.1 hq) j hj l hl d hd

/-- Swapping nodes 0 and 2 of the example mesh is a renumbering; swapping the two cells is a
reordering (the face moves from cell 1 to cell 0). -/
example : Renumbering exFes fun _ n => if n = 0 then 2 else if n = 2 then 0 else n := by
  intro i hi
  have : i = 0 := by simp [exFes] at hi; omega
  subst this
  refine ⟨fun n hn => ?_, fun a ha b hb h => ?_, fun n hn => ⟨if n = 0 then 2 else if n = 2 then 0 else n, ?_, ?_⟩⟩ <;>
    simp [exFes] at * <;> split_ifs at * <;> omega

example : [1, 0].Perm (List.range (numCells exFes)) ∧
    WFArgs (K := Int) (β := List Int) (reorderCells [1, 0] exFes) [[(0, 0)]] [(2 : Int), 1]
      [fun s (d : Int) => s.map (· + d)] [[5]] ∧
    ((([(0, 0)] : BoundaryInds).map fun p => [1, 0].getD p.1 0).zip [(5 : Int)]).Perm
        ((([(1, 0)] : BoundaryInds).map Prod.fst).zip [5]) :=
  ⟨by decide, ⟨by decide, by decide, by decide, by decide, by decide, by decide, by decide⟩, by decide⟩

end JaxFem
