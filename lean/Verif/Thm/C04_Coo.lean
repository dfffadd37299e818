import Verif.Thm.C03_Residual

/-!
# C04: the sparse triplets describe the sum of the element matrices
-/

namespace JaxFem

universe u v w
variable {K : Type u} {D : Type v} {F : Type v} {β : Type w}

/-! ### Helper lemmas -/

theorem cellInds_localPos {fes : List FE} (hm : WFMesh fes) {e i a c : Nat}
    (he : e < numCells fes) (hi : i < fes.length) (ha : a < fes[i].numNodes)
    (hc : c < fes[i].vec) :
    (cellInds fes e).getD (localPos fes i a c) 0 = dofNum fes i (nodeOf fes i e a) c := by
  have := findInd_getD (cellNodes_shaped hm e he) (offsets_length_ge fes) i a c hi ha hc
  rw [cellInds, localPos_eq fes i a c hi, this, dofNum_eq fes i _ c hi, offsets_getD fes i hi,
    cellNodes_getD fes e i hi, nodeOf_eq fes i e a hi]
  ring

theorem exists_localPos (fes : List FE) (p : Nat) (hp : p < localSize fes) :
    ∃ i a c, ∃ hi : i < fes.length, a < fes[i].numNodes ∧ c < fes[i].vec ∧
      p = localPos fes i a c := by
  rw [localSize_eq] at hp
  obtain ⟨i, a, c, h3, h4, h5, rfl⟩ := exists_block _ p hp
  have hi : i < fes.length := by simpa [cellShapes] using h3
  have e1 := cellShapes_getD fes i hi
  rw [e1] at h4 h5 ⊢
  exact ⟨i, a, c, hi, h4, h5, by rw [localPos_eq fes i a c hi]⟩

theorem isGlobal_cellInds (fes : List FE) (hm : WFMesh fes) :
    IsGlobal fes fun e p => (cellInds fes e).getD p 0 :=
  fun _ he _ hi _ ha _ hc => cellInds_localPos hm he hi ha hc

/-- On valid cells and positions the numbering is determined. -/
theorem IsGlobal.eq_cellInds {fes : List FE} (hm : WFMesh fes) {g : Nat → Nat → Nat}
    (hg : IsGlobal fes g) {e p : Nat} (he : e < numCells fes) (hp : p < localSize fes) :
    g e p = (cellInds fes e).getD p 0 := by
  obtain ⟨i, a, c, hi, ha, hc, rfl⟩ := exists_localPos fes p hp
  rw [hg e he i hi a ha c hc, cellInds_localPos hm he hi ha hc]

theorem IsGlobal.lt {fes : List FE} (hm : WFMesh fes) {g : Nat → Nat → Nat}
    (hg : IsGlobal fes g) {e p : Nat} (he : e < numCells fes) (hp : p < localSize fes) :
    g e p < numDofs fes := by
  obtain ⟨i, a, c, hi, ha, hc, rfl⟩ := exists_localPos fes p hp
  rw [hg e he i hi a ha c hc, ← (C01_row_number fes i _ c hi).1]
  refine C01_in_range fes hi ?_ hc
  rw [nodeOf_eq fes i e a hi]
  exact node_lt hm hi he ha

theorem flatMap_congr' {α γ : Type*} {l : List α} {f g : α → List γ} (h : ∀ x ∈ l, f x = g x) :
    l.flatMap f = l.flatMap g := by
  rw [List.flatMap_def, List.flatMap_def, List.map_congr_left h]

theorem rowI_zip_rowJ (row : List Nat) :
    (rowI row).zip (rowJ row) = row.flatMap fun r => row.map fun c => (r, c) := by
  rw [rowI, rowJ, flatMap_zip_flatMap _ _ row row rfl (by simp)]
  have : ∀ (l : List Nat) (f : Nat × Nat → List (Nat × Nat)),
      (l.zip l).flatMap f = l.flatMap fun r => f (r, r) := by
    intro l f
    induction l with
    | nil => rfl
    | cons x l ih => simp [ih]
  rw [this]
  refine flatMap_congr' fun r _ => ?_
  refine List.ext_getElem (by simp) fun k h1 h2 => by simp

theorem row_triplets_sum [AddCommMonoid K] (row : List Nat) (M : List (List K))
    (hM : M.length = row.length) (hr : ∀ r ∈ M, r.length = row.length)
    (f : (Nat × Nat) × K → K) :
    ((((rowI row).zip (rowJ row)).zip M.flatten).map f).sum
      = ∑ p ∈ Finset.range row.length, ∑ q ∈ Finset.range row.length,
          f ((row.getD p 0, row.getD q 0), (M.getD p []).getD q 0) := by
  rw [rowI_zip_rowJ]
  have e1 : M.flatten = M.flatMap id := by simp [List.flatMap_def]
  rw [e1, flatMap_zip_flatMap _ _ row M hM.symm
    (fun p hp => by simp [hr _ (List.of_mem_zip hp).2]), sum_map_flatMap,
    sum_zip_getD row M 0 [] hM.symm]
  refine Finset.sum_congr rfl fun p hp => ?_
  have hp' := Finset.mem_range.1 hp
  have hlen : (M.getD p []).length = row.length := by
    rw [List.getD_eq_getElem _ _ (by omega)]
    exact hr _ (List.getElem_mem _)
  simp only [id]
  rw [sum_zip_getD _ _ (0, 0) 0 (by simpa using hlen.symm)]
  rw [List.length_map]
  refine Finset.sum_congr rfl fun q hq => ?_
  have hq' := Finset.mem_range.1 hq
  congr 3
  rw [List.getD_eq_getElem _ _ (by simpa using hq'), List.getElem_map,
    List.getD_eq_getElem _ _ hq']

theorem rowI_length (row : List Nat) : (rowI row).length = row.length * row.length := by
  simp [rowI, List.length_flatMap]

theorem rowJ_length (row : List Nat) : (rowJ row).length = row.length * row.length := by
  simp [rowJ, List.length_flatMap]

theorem flatMap_zip_fst {γ : Type*} (bs : List BoundaryInds) (W : List (List γ))
    (h1 : W.length = bs.length) (h2 : ∀ bw ∈ bs.zip W, bw.2.length = bw.1.length) :
    ((bs.zip W).flatMap fun bw => (bw.1.map Prod.fst).zip bw.2).map Prod.fst
        = bs.flatMap (fun b => b.map Prod.fst) ∧
      ((bs.zip W).flatMap fun bw => (bw.1.map Prod.fst).zip bw.2).map Prod.snd = W.flatten := by
  induction bs generalizing W with
  | nil => simp at h1; simp [h1]
  | cons b bs ih =>
    cases W with
    | nil => simp at h1
    | cons w W =>
      obtain ⟨i1, i2⟩ := ih W (by simpa using h1) (fun bw hbw => h2 bw (by simp [hbw]))
      have h := h2 (b, w) (by simp)
      simp only at h
      simp only [List.zip_cons_cons, List.flatMap_cons, List.map_append, i1, i2, List.flatten_cons]
      exact ⟨by rw [List.map_fst_zip (by simp [h])], by rw [List.map_snd_zip (by simp [h])]⟩

/-- The evaluated terms (cells, then faces). -/
def evalTerms [Zero K] (fes : List FE) (sols : List (List (List K)))
    (T : List (Nat × (List K → β))) : List (Nat × β) :=
  T.map fun t => (t.1, t.2 (cellSolFlat fes sols t.1))

theorem evalTerms_fst_snd [Zero K] (fes : List FE) (bs : List BoundaryInds)
    (kernel : List K → D → β) (data : List D) (ks : List (List K → F → β)) (dss : List (List F))
    (wf : WFArgs fes bs data ks dss) (sols : List (List (List K))) :
    (evalTerms fes sols (cellTerms kernel data ++ faceTerms bs ks dss)).map Prod.fst
        = List.range (numCells fes) ++ bs.flatMap (fun b => b.map Prod.fst) ∧
      (evalTerms fes sols (cellTerms kernel data ++ faceTerms bs ks dss)).map Prod.snd
        = List.zipWith kernel (cellsSolFlat fes sols) data ++
          (computeFace (cellsSolFlat fes sols) bs ks dss).flatten := by
  have h1 := cell_terms_eval fes sols kernel data wf.data
  have h2 := face_terms_eval fes sols bs wf.boundary ks dss
  have hl : (List.zipWith kernel (cellsSolFlat fes sols) data).length = numCells fes := by
    simp [cellsSolFlat, wf.data]
  have hf := flatMap_zip_fst bs (computeFace (cellsSolFlat fes sols) bs ks dss)
    (computeFace_length _ bs ks dss wf.kernels wf.faces)
    (fun bw hbw => computeFace_mem (cellsSolFlat fes sols) bs ks dss wf.faces wf.face bw hbw)
  rw [evalTerms, List.map_append, ← h1, ← h2, List.map_append, List.map_append, hf.1, hf.2,
    List.map_fst_zip (by simp [hl]), List.map_snd_zip (by simp [hl])]
  exact ⟨rfl, rfl⟩

/-- Value/Jacobian kernels have the right output sizes. -/
def JacOk (fes : List FE) (ts : List (Nat × (List K → List K × List (List K)))) : Prop :=
  ∀ t ∈ ts, ∀ s : List K, s.length = localSize fes →
    (t.2 s).1.length = localSize fes ∧ (t.2 s).2.length = localSize fes ∧
      ∀ r ∈ (t.2 s).2, r.length = localSize fes

theorem coo_flatMap (fes : List FE) (bs : List BoundaryInds) (row : List Nat → List Nat) :
    ((allInds fes).flatMap row ++ bs.flatMap fun b => (faceInds fes b).flatMap row)
      = (List.range (numCells fes) ++ bs.flatMap (fun b => b.map Prod.fst)).flatMap
          fun e => row (cellInds fes e) := by
  rw [List.flatMap_append, allInds, List.flatMap_map, List.flatMap_assoc]
  congr 1
  refine flatMap_congr' fun b _ => ?_
  rw [faceInds, List.flatMap_map, List.flatMap_map]

theorem triplets_sum [AddCommMonoid K] (fes : List FE) (hm : WFMesh fes)
    (T : List (Nat × List (List K))) (hT : ∀ t ∈ T, t.1 < numCells fes ∧
      t.2.length = localSize fes ∧ ∀ r ∈ t.2, r.length = localSize fes)
    (f : (Nat × Nat) × K → K) :
    (((((T.map Prod.fst).flatMap fun e => rowI (cellInds fes e)).zip
        ((T.map Prod.fst).flatMap fun e => rowJ (cellInds fes e))).zip
        (T.flatMap fun t => t.2.flatten)).map f).sum
      = (T.map fun t => ∑ p ∈ Finset.range (localSize fes), ∑ q ∈ Finset.range (localSize fes),
          f (((cellInds fes t.1).getD p 0, (cellInds fes t.1).getD q 0),
            (t.2.getD p []).getD q 0)).sum := by
  induction T with
  | nil => simp
  | cons t T ih =>
    obtain ⟨h1, h2, h3⟩ := hT t (by simp)
    have hci : (cellInds fes t.1).length = localSize fes := by
      rw [cellInds_length hm t.1 h1, localSize_eq]
    have hfl : t.2.flatten.length = localSize fes * localSize fes := by
      rw [flatten_length_of_rows _ _ h3, h2]
    simp only [List.map_cons, List.flatMap_cons, List.sum_cons]
    rw [List.zip_append (by rw [rowI_length, rowJ_length]),
      List.zip_append (by simp [rowI_length, rowJ_length, hci, hfl]), List.map_append,
      List.sum_append, ih fun t' ht' => hT t' (by simp [ht'])]
    congr 1
    rw [row_triplets_sum _ _ (by rw [h2, hci]) (fun r hr => by rw [h3 r hr, hci]), hci]

/-! ### Property theorems -/

/-- **C04.** The Newton update exists; its residual is the residual of `compute_residual` for the
value part of the kernels; the triplet arrays have equal length; every index is a valid equation
number; and for every row and column the triplets sum up to the sum over all cells and selected
faces of the local Jacobian entries, local rows going to rows and local columns to columns. -/
theorem C04_triplets [AddCommMonoid K] (fes : List FE) (bs : List BoundaryInds)
    (kernelJac : List K → D → List K × List (List K)) (data : List D)
    (ks : List (List K → F → List K × List (List K))) (dss : List (List F))
    (wf : WFArgs fes bs data ks dss)
    (hk : JacOk fes (cellTerms kernelJac data ++ faceTerms bs ks dss))
    (sols : List (List (List K))) (hs : HasShapes (solShapes fes) sols)
    (loc : Nat → List K) (hloc : ∀ e < numCells fes, IsLocal fes sols e (loc e))
    (g : Nat → Nat → Nat) (hg : IsGlobal fes g) :
    ∃ R V, computeNewton fes bs kernelJac data ks dss sols = .ok (R, V) ∧
      computeResidual fes bs (fun s d => (kernelJac s d).1) data
        (ks.map fun k s d => (k s d).1) dss sols = .ok R ∧
      (cooI fes bs).length = V.length ∧ (cooJ fes bs).length = V.length ∧
      (∀ k ∈ cooI fes bs, k < totalDofs fes) ∧ (∀ k ∈ cooJ fes bs, k < totalDofs fes) ∧
      ∀ r c, cooEntry (cooI fes bs) (cooJ fes bs) V r c
        = matSum (localSize fes) g ((cellTerms kernelJac data ++ faceTerms bs ks dss).map
            fun t => (t.1, (t.2 (loc t.1)).2)) r c := by
  have hl : ∀ e < numCells fes, loc e = cellSolFlat fes sols e := fun e he =>
    (hloc e he).unique (isLocal_cellSolFlat fes wf.mesh sols hs e he)
  have hn : computeNewton fes bs kernelJac data ks dss sols = .ok
      (residualHelper fes bs ((List.zipWith kernelJac (cellsSolFlat fes sols) data).map Prod.fst)
        ((computeFace (cellsSolFlat fes sols) bs ks dss).map fun f => f.map Prod.fst),
       ((List.zipWith kernelJac (cellsSolFlat fes sols) data).flatMap fun p => p.2.flatten) ++
        (computeFace (cellsSolFlat fes sols) bs ks dss).flatMap
          fun f => f.flatMap fun p => p.2.flatten) := by
    simp only [computeNewton, C02_batching kernelJac (numCells fes) wf.cells]
    rfl
  set T := cellTerms kernelJac data ++ faceTerms bs ks dss with hT
  obtain ⟨ef, es⟩ := evalTerms_fst_snd fes bs kernelJac data ks dss wf sols
  rw [← hT] at ef es
  set P := (evalTerms fes sols T).map fun t => (t.1, t.2.2) with hP
  have hPf : P.map Prod.fst = (evalTerms fes sols T).map Prod.fst := by
    simp [hP]
  have hPt : ∀ t ∈ P, t.1 < numCells fes ∧ t.2.length = localSize fes ∧
      ∀ r ∈ t.2, r.length = localSize fes := by
    intro t ht
    simp only [hP, evalTerms, List.map_map, List.mem_map] at ht
    obtain ⟨t0, ht0, rfl⟩ := ht
    have hlt := wf.term_lt t0 ht0
    exact ⟨hlt, (hk t0 ht0 _ (isLocal_cellSolFlat fes wf.mesh sols hs t0.1 hlt).1).2⟩
  have hV : ((List.zipWith kernelJac (cellsSolFlat fes sols) data).flatMap fun p => p.2.flatten) ++
        (computeFace (cellsSolFlat fes sols) bs ks dss).flatMap
          (fun f => f.flatMap fun p => p.2.flatten) = P.flatMap fun t => t.2.flatten := by
    have : P.flatMap (fun t => t.2.flatten)
        = ((evalTerms fes sols T).map Prod.snd).flatMap fun p => p.2.flatten := by
      rw [hP, List.flatMap_map, List.flatMap_map]
    rw [this, es, List.flatMap_append]
    congr 1
    simp [List.flatMap_def, List.map_flatten, List.flatten_flatten, Function.comp_def]
  have hI : cooI fes bs = (P.map Prod.fst).flatMap fun e => rowI (cellInds fes e) := by
    rw [hPf, ef, cooI, coo_flatMap]
  have hJ : cooJ fes bs = (P.map Prod.fst).flatMap fun e => rowJ (cellInds fes e) := by
    rw [hPf, ef, cooJ, coo_flatMap]
  have hci : ∀ t ∈ P, (cellInds fes t.1).length = localSize fes := fun t ht => by
    rw [cellInds_length wf.mesh t.1 (hPt t ht).1, localSize_eq]
  have hinds : ∀ t ∈ P, ∀ k ∈ cellInds fes t.1, k < totalDofs fes := by
    intro t ht k hkm
    obtain ⟨p, hp, rfl⟩ := List.mem_iff_getElem.1 hkm
    have hp' : p < localSize fes := by rw [← hci t ht]; exact hp
    have := (isGlobal_cellInds fes wf.mesh).lt wf.mesh (hPt t ht).1 hp'
    rw [List.getD_eq_getElem _ _ hp] at this
    rwa [numDofs_eq, show totalSize (solShapes fes) = totalDofs fes by
      simp [totalDofs, totalSize, solShapes, Function.comp_def]] at this
  refine ⟨_, _, hn, ?_, ?_, ?_, ?_, ?_, ?_⟩
  · simp only [computeResidual, C02_batching _ (numCells fes) wf.cells]
    have e1 : List.zipWith (fun s d => (kernelJac s d).1) (cellsSolFlat fes sols) data
        = (List.zipWith kernelJac (cellsSolFlat fes sols) data).map Prod.fst := by
      rw [List.map_zipWith]
    have e2 : computeFace (cellsSolFlat fes sols) bs (ks.map fun k s d => (k s d).1) dss
        = (computeFace (cellsSolFlat fes sols) bs ks dss).map fun f => f.map Prod.fst := by
      refine List.ext_getElem (by simp [computeFace]) fun j h1 h2 => ?_
      simp [computeFace, List.map_zipWith]
    show Except.ok (residualHelper fes bs
      (List.zipWith (fun s d => (kernelJac s d).1) (cellsSolFlat fes sols) data) _) = _
    rw [e1, e2]
  · rw [hV, hI, List.flatMap_map, List.length_flatMap, List.length_flatMap]
    congr 1
    refine List.map_congr_left fun t ht => ?_
    obtain ⟨h1, h2, h3⟩ := hPt t ht
    rw [rowI_length, hci t ht, flatten_length_of_rows _ _ h3, h2]
  · rw [hV, hJ, List.flatMap_map, List.length_flatMap, List.length_flatMap]
    congr 1
    refine List.map_congr_left fun t ht => ?_
    obtain ⟨h1, h2, h3⟩ := hPt t ht
    rw [rowJ_length, hci t ht, flatten_length_of_rows _ _ h3, h2]
  · intro k hk'
    rw [hI, List.flatMap_map, List.mem_flatMap] at hk'
    obtain ⟨t, ht, hk'⟩ := hk'
    simp only [rowI, List.mem_flatMap, List.mem_map] at hk'
    obtain ⟨r, hr, -, -, rfl⟩ := hk'
    exact hinds t ht _ hr
  · intro k hk'
    rw [hJ, List.flatMap_map, List.mem_flatMap] at hk'
    obtain ⟨t, ht, hk'⟩ := hk'
    simp only [rowJ, List.mem_flatMap] at hk'
    obtain ⟨r, hr, hk'⟩ := hk'
    exact hinds t ht _ hk'
  · intro r c
    rw [cooEntry, hV, hI, hJ, triplets_sum fes wf.mesh P hPt, matSum]
    have : P = T.map fun t => (t.1, (t.2 (loc t.1)).2) := by
      rw [hP, evalTerms, List.map_map]
      refine List.map_congr_left fun t ht => ?_
      simp only [Function.comp_apply]
      rw [hl _ (wf.term_lt t ht)]
    rw [← this]
    congr 1
    refine List.map_congr_left fun t ht => ?_
    refine Finset.sum_congr rfl fun p hp => Finset.sum_congr rfl fun q hq => ?_
    rw [hg.eq_cellInds wf.mesh (hPt t ht).1 (Finset.mem_range.1 hp),
      hg.eq_cellInds wf.mesh (hPt t ht).1 (Finset.mem_range.1 hq)]

/-- **C04 (existence of the numbering).** The global numbering of local unknowns exists and is
unique on valid cells and positions. -/
theorem C04_numbering_exists (fes : List FE) (hm : WFMesh fes) :
    ∃ g, IsGlobal fes g ∧ ∀ g', IsGlobal fes g' →
      ∀ e < numCells fes, ∀ p < localSize fes, g' e p = g e p :=
  ⟨_, isGlobal_cellInds fes hm, fun _ h _ he _ hp => h.eq_cellInds hm he hp⟩

/-- A non-symmetric local matrix on the example mesh: row 1, column 3 of the assembled matrix is
the local entry (local row 1, local column 3) of cell 0. -/
example : JacOk (K := Int) exFes (cellTerms (fun s (_ : Int) =>
      (s, [[1, 2, 3, 4], [5, 6, 7, 8], [9, 10, 11, 12], [13, 14, 15, 16]])) [1, 2] ++
      faceTerms (F := Int) [] [] []) := by
  intro t ht s hs
  simp [cellTerms, faceTerms] at ht
  have : localSize exFes = 4 := by decide
  rcases ht with rfl | rfl <;> simp [hs, this]

example : (match computeNewton exFes [] (fun s (_ : Int) =>
      (s, [[1, 2, 3, 4], [5, 6, 7, 8], [9, 10, 11, 12], [13, 14, 15, 16]])) [1, 2]
      ([] : List (List Int → Int → List Int × List (List Int))) [] [[[0, 0], [0, 0], [0, 0]]] with
    | .ok (_, V) => (cooEntry (cooI exFes []) (cooJ exFes []) V 1 3,
        cooEntry (cooI exFes []) (cooJ exFes []) V 3 1,
        cooEntry (cooI exFes []) (cooJ exFes []) V 2 3)
    | .error _ => (0, 0, 0)) = ((8 : Int), 14, 12 + 2) := by decide

end JaxFem
