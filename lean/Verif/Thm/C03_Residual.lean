import Verif.Thm.Assembly

/-!
# C03: the residual is the sum of the contributions of the incident cells and faces
-/

namespace JaxFem

universe u v w
variable {K : Type u} {D : Type v} {F : Type v} {β : Type w}

/-! ### Helper lemmas -/

theorem cellSolFlat_hasShapes [Zero K] (fes : List FE) (hm : WFMesh fes)
    (sols : List (List (List K))) (hs : HasShapes (solShapes fes) sols) (e : Nat)
    (he : e < numCells fes) :
    HasShapes (cellShapes fes) (List.zipWith gatherVar sols (cellNodes fes e)) := by
  rw [hasShapes_iff] at hs ⊢
  have hl : sols.length = fes.length := by simpa [solShapes] using hs.1
  refine ⟨by simp [cellNodes, cellShapes, hl], fun i hi => ?_⟩
  have hi' : i < fes.length := by simpa [cellShapes] using hi
  have e0 : (List.zipWith gatherVar sols (cellNodes fes e)).getD i []
      = gatherVar (sols.getD i []) (fes[i].cells.getD e []) := by
    rw [← cellNodes_getD fes e i hi']
    have h1 : i < sols.length := by omega
    have h2 : i < (cellNodes fes e).length := by simpa [cellNodes] using hi'
    rw [List.getD_eq_getElem _ _ (by simp [h1, h2]), List.getElem_zipWith,
      List.getD_eq_getElem _ _ h1, List.getD_eq_getElem _ _ h2]
  rw [e0, cellShapes_getD fes i hi']
  refine ⟨by simp only [gatherVar, List.length_map]; exact cell_length hm hi' he, fun r hr => ?_⟩
  obtain ⟨n, hn, rfl⟩ := List.mem_map.1 hr
  have hlt := ((hm _ (List.getElem_mem hi')).2 _ (cell_mem hm hi' he)).2 n hn
  have hsi := hs.2 i (by simpa [solShapes] using hi')
  rw [solShapes_getD fes i hi'] at hsi
  refine hsi.2 _ ?_
  rw [List.getD_eq_getElem (sols.getD i []) [] (by rw [hsi.1]; exact hlt)]
  exact List.getElem_mem _

theorem isLocal_cellSolFlat [Zero K] (fes : List FE) (hm : WFMesh fes)
    (sols : List (List (List K))) (hs : HasShapes (solShapes fes) sols) (e : Nat)
    (he : e < numCells fes) : IsLocal fes sols e (cellSolFlat fes sols e) := by
  have hsh := cellSolFlat_hasShapes fes hm sols hs e he
  refine ⟨by rw [cellSolFlat, ravelSol_length hsh, localSize_eq], fun i hi a ha c hc => ?_⟩
  have hl : sols.length = fes.length := by simpa [solShapes] using hs.length_eq
  have hi' : i < (cellShapes fes).length := by simpa [cellShapes] using hi
  have e1 := cellShapes_getD fes i hi
  have := ravelSol_getD hsh i a c 0 hi' (by rw [e1]; exact ha) (by rw [e1]; exact hc)
  rw [e1] at this
  rw [localPos_eq fes i a c hi, cellSolFlat]
  simp only at this
  rw [this, at3, nodeOf_eq fes i e a hi]
  have h1 : i < sols.length := by omega
  have h2 : i < (cellNodes fes e).length := by simpa [cellNodes] using hi
  rw [List.getD_eq_getElem (List.zipWith gatherVar sols (cellNodes fes e)) [] (by simp [h1, h2]),
    List.getElem_zipWith]
  have e2 : (cellNodes fes e)[i] = fes[i].cells.getD e [] := by
    rw [← cellNodes_getD fes e i hi, List.getD_eq_getElem _ _ h2]
  have ha' : a < (fes[i].cells.getD e []).length := by rw [cell_length hm hi he]; exact ha
  rw [e2, gatherVar, List.getD_eq_getElem (List.map _ _) [] (by simpa using ha'), List.getElem_map,
    List.getD_eq_getElem (fes[i].cells.getD e []) 0 ha', List.getD_eq_getElem sols [] h1]

/-- The description of the local vector determines it. -/
theorem IsLocal.unique [Zero K] {fes : List FE} {sols : List (List (List K))} {e : Nat}
    {x y : List K} (hx : IsLocal fes sols e x) (hy : IsLocal fes sols e y) : x = y := by
  refine List.ext_getElem (hx.1.trans hy.1.symm) fun k h1 h2 => ?_
  have hk : k < totalSize (cellShapes fes) := by rw [← localSize_eq, ← hx.1]; exact h1
  obtain ⟨i, a, c, h3, h4, h5, rfl⟩ := exists_block _ k hk
  have hi : i < fes.length := by simpa [cellShapes] using h3
  have e1 := cellShapes_getD fes i hi
  rw [e1] at h4 h5
  have ex := hx.2 i hi a h4 c h5
  have ey := hy.2 i hi a h4 c h5
  rw [← List.getD_eq_getElem x 0 h1, ← List.getD_eq_getElem y 0 h2]
  have : blockStart (cellShapes fes) i + (((cellShapes fes).getD i (0, 0)).2 * a + c)
      = localPos fes i a c := by rw [localPos_eq fes i a c hi, e1]
  rw [this, ex, ey]

/-- Kernel outputs have the size of the local vector. -/
def KernelOk (fes : List FE) (ts : List (Nat × (List K → List K))) : Prop :=
  ∀ t ∈ ts, ∀ s : List K, s.length = localSize fes → (t.2 s).length = localSize fes

theorem cellsSolFlat_getD [Zero K] (fes : List FE) (sols : List (List (List K))) (e : Nat)
    (he : e < numCells fes) : (cellsSolFlat fes sols).getD e [] = cellSolFlat fes sols e := by
  rw [cellsSolFlat, List.getD_eq_getElem _ _ (by simpa using he)]
  simp

/-- Evaluation of all cells, as terms. -/
theorem cell_terms_eval (fes : List FE) (sols : List (List (List K)))
    (kernel : List K → D → β) (data : List D) (hd : data.length = numCells fes) :
    (List.range (numCells fes)).zip (List.zipWith kernel (cellsSolFlat fes sols) data)
      = (cellTerms kernel data).map fun t => (t.1, t.2 (cellSolFlat fes sols t.1)) := by
  refine List.ext_getElem (by simp [cellTerms, cellsSolFlat, hd]) fun k h1 h2 => ?_
  simp [cellTerms, cellsSolFlat]

/-- Evaluation of all faces, as terms. -/
theorem face_terms_eval (fes : List FE) (sols : List (List (List K)))
    [Zero K] (bs : List BoundaryInds) (hb : WFBoundary fes bs) (ks : List (List K → F → β))
    (dss : List (List F)) :
    ((bs.zip (computeFace (cellsSolFlat fes sols) bs ks dss)).flatMap fun bw =>
        (bw.1.map Prod.fst).zip bw.2)
      = (faceTerms bs ks dss).map fun t => (t.1, t.2 (cellSolFlat fes sols t.1)) := by
  induction bs generalizing ks dss with
  | nil => simp [faceTerms]
  | cons b bs ih =>
    cases ks with
    | nil => simp [faceTerms, computeFace]
    | cons k ks =>
      cases dss with
      | nil => simp [faceTerms, computeFace]
      | cons ds dss =>
        have hb' : WFBoundary fes bs := fun b' h' => hb b' (by simp [h'])
        have hb0 : ∀ p ∈ b, p.1 < numCells fes := fun p hp => hb b (by simp) p hp
        have := ih hb' ks dss
        simp only [computeFace, List.zip_cons_cons, List.zipWith_cons_cons, List.flatMap_cons,
          faceTerms, List.map_append] at this ⊢
        rw [this]
        congr 1
        refine List.ext_getElem (by simp) fun j h1 h2 => ?_
        have hj : j < b.length := by simp at h1; omega
        have := hb0 _ (List.getElem_mem hj)
        simp [cellsSolFlat, this]

theorem computeFace_length (flat : List (List K)) (bs : List BoundaryInds)
    (ks : List (List K → F → β)) (dss : List (List F)) (h1 : ks.length = bs.length)
    (h2 : dss.length = bs.length) : (computeFace flat bs ks dss).length = bs.length := by
  simp [computeFace, h1, h2]

theorem computeFace_mem (flat : List (List K)) (bs : List BoundaryInds)
    (ks : List (List K → F → β)) (dss : List (List F))
    (h2 : dss.length = bs.length)
    (h3 : ∀ j (h : j < bs.length), (dss.getD j []).length = bs[j].length)
    (bw) (hbw : bw ∈ bs.zip (computeFace flat bs ks dss)) : bw.2.length = bw.1.length := by
  obtain ⟨j, hj, rfl⟩ := List.mem_iff_getElem.1 hbw
  have hj' : j < bs.length := by simp at hj; omega
  have := h3 j hj'
  rw [List.getD_eq_getElem _ _ (by omega)] at this
  simp [computeFace, this]

/-- The terms of the assembled residual are the cell and face terms evaluated at the local
solutions. -/
theorem resTerms_eval [Zero K] (fes : List FE) (bs : List BoundaryInds)
    (hb : WFBoundary fes bs) (kernel : List K → D → List K) (data : List D)
    (hd : data.length = numCells fes) (ks : List (List K → F → List K)) (dss : List (List F))
    (sols : List (List (List K))) :
    resTerms fes bs (List.zipWith kernel (cellsSolFlat fes sols) data)
        (computeFace (cellsSolFlat fes sols) bs ks dss)
      = (cellTerms kernel data ++ faceTerms bs ks dss).map
          fun t => (t.1, t.2 (cellSolFlat fes sols t.1)) := by
  rw [resTerms, cell_terms_eval fes sols kernel data hd, face_terms_eval fes sols bs hb ks dss,
    List.map_append]

theorem faceTerms_cell_lt (fes : List FE) (bs : List BoundaryInds) (hb : WFBoundary fes bs)
    (ks : List (List K → F → β)) (dss : List (List F)) (t) (ht : t ∈ faceTerms bs ks dss) :
    t.1 < numCells fes := by
  induction bs generalizing ks dss with
  | nil => simp [faceTerms] at ht
  | cons b bs ih =>
    cases ks with
    | nil => simp [faceTerms] at ht
    | cons k ks =>
      cases dss with
      | nil => simp [faceTerms] at ht
      | cons ds dss =>
        rw [faceTerms] at ht
        rcases List.mem_append.1 ht with h | h
        · obtain ⟨j, hj, rfl⟩ := List.mem_iff_getElem.1 h
          have hj' : j < b.length := by simp at hj; omega
          have := hb b (by simp) _ (List.getElem_mem hj')
          simpa using this
        · exact ih (fun b' h' => hb b' (by simp [h'])) ks dss h

theorem cellTerms_cell_lt (kernel : List K → D → β) (data : List D) (t)
    (ht : t ∈ cellTerms kernel data) : t.1 < data.length := by
  obtain ⟨j, hj, rfl⟩ := List.mem_iff_getElem.1 ht
  simpa [cellTerms] using hj

theorem WFArgs.term_lt {fes : List FE} {bs : List BoundaryInds} {kernel : List K → D → β}
    {data : List D} {ks : List (List K → F → β)} {dss : List (List F)}
    (wf : WFArgs fes bs data ks dss) (t) (ht : t ∈ cellTerms kernel data ++ faceTerms bs ks dss) :
    t.1 < numCells fes := by
  rcases List.mem_append.1 ht with h | h
  · rw [← wf.data]; exact cellTerms_cell_lt kernel data t h
  · exact faceTerms_cell_lt fes bs wf.boundary ks dss t h

/-- Shape and value of the residual, from evaluated kernels. -/
theorem residual_of_terms [AddCommMonoid K] (fes : List FE) (bs : List BoundaryInds)
    (kernel : List K → D → List K) (data : List D) (ks : List (List K → F → List K))
    (dss : List (List F)) (wf : WFArgs fes bs data ks dss)
    (hk : KernelOk fes (cellTerms kernel data ++ faceTerms bs ks dss))
    (sols : List (List (List K))) (hs : HasShapes (solShapes fes) sols) :
    let R := residualHelper fes bs (List.zipWith kernel (cellsSolFlat fes sols) data)
      (computeFace (cellsSolFlat fes sols) bs ks dss)
    HasShapes (solShapes fes) R ∧ ∀ i (hi : i < fes.length), ∀ n c, c < fes[i].vec →
      at3 R i n c = nodalSum fes ((cellTerms kernel data ++ faceTerms bs ks dss).map
          fun t => (t.1, t.2 (cellSolFlat fes sols t.1))) i n c := by
  have hterm := resTerms_eval fes bs wf.boundary kernel data wf.data ks dss sols
  have hall := wf.term_lt (kernel := kernel)
  have hsz : ∀ p ∈ resTerms fes bs (List.zipWith kernel (cellsSolFlat fes sols) data)
        (computeFace (cellsSolFlat fes sols) bs ks dss), p.2.length = localSize fes := by
    intro p hp
    rw [hterm] at hp
    obtain ⟨t, ht, rfl⟩ := List.mem_map.1 hp
    exact hk t ht _ (isLocal_cellSolFlat fes wf.mesh sols hs t.1 (hall t ht)).1
  have hweak : (List.zipWith kernel (cellsSolFlat fes sols) data).length = numCells fes := by
    simp [cellsSolFlat, wf.data]
  have spec := residualHelper_spec fes wf.mesh bs wf.boundary
    (List.zipWith kernel (cellsSolFlat fes sols) data) hweak
    (fun w hw => by
      obtain ⟨j, hj, rfl⟩ := List.mem_iff_getElem.1 hw
      have hmem : (j, (List.zipWith kernel (cellsSolFlat fes sols) data)[j]) ∈
          (List.range (numCells fes)).zip (List.zipWith kernel (cellsSolFlat fes sols) data) := by
        refine List.mem_iff_getElem.2 ⟨j, by simpa [hweak] using hj, by simp⟩
      exact hsz _ (List.mem_append_left _ hmem))
    (computeFace (cellsSolFlat fes sols) bs ks dss)
    (fun bw hbw => by
      have hl := computeFace_mem (cellsSolFlat fes sols) bs ks dss wf.faces wf.face bw hbw
      refine ⟨hl, fun w hw => ?_⟩
      obtain ⟨j, hj, rfl⟩ := List.mem_iff_getElem.1 hw
      have hj' : j < bw.1.length := by omega
      refine hsz (bw.1[j].1, bw.2[j]) (List.mem_append_right _ (List.mem_flatMap.2 ⟨bw, hbw, ?_⟩))
      exact List.mem_iff_getElem.2 ⟨j, by simp [hj, hj'], by simp⟩)
  refine ⟨spec.1, fun i hi n c hc => ?_⟩
  rw [spec.2 i hi n c hc, hterm]

/-! ### Property theorems -/

/-- **C03.** The residual exists, has the shapes of the solution, and its entry for
(variable, node, component) is the sum over all cells and all selected faces, and over their local
nodes that are this node, of the kernel's entry for (variable, local node, component), where every
kernel is evaluated at the nodal values of its own cell. -/
theorem C03_residual_sum [AddCommMonoid K] (fes : List FE) (bs : List BoundaryInds)
    (kernel : List K → D → List K) (data : List D) (ks : List (List K → F → List K))
    (dss : List (List F)) (wf : WFArgs fes bs data ks dss)
    (hk : KernelOk fes (cellTerms kernel data ++ faceTerms bs ks dss))
    (sols : List (List (List K))) (hs : HasShapes (solShapes fes) sols)
    (loc : Nat → List K) (hloc : ∀ e < numCells fes, IsLocal fes sols e (loc e)) :
    ∃ R, computeResidual fes bs kernel data ks dss sols = .ok R ∧
      HasShapes (solShapes fes) R ∧
      ∀ i (hi : i < fes.length), ∀ n c, c < fes[i].vec →
        at3 R i n c = nodalSum fes ((cellTerms kernel data ++ faceTerms bs ks dss).map
          fun t => (t.1, t.2 (loc t.1))) i n c := by
  have hl : ∀ e < numCells fes, loc e = cellSolFlat fes sols e := fun e he =>
    (hloc e he).unique (isLocal_cellSolFlat fes wf.mesh sols hs e he)
  obtain ⟨r1, r2⟩ := residual_of_terms fes bs kernel data ks dss wf hk sols hs
  refine ⟨_, ?_, r1, ?_⟩
  · simp only [computeResidual, C02_batching kernel (numCells fes) wf.cells]
    rfl
  · intro i hi n c hc
    rw [r2 i hi n c hc]
    congr 1
    refine List.map_congr_left fun t ht => ?_
    have : t.1 < numCells fes := wf.term_lt t ht
    rw [hl _ this]

/-- **C03 (existence of the local vectors).** Every cell has exactly one local vector, so the
hypothesis of `C03_residual_sum` can always be met. -/
theorem C03_local_exists [Zero K] (fes : List FE) (hm : WFMesh fes)
    (sols : List (List (List K))) (hs : HasShapes (solShapes fes) sols) (e : Nat)
    (he : e < numCells fes) : ∃! x, IsLocal fes sols e x :=
  ⟨_, isLocal_cellSolFlat fes hm sols hs e he,
    fun _ hy => hy.unique (isLocal_cellSolFlat fes hm sols hs e he)⟩

/-- **C03 (untouched nodes).** A node that belongs to no cell has residual 0. -/
theorem C03_untouched_node [AddCommMonoid K] (fes : List FE) (bs : List BoundaryInds)
    (kernel : List K → D → List K) (data : List D) (ks : List (List K → F → List K))
    (dss : List (List F)) (wf : WFArgs fes bs data ks dss)
    (hk : KernelOk fes (cellTerms kernel data ++ faceTerms bs ks dss))
    (sols : List (List (List K))) (hs : HasShapes (solShapes fes) sols)
    (i n c : Nat) (hi : i < fes.length) (hc : c < fes[i].vec)
    (hn : ∀ cell ∈ fes[i].cells, n ∉ cell) :
    ∃ R, computeResidual fes bs kernel data ks dss sols = .ok R ∧ at3 R i n c = 0 := by
  obtain ⟨R, h1, -, h3⟩ := C03_residual_sum fes bs kernel data ks dss wf hk sols hs
    (cellSolFlat fes sols) (isLocal_cellSolFlat fes wf.mesh sols hs)
  refine ⟨R, h1, ?_⟩
  rw [h3 i hi n c hc, nodalSum]
  refine List.sum_eq_zero fun x hx => ?_
  simp only [List.map_map, List.mem_map] at hx
  obtain ⟨t, ht, rfl⟩ := hx
  refine Finset.sum_eq_zero fun a ha => if_neg fun h => ?_
  have hlt : t.1 < numCells fes := wf.term_lt t ht
  rw [Finset.mem_range, numNodes_getD fes i hi] at ha
  refine hn _ (cell_mem wf.mesh hi hlt) ?_
  simp only at h
  rw [← h, nodeOf_eq fes i t.1 a hi]
  have ha' : a < (fes[i].cells.getD t.1 []).length := by
    rw [cell_length wf.mesh hi hlt]; exact ha
  rw [List.getD_eq_getElem _ _ ha']
  exact List.getElem_mem _

/-! Non-vacuity: two cells of two nodes sharing node 1, one variable with two components, and one
selected face on cell 1. -/

/-- Example mesh. -/
def exFes : List FE := [⟨3, 2, 2, [[0, 1], [1, 2]]⟩]

example : WFArgs (K := Int) (β := List Int) exFes [[(1, 0)]] [(1 : Int), 2]
    [fun s (d : Int) => s.map (· + d)] [[5]] :=
  ⟨by decide, by decide, by decide, by decide, by decide, by decide, by decide⟩

example : KernelOk (K := Int) exFes
    (cellTerms (fun s (d : Int) => s.map (· * d)) [1, 2] ++
      faceTerms [[(1, 0)]] [fun s (d : Int) => s.map (· + d)] [[5]]) := by
  intro t ht s hs
  simp [cellTerms, faceTerms] at ht
  rcases ht with rfl | rfl | rfl <;> simp [hs]

example : computeResidual exFes [[(1, 0)]] (fun s (d : Int) => s.map (· * d)) [1, 2]
    [fun s (d : Int) => s.map (· + d)] [[5]] [[[1, 2], [3, 4], [5, 6]]]
    = .ok [[[1, 2], [3 + 6 + 8, 4 + 8 + 9], [10 + 10, 12 + 11]]] := by decide

end JaxFem
