import Verif.Thm.Lists
import Verif.Spec.Mesh
import Verif.Spec.Dofs

/-!
# C01: degree-of-freedom numbering
-/

namespace JaxFem

universe u
variable {K : Type u}

/-! ### Helper lemmas -/

theorem offsetsFrom_getD (fes : List FE) (acc i : Nat) (hi : i + 1 < fes.length) :
    (offsetsFrom acc fes).getD i 0 = acc + blockStart (solShapes fes) (i + 1) := by
  induction fes generalizing acc i with
  | nil => simp at hi
  | cons fe fes ih =>
    cases fes with
    | nil => simp at hi
    | cons fe' rest =>
      cases i with
      | zero => simp [offsetsFrom, blockStart, solShapes, totalSize, FE.numTotalDofs]
      | succ i =>
        simp only [offsetsFrom, List.getD_cons_succ]
        rw [ih (acc + fe.numTotalDofs) i (by simpa using hi)]
        simp [blockStart, solShapes, totalSize, FE.numTotalDofs]
        ring

theorem offsets_getD (fes : List FE) (i : Nat) (hi : i < fes.length) :
    (offsets fes).getD i 0 = blockStart (solShapes fes) i := by
  cases i with
  | zero => simp [offsets, blockStart, totalSize]
  | succ i =>
    simp only [offsets, List.getD_cons_succ]
    rw [offsetsFrom_getD fes 0 i hi]; simp

theorem offsetsFrom_length (fes : List FE) (acc : Nat) :
    (offsetsFrom acc fes).length = fes.length - 1 := by
  induction fes generalizing acc with
  | nil => rfl
  | cons fe fes ih =>
    cases fes with
    | nil => rfl
    | cons fe' rest => simp [offsetsFrom, ih]

theorem offsets_length (fes : List FE) (h : fes ≠ []) : (offsets fes).length = fes.length := by
  have : 0 < fes.length := List.length_pos_iff.2 h
  simp [offsets, offsetsFrom_length]; omega

theorem zeros_hasShapes (fes : List FE) (z : K) :
    HasShapes (solShapes fes)
      (fes.map fun fe => List.replicate fe.numTotalNodes (List.replicate fe.vec z)) := by
  induction fes with
  | nil => rfl
  | cons fe fes ih =>
    refine ⟨_, _, rfl, by simp, ?_, ih⟩
    intro r hr
    rw [List.eq_of_mem_replicate hr]; simp

theorem numDofs_eq (fes : List FE) : numDofs fes = totalSize (solShapes fes) :=
  ravelSol_length (zeros_hasShapes fes 0)

theorem solShapes_getD (fes : List FE) (i : Nat) (hi : i < fes.length) :
    (solShapes fes).getD i (0, 0) = (fes[i].numTotalNodes, fes[i].vec) := by
  simp [solShapes, List.getD_eq_getElem?_getD, List.getElem?_eq_getElem hi]

theorem cellShapes_getD (fes : List FE) (i : Nat) (hi : i < fes.length) :
    (cellShapes fes).getD i (0, 0) = (fes[i].numNodes, fes[i].vec) := by
  simp [cellShapes, List.getD_eq_getElem?_getD, List.getElem?_eq_getElem hi]

theorem bcRow_eq (fes : List FE) (i n c : Nat) (hi : i < fes.length) :
    bcRow fes i n c = blockStart (solShapes fes) i + (fes[i].vec * n + c) := by
  have : (fes.map FE.vec).getD i 0 = fes[i].vec := by
    simp [List.getD_eq_getElem?_getD, List.getElem?_eq_getElem hi]
  rw [bcRow, this, offsets_getD fes i hi]
  ring

theorem findIndVar_getD (vec off : Nat) (nodes : List Nat) (a c : Nat) (ha : a < nodes.length)
    (hc : c < vec) :
    (findIndVar vec off nodes).getD (vec * a + c) 0 = vec * nodes.getD a 0 + c + off := by
  have h : findIndVar vec off nodes
      = (nodes.map fun n => (List.range vec).map fun c => vec * n + c + off).flatten := by
    simp [findIndVar, List.flatMap]
  rw [h, flatten_getD vec _ (by simp) a c 0 (by simpa using ha) hc]
  simp [List.getD_eq_getElem?_getD, List.getElem?_eq_getElem ha, hc]

theorem findIndVar_length (vec off : Nat) (nodes : List Nat) :
    (findIndVar vec off nodes).length = nodes.length * vec := by
  simp [findIndVar, List.length_flatMap]

/-- `x` lists, for every variable, the `num_nodes` nodes of one cell. -/
def CellShaped : List FE → List (List Nat) → Prop
  | [], x => x = []
  | fe :: fes, x => ∃ nodes t, x = nodes :: t ∧ nodes.length = fe.numNodes ∧ CellShaped fes t

theorem CellShaped.length_eq {fes : List FE} {x : List (List Nat)} (h : CellShaped fes x) :
    x.length = fes.length := by
  induction fes generalizing x with
  | nil => simp only [CellShaped] at h; simp [h]
  | cons fe fes ih => obtain ⟨a, t, rfl, -, ht⟩ := h; simp [ih ht]

theorem findInd_length {fes : List FE} {offs : List Nat} {x : List (List Nat)}
    (h : CellShaped fes x) (ho : fes.length ≤ offs.length) :
    (findInd fes offs x).length = totalSize (cellShapes fes) := by
  induction fes generalizing offs x with
  | nil => simp [findInd, cellShapes, totalSize]
  | cons fe fes ih =>
    obtain ⟨a, t, rfl, h1, h2⟩ := h
    cases offs with
    | nil => simp at ho
    | cons o offs =>
      simp only [findInd, List.length_append, findIndVar_length, h1]
      rw [ih h2 (by simpa using ho)]
      simp [cellShapes, totalSize]

theorem findInd_getD {fes : List FE} {offs : List Nat} {x : List (List Nat)}
    (h : CellShaped fes x) (ho : fes.length ≤ offs.length) (i a c : Nat) (hi : i < fes.length)
    (ha : a < fes[i].numNodes) (hc : c < fes[i].vec) :
    (findInd fes offs x).getD (blockStart (cellShapes fes) i + (fes[i].vec * a + c)) 0
      = fes[i].vec * (x.getD i []).getD a 0 + c + offs.getD i 0 := by
  induction fes generalizing offs x i with
  | nil => simp at hi
  | cons fe fes ih =>
    obtain ⟨nodes, t, rfl, h1, h2⟩ := h
    cases offs with
    | nil => simp at ho
    | cons o offs =>
      have hl : (findIndVar fe.vec o nodes).length = fe.numNodes * fe.vec := by
        rw [findIndVar_length, h1]
      cases i with
      | zero =>
        simp only [List.getElem_cons_zero] at ha hc ⊢
        simp only [findInd, blockStart, List.take_zero, totalSize, List.map_nil, List.sum_nil,
          Nat.zero_add, List.getD_cons_zero]
        rw [getD_append_left', findIndVar_getD fe.vec o nodes a c (by omega) hc]
        rw [hl]
        calc fe.vec * a + c < fe.vec * a + fe.vec := by omega
          _ = fe.vec * (a + 1) := by ring
          _ ≤ fe.vec * fe.numNodes := Nat.mul_le_mul_left _ ha
          _ = _ := by ring
      | succ i =>
        simp only [List.getElem_cons_succ] at ha hc ⊢
        have hi0 : i < fes.length := by simpa using hi
        simp only [findInd, List.getD_cons_succ]
        have : blockStart (cellShapes (fe :: fes)) (i + 1) + (fes[i].vec * a + c)
            = (findIndVar fe.vec o nodes).length
              + (blockStart (cellShapes fes) i + (fes[i].vec * a + c)) := by
          simp [blockStart, cellShapes, totalSize, hl]; ring
        rw [this, getD_append_right']
        exact ih h2 (by simpa using ho) i (by simpa using hi) ha hc

theorem cellShaped_map (fes : List FE) (f : FE → List Nat)
    (h : ∀ fe ∈ fes, (f fe).length = fe.numNodes) : CellShaped fes (fes.map f) := by
  induction fes with
  | nil => rfl
  | cons fe fes ih =>
    exact ⟨_, _, rfl, h fe (by simp), ih fun fe' h' => h fe' (by simp [h'])⟩

theorem cellNodes_shaped {fes : List FE} (h : WFMesh fes) (c : Nat) (hc : c < numCells fes) :
    CellShaped fes (cellNodes fes c) := by
  refine cellShaped_map fes _ fun fe hfe => ?_
  obtain ⟨h1, h2⟩ := h fe hfe
  have hc' : c < fe.cells.length := by omega
  have : fe.cells.getD c [] ∈ fe.cells := by
    simp [List.getD_eq_getElem?_getD, List.getElem?_eq_getElem hc']
  exact (h2 _ this).1

theorem cellNodes_getD (fes : List FE) (c i : Nat) (hi : i < fes.length) :
    (cellNodes fes c).getD i [] = fes[i].cells.getD c [] := by
  simp [cellNodes, List.getD_eq_getElem?_getD, List.getElem?_eq_getElem hi]

theorem offsets_length_ge (fes : List FE) : fes.length ≤ (offsets fes).length := by
  simp [offsets, offsetsFrom_length]; omega

theorem cellInds_length {fes : List FE} (h : WFMesh fes) (c : Nat) (hc : c < numCells fes) :
    (cellInds fes c).length = totalSize (cellShapes fes) :=
  findInd_length (cellNodes_shaped h c hc) (offsets_length_ge fes)

theorem cell_mem {fes : List FE} (h : WFMesh fes) {c i : Nat} (hi : i < fes.length)
    (hc : c < numCells fes) : fes[i].cells.getD c [] ∈ fes[i].cells := by
  have hc' : c < fes[i].cells.length := by
    have := (h fes[i] (List.getElem_mem hi)).1; omega
  simp [List.getD_eq_getElem?_getD, List.getElem?_eq_getElem hc']

theorem cell_length {fes : List FE} (h : WFMesh fes) {c i : Nat} (hi : i < fes.length)
    (hc : c < numCells fes) : (fes[i].cells.getD c []).length = fes[i].numNodes :=
  ((h fes[i] (List.getElem_mem hi)).2 _ (cell_mem h hi hc)).1

theorem node_lt {fes : List FE} (h : WFMesh fes) {c i a : Nat} (hi : i < fes.length)
    (hc : c < numCells fes) (ha : a < fes[i].numNodes) :
    (fes[i].cells.getD c []).getD a 0 < fes[i].numTotalNodes := by
  refine ((h fes[i] (List.getElem_mem hi)).2 _ (cell_mem h hi hc)).2 _ ?_
  have : a < (fes[i].cells.getD c []).length := by rw [cell_length h hi hc]; exact ha
  rw [List.getD_eq_getElem _ _ this]
  exact List.getElem_mem this

theorem dofNum_eq (fes : List FE) (i n c : Nat) (hi : i < fes.length) :
    dofNum fes i n c = blockStart (solShapes fes) i + (fes[i].vec * n + c) := by
  have : (fes.map FE.vec).getD i 0 = fes[i].vec := by
    simp [List.getD_eq_getElem?_getD, List.getElem?_eq_getElem hi]
  rw [dofNum, this]
  simp only [blockStart, totalSize, solShapes, ← List.map_take, List.map_map]
  have e : ((fun p : Nat × Nat => p.1 * p.2) ∘ fun fe : FE => (fe.numTotalNodes, fe.vec))
      = fun fe => fe.numTotalNodes * fe.vec := rfl
  rw [e]; ring

/-! ### Property theorems -/

/-- **C01 (row number).** The row number used for boundary conditions is the number obtained by
counting all earlier variables, nodes and components; the total is the number of all of them. -/
theorem C01_row_number (fes : List FE) (i n c : Nat) (hi : i < fes.length) :
    bcRow fes i n c = dofNum fes i n c ∧ numDofs fes = totalDofs fes := by
  rw [bcRow_eq fes i n c hi, dofNum_eq fes i n c hi, numDofs_eq]
  refine ⟨rfl, ?_⟩
  simp [totalDofs, totalSize, solShapes, Function.comp_def]

/-- **C01 (flattening).** In the flattened solution vector, entry number
`node * vec + comp + offset[var]` is component `comp` at `node` of variable `var`. -/
theorem C01_flatten_position (fes : List FE) (s : List (List (List K)))
    (hs : HasShapes (solShapes fes) s) {i n c : Nat} {a : List (List K)} {r : List K} {x : K}
    (ha : s[i]? = some a) (hr : a[n]? = some r) (hx : r[c]? = some x) :
    (ravelSol s)[bcRow fes i n c]? = some x := by
  have hlen := hs.length_eq
  have hi : i < fes.length := by
    have := (List.getElem?_eq_some_iff.1 ha).1
    rw [hlen] at this
    simpa [solShapes] using this
  have hi' : i < (solShapes fes).length := by simpa [solShapes] using hi
  obtain ⟨-, h2⟩ := (hasShapes_iff _ _).1 hs
  obtain ⟨h3, h4⟩ := h2 i hi'
  have hai : s.getD i [] = a := by simp [List.getD_eq_getElem?_getD, ha]
  rw [hai] at h3 h4
  have hn := (List.getElem?_eq_some_iff.1 hr).1
  have hc := (List.getElem?_eq_some_iff.1 hx).1
  have hrl : r.length = ((solShapes fes).getD i (0, 0)).2 := h4 r (List.mem_of_getElem? hr)
  have key := ravelSol_getD hs i n c x hi' (by omega) (by omega)
  rw [hai] at key
  have e1 : a.getD n [] = r := by simp [List.getD_eq_getElem?_getD, hr]
  have e2 : r.getD c x = x := by simp [List.getD_eq_getElem?_getD, hx]
  rw [e1, e2, solShapes_getD fes i hi] at key
  rw [bcRow_eq fes i n c hi]
  have hlt : blockStart (solShapes fes) i + (fes[i].vec * n + c) < (ravelSol s).length := by
    rw [ravelSol_length hs, ← blockStart_length]
    have e := entry_lt (solShapes fes) i n c hi' (by omega) (by omega)
    rw [solShapes_getD fes i hi] at e
    exact lt_of_lt_of_le e (blockStart_mono _ (by omega))
  rw [List.getD_eq_getElem?_getD, List.getElem?_eq_getElem hlt] at key
  rw [List.getElem?_eq_getElem hlt]
  simpa using key

/-- **C01 (range).** Every number is below the total number of degrees of freedom. -/
theorem C01_in_range (fes : List FE) {i n c : Nat} (hi : i < fes.length)
    (hn : n < fes[i].numTotalNodes) (hc : c < fes[i].vec) : bcRow fes i n c < numDofs fes := by
  have hi' : i < (solShapes fes).length := by simpa [solShapes] using hi
  rw [bcRow_eq fes i n c hi, numDofs_eq, ← blockStart_length]
  have e := entry_lt (solShapes fes) i n c hi' (by rw [solShapes_getD fes i hi]; exact hn)
    (by rw [solShapes_getD fes i hi]; exact hc)
  rw [solShapes_getD fes i hi] at e
  exact lt_of_lt_of_le e (blockStart_mono _ (by omega))

/-- **C01 (injective).** Different (variable, node, component) triples get different numbers. -/
theorem C01_injective (fes : List FE) {i n c i' n' c' : Nat} (hi : i < fes.length)
    (hn : n < fes[i].numTotalNodes) (hc : c < fes[i].vec) (hi' : i' < fes.length)
    (hn' : n' < fes[i'].numTotalNodes) (hc' : c' < fes[i'].vec)
    (h : bcRow fes i n c = bcRow fes i' n' c') : i = i' ∧ n = n' ∧ c = c' := by
  have k1 : i < (solShapes fes).length := by simpa [solShapes] using hi
  have k2 : i' < (solShapes fes).length := by simpa [solShapes] using hi'
  rw [bcRow_eq fes i n c hi, bcRow_eq fes i' n' c' hi'] at h
  have e1 := solShapes_getD fes i hi
  have e2 := solShapes_getD fes i' hi'
  exact block_unique (solShapes fes) k1 (by rw [e1]; exact hn) (by rw [e1]; exact hc) k2
    (by rw [e2]; exact hn') (by rw [e2]; exact hc') (by rw [e1, e2]; exact h)

/-- **C01 (onto).** Every number below the total is the number of some triple. -/
theorem C01_surjective (fes : List FE) (k : Nat) (hk : k < numDofs fes) :
    ∃ i n c, ∃ hi : i < fes.length, n < fes[i].numTotalNodes ∧ c < fes[i].vec ∧
      bcRow fes i n c = k := by
  rw [numDofs_eq] at hk
  obtain ⟨i, n, c, h1, h2, h3, h4⟩ := exists_block _ k hk
  have hi : i < fes.length := by simpa [solShapes] using h1
  rw [solShapes_getD fes i hi] at h2 h3 h4
  exact ⟨i, n, c, hi, h2, h3, by rw [bcRow_eq fes i n c hi, h4]⟩

/-- **C01 (round trip 1).** Unflattening the flattened solution list returns it. -/
theorem C01_unflatten_flatten (fes : List FE) (s : List (List (List K)))
    (hs : HasShapes (solShapes fes) s) : unravelSol? (solShapes fes) (ravelSol s) = .ok s := by
  rw [unravelSol?, if_pos (ravelSol_length hs), unravelSol_ravelSol hs]

/-- **C01 (round trip 2).** A vector of the right length is unflattened to a solution list of the
right shapes whose flattening is the vector; a vector of another length is rejected. -/
theorem C01_flatten_unflatten (fes : List FE) (xs : List K) :
    (xs.length = numDofs fes → ∃ s, unravelSol? (solShapes fes) xs = .ok s ∧
      HasShapes (solShapes fes) s ∧ ravelSol s = xs) ∧
    (xs.length ≠ numDofs fes → unravelSol? (solShapes fes) xs = .error .type) := by
  rw [numDofs_eq]
  refine ⟨fun h => ⟨_, by rw [unravelSol?, if_pos h], unravelSol_hasShapes _ _ h,
    ravelSol_unravelSol _ _ h⟩, fun h => by rw [unravelSol?, if_neg h]⟩

/-- **C01 (matrix indices).** The global index attached to a local unknown of a cell (local
numbering of `unflatten_fn_dof`) is the number of the cell's node in the flattened solution
vector, and equals the Dirichlet row number of that node and component. -/
theorem C01_cell_index (fes : List FE) (h : WFMesh fes) {cell i a c : Nat}
    (hcell : cell < numCells fes) (hi : i < fes.length) (ha : a < fes[i].numNodes)
    (hc : c < fes[i].vec) :
    (((unravelSol (cellShapes fes) (cellInds fes cell)).getD i []).getD a []).getD c 0
      = bcRow fes i ((fes[i].cells.getD cell []).getD a 0) c := by
  have hi' : i < (cellShapes fes).length := by simpa [cellShapes] using hi
  have e := cellShapes_getD fes i hi
  rw [unravelSol_getD (cellShapes fes) _ (cellInds_length h cell hcell) i a c 0 hi'
    (by rw [e]; exact ha) (by rw [e]; exact hc), e]
  have := findInd_getD (cellNodes_shaped h cell hcell) (offsets_length_ge fes) i a c hi ha hc
  rw [cellInds]
  simp only at this ⊢
  rw [this, bcRow_eq fes i _ c hi, offsets_getD fes i hi, cellNodes_getD fes cell i hi]
  ring

/-- Two variables (a 3-node vector field and a 2-node scalar field) meet the hypotheses. -/
example : WFMesh [⟨3, 2, 2, [[0, 1], [1, 2]]⟩, ⟨2, 1, 1, [[0], [1]]⟩] ∧
    numDofs [⟨3, 2, 2, [[0, 1], [1, 2]]⟩, ⟨2, 1, 1, [[0], [1]]⟩] = 8 ∧
    cellInds [⟨3, 2, 2, [[0, 1], [1, 2]]⟩, ⟨2, 1, 1, [[0], [1]]⟩] 1 = [2, 3, 4, 5, 7] ∧
    bcRow [⟨3, 2, 2, [[0, 1], [1, 2]]⟩, ⟨2, 1, 1, [[0], [1]]⟩] 1 1 0 = 7 := by decide

example : HasShapes (solShapes [⟨2, 2, 2, []⟩, ⟨1, 1, 1, []⟩])
    [[[(1 : Nat), 2], [3, 4]], [[5]]] := by
  simp [HasShapes, solShapes]

end JaxFem
