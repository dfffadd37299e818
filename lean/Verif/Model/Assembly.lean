import Verif.Model.Dofs

/-!
# Residual and tangent assembly

Model of `jax_fem/problem.py`, lines 358-491.

* A cell kernel takes the flat local solution and the cell's own data (quadrature points, shape
  gradients, `JxW`, internal variables, ...: all columns of `input_collection` other than the
  solution are bundled in one datum of type `D`).
* `vmap_fn` is evaluation cell by cell.
-/

namespace JaxFem

universe u v w
variable {K : Type u} {D : Type v} {β : Type w}

/-- `num_cuts` (`problem.py:363-365`). -/
def numCuts (n : Nat) : Nat := if 20 > n then n else 20

/-- The slice of one column handed to batch `i` (`problem.py:373-376`, `388-391`). -/
def batchSlice {α : Type u} (cuts batch i : Nat) (xs : List α) : List α :=
  if i < cuts - 1 then slice xs (i * batch) ((i + 1) * batch) else xs.drop (i * batch)

/-- `split_and_compute_cell` (`problem.py:359-396`) for a kernel with result type `β`
(`β` is the value, or the pair of value and Jacobian).  `num_cells // num_cuts` raises
`ZeroDivisionError` when there is no cell. -/
def splitAndComputeCell (kernel : List K → D → β) (numCells : Nat)
    (cellsSolFlat : List (List K)) (data : List D) : Except Err (List β) :=
  let cuts := numCuts numCells
  if cuts = 0 then .error .zeroDivision
  else
    let batch := numCells / cuts
    .ok ((List.range cuts).flatMap fun i =>
      List.zipWith kernel (batchSlice cuts batch i cellsSolFlat) (batchSlice cuts batch i data))

/-- `sol[cells]` for one cell and one variable (`problem.py:441`). -/
def gatherVar (sol : List (List K)) (nodes : List Nat) : List (List K) :=
  nodes.map fun n => sol.getD n []

/-- One row of `cells_sol_flat` (`problem.py:441-442`). -/
def cellSolFlat (fes : List FE) (sols : List (List (List K))) (c : Nat) : List K :=
  ravelSol (List.zipWith gatherVar sols (cellNodes fes c))

/-- `cells_sol_flat` (`problem.py:441-442`, `449-450`). -/
def cellsSolFlat (fes : List FE) (sols : List (List (List K))) : List (List K) :=
  (List.range (numCells fes)).map (cellSolFlat fes sols)

/-- `compute_face` (`problem.py:398-424`): for every boundary subset (with its own kernel and its
per-face data) evaluate the face kernel on the solution of the face's cell. -/
def computeFace (cellsFlat : List (List K)) (bs : List BoundaryInds)
    (kernels : List (List K → D → β)) (data : List (List D)) : List (List β) :=
  List.zipWith (fun (b : BoundaryInds) (kd : (List K → D → β) × List D) =>
    List.zipWith kd.1 (b.map fun p => cellsFlat.getD p.1 []) kd.2) bs (kernels.zip data)

section scatter
variable [Add K]

/-- `res.at[idx].add(rows)` on a 2-D array with repeated indices: the additions accumulate
(`problem.py:429-430`, `434-435`). -/
def scatterAddRows (res : List (List K)) (ops : List (Nat × List K)) : List (List K) :=
  ops.foldl (fun r p => r.modify p.1 fun old => List.zipWith (· + ·) old p.2) res

/-- The scatter of variable `i` in `compute_residual_vars_helper` (`problem.py:428-430` for cells,
`433-435` for faces): `nodes` is one entry (all variables' nodes) per cell or face, `weak` the
corresponding kernel values; row indices and rows are both reshaped to one long axis. -/
def scatterVar (fes : List FE) (i : Nat) (res : List (List K)) (nodes : List (List (List Nat)))
    (weak : List (List K)) : List (List K) :=
  scatterAddRows res
    ((nodes.flatMap fun x => x.getD i []).zip
      (weak.flatMap fun w => (unravelSol (cellShapes fes) w).getD i []))

/-- `compute_residual_vars_helper` (`problem.py:426-437`). -/
def residualHelper [Zero K] (fes : List FE) (bs : List BoundaryInds) (weak : List (List K))
    (weakFaces : List (List (List K))) : List (List (List K)) :=
  let res0 : List (List (List K)) :=
    fes.map fun fe => List.replicate fe.numTotalNodes (List.replicate fe.vec (0 : K))
  let res1 := res0.mapIdx fun i r =>
    scatterVar fes i r ((List.range (numCells fes)).map (cellNodes fes)) weak
  (bs.zip weakFaces).foldl (fun res bw =>
    res.mapIdx fun i r => scatterVar fes i r (bw.1.map fun p => cellNodes fes p.1) bw.2) res1

/-- `compute_residual_vars` (`problem.py:439-445`). `F` is the type of per-face data. -/
def computeResidual [Zero K] {F : Type v} (fes : List FE) (bs : List BoundaryInds)
    (kernel : List K → D → List K) (data : List D)
    (kernelsFace : List (List K → F → List K)) (dataFace : List (List F))
    (sols : List (List (List K))) : Except Err (List (List (List K))) := do
  let flat := cellsSolFlat fes sols
  let weak ← splitAndComputeCell kernel (numCells fes) flat data
  let weakFaces := computeFace flat bs kernelsFace dataFace
  return residualHelper fes bs weak weakFaces

/-- `compute_newton_vars` (`problem.py:447-460`): the residual and the value array `V`
(cell Jacobians flattened row-major, then the face Jacobians of every boundary subset). -/
def computeNewton [Zero K] {F : Type v} (fes : List FE) (bs : List BoundaryInds)
    (kernelJac : List K → D → List K × List (List K)) (data : List D)
    (kernelsJacFace : List (List K → F → List K × List (List K))) (dataFace : List (List F))
    (sols : List (List (List K))) : Except Err (List (List (List K)) × List K) := do
  let flat := cellsSolFlat fes sols
  let vj ← splitAndComputeCell kernelJac (numCells fes) flat data
  let vjFaces := computeFace flat bs kernelsJacFace dataFace
  let V := (vj.flatMap fun p => p.2.flatten) ++
    vjFaces.flatMap fun f => f.flatMap fun p => p.2.flatten
  return (residualHelper fes bs (vj.map Prod.fst) (vjFaces.map fun f => f.map Prod.fst), V)

end scatter

/-- Matrix entry described by COO triplets: duplicates are summed (`setValuesCOO` of
`solver.py:525`, `csr_array((V, (I, J)))` of `solver.py:878`). -/
def cooEntry [Add K] [Zero K] (I J : List Nat) (V : List K) (r c : Nat) : K :=
  (((I.zip J).zip V).map fun p => if p.1.1 = r ∧ p.1.2 = c then p.2 else 0).sum

end JaxFem
