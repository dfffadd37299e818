import Verif.Arr

/-!
# Degree-of-freedom numbering

Model of `jax_fem/problem.py`, `Problem.__post_init__`, lines 66-121, and of the Dirichlet row
numbering in `jax_fem/solver.py`, lines 508-517.
-/

namespace JaxFem

/-- The part of a `FiniteElement` (`fe.py:17-110`) that the numbering uses: `num_total_nodes`,
`vec`, `num_nodes` (nodes per cell) and the connectivity `cells`
(shape `(num_cells, num_nodes)`). -/
structure FE where
  numTotalNodes : Nat
  vec : Nat
  numNodes : Nat
  cells : List (List Nat)
  deriving Repr, DecidableEq

/-- `fe.num_total_dofs = num_total_nodes * vec` (`fe.py:81`). -/
def FE.numTotalDofs (fe : FE) : Nat := fe.numTotalNodes * fe.vec

/-- The loop of `problem.py:82-84`: `offset = [0]`, then `offset.append(offset[i] + dofs(i))` for
all but the last variable. `go acc fes` is the tail of the list once the last appended value is
`acc`. -/
def offsetsFrom (acc : Nat) : List FE → List Nat
  | [] => []
  | [_] => []
  | fe :: fe' :: rest => (acc + fe.numTotalDofs) :: offsetsFrom (acc + fe.numTotalDofs) (fe' :: rest)

/-- `self.offset` (`problem.py:82-84`). -/
def offsets (fes : List FE) : List Nat := 0 :: offsetsFrom 0 fes

/-- One variable's part of `find_ind` (`problem.py:89-90`):
`vec * x[:, None] + arange(vec)[None, :] + offset`, flattened row-major. -/
def findIndVar (vec off : Nat) (nodes : List Nat) : List Nat :=
  nodes.flatMap fun n => (List.range vec).map fun c => vec * n + c + off

/-- `find_ind(*x)` (`problem.py:86-92`): `hstack` of the variables' parts. -/
def findInd (fes : List FE) (offs : List Nat) (x : List (List Nat)) : List Nat :=
  match fes, offs, x with
  | fe :: fes, off :: offs, nodes :: x => findIndVar fe.vec off nodes ++ findInd fes offs x
  | _, _, _ => []

/-- `self.num_cells` (`problem.py:79`): taken from the first variable. -/
def numCells (fes : List FE) : Nat :=
  match fes with
  | [] => 0
  | fe :: _ => fe.cells.length

/-- Nodes of cell `c` for every variable (one slice of `vmap(find_ind)(*cells_list)`,
`problem.py:95`). -/
def cellNodes (fes : List FE) (c : Nat) : List (List Nat) := fes.map fun fe => fe.cells.getD c []

/-- `inds` for one cell (`problem.py:95`). -/
def cellInds (fes : List FE) (c : Nat) : List Nat := findInd fes (offsets fes) (cellNodes fes c)

/-- `inds` (`problem.py:95`), shape `(num_cells, num_nodes*vec + ...)`. -/
def allInds (fes : List FE) : List (List Nat) := (List.range (numCells fes)).map (cellInds fes)

/-- `onp.repeat(inds[:, :, None], inds.shape[1], axis=2).reshape(-1)` for one row
(`problem.py:96`): entry `(i, j)` is `row[i]`. -/
def rowI (row : List Nat) : List Nat := row.flatMap fun r => row.map fun _ => r

/-- `onp.repeat(inds[:, None, :], inds.shape[1], axis=1).reshape(-1)` for one row
(`problem.py:97`): entry `(i, j)` is `row[j]`. -/
def rowJ (row : List Nat) : List Nat := row.flatMap fun _ => row

/-- A boundary subset: `(cell, local face)` pairs (`fe.py:288-294`). -/
abbrev BoundaryInds := List (Nat × Nat)

/-- `inds_face` (`problem.py:101-102`). -/
def faceInds (fes : List FE) (b : BoundaryInds) : List (List Nat) := b.map fun p => cellInds fes p.1

/-- The final `self.I` (`problem.py:96,103,105`). -/
def cooI (fes : List FE) (bs : List BoundaryInds) : List Nat :=
  (allInds fes).flatMap rowI ++ bs.flatMap fun b => (faceInds fes b).flatMap rowI

/-- The final `self.J` (`problem.py:97,104,106`). -/
def cooJ (fes : List FE) (bs : List BoundaryInds) : List Nat :=
  (allInds fes).flatMap rowJ ++ bs.flatMap fun b => (faceInds fes b).flatMap rowJ

/-- Shapes of `dumb_sol_list` (`problem.py:117`). -/
def solShapes (fes : List FE) : List (Nat × Nat) := fes.map fun fe => (fe.numTotalNodes, fe.vec)

/-- Shapes of `dumb_array_dof` (`problem.py:111`). -/
def cellShapes (fes : List FE) : List (Nat × Nat) := fes.map fun fe => (fe.numNodes, fe.vec)

/-- `self.num_total_dofs_all_vars` (`problem.py:118-119`): length of the flattened dummy list. -/
def numDofs (fes : List FE) : Nat :=
  (ravelSol (fes.map fun fe => List.replicate fe.numTotalNodes (List.replicate fe.vec (0 : Nat)))).length

/-- Dirichlet row number of node `n`, component `c` of variable `i` (`solver.py:512-514`, and
`solver.py:883`): `node_inds * vec + vec_inds + offset[ind]`. -/
def bcRow (fes : List FE) (i n c : Nat) : Nat :=
  n * ((fes.map FE.vec).getD i 0) + c + (offsets fes).getD i 0

end JaxFem
