import Verif.Model.Dofs
import Verif.Model.Assembly
import Mathlib.Algebra.Ring.Defs
import Mathlib.LinearAlgebra.Matrix.Defs

/-!
# Dirichlet boundary conditions by row elimination

`solver.py:287-363` (`apply_bc_vec`, `apply_bc`, `assign_bc`, `assign_ones_bc`, `assign_zeros_bc`,
`copy_bc`) and the row elimination of the tangent (`solver.py:508-529`, `540-553`).

Index arrays come from `Dirichlet_boundary_conditions` (`fe.py:220-258`), so that the indices within
one entry are distinct (C14); different entries may overlap. Vectors are assumed to have length
`num_total_dofs_all_vars` (otherwise `unflatten_fn_sol_list` raises).
-/

namespace JaxFem

universe u
variable {K : Type u}

/-- One boundary-condition entry of one variable: `node_inds_list[i]`, `vec_inds_list[i]`,
`vals_list[i]` (`fe.py:228-235`). -/
structure BCEntry (K : Type u) where
  nodes : List Nat
  comps : List Nat
  vals : List K
  deriving DecidableEq, Repr

/-- `arr.at[nodes, comps].set(vals)` on a 2-D array, for distinct index pairs
(`solver.py:298-299,321,333,344,358`). -/
def at2Set (a : List (List K)) (nodes comps : List Nat) (vals : List K) : List (List K) :=
  ((nodes.zip comps).zip vals).foldl (fun a p => a.modify p.1.1 fun r => r.set p.1.2 p.2) a

/-- `arr.at[nodes, comps].add(vals)` (`solver.py:300`). -/
def at2Add [Add K] (a : List (List K)) (nodes comps : List Nat) (vals : List K) : List (List K) :=
  ((nodes.zip comps).zip vals).foldl
    (fun a p => a.modify p.1.1 fun r => r.modify p.1.2 fun x => x + p.2) a

/-- `arr[nodes, comps]` (`solver.py:299,359`). -/
def at2Get [Zero K] (a : List (List K)) (nodes comps : List Nat) : List K :=
  (nodes.zip comps).map fun p => (a.getD p.1 []).getD p.2 0

/-- `for ind, fe in enumerate(problem.fes): ... for i in range(len(fe.node_inds_list)): ...`: the
loop over variables and entries shared by all functions below; `step` is the loop body. -/
def forEntries (step : List (List K) → BCEntry K → List (List K)) (arrs : List (List (List K)))
    (bcs : List (List (BCEntry K))) : List (List (List K)) :=
  List.zipWith (fun a es => es.foldl step a) arrs bcs

/-- `apply_bc_vec(res_vec, dofs, problem, scale)` (`solver.py:290-304`). -/
def applyBcVec [Ring K] (fes : List FE) (bcs : List (List (BCEntry K))) (scale : K) (resVec dofs : List K) :
    List K :=
  let resList := unravelSol (solShapes fes) resVec
  let solList := unravelSol (solShapes fes) dofs
  ravelSol (List.zipWith (fun (rs : List (List K) × List (List K)) (es : List (BCEntry K)) =>
    es.foldl (fun res e =>
      at2Add (at2Set res e.nodes e.comps (at2Get rs.2 e.nodes e.comps)) e.nodes e.comps
        (e.vals.map fun v => -v * scale)) rs.1) (resList.zip solList) bcs)

/-- `assign_bc(dofs, problem)` (`solver.py:316-324`). -/
def assignBc (fes : List FE) (bcs : List (List (BCEntry K))) (dofs : List K) : List K :=
  ravelSol (forEntries (fun sol e => at2Set sol e.nodes e.comps e.vals)
    (unravelSol (solShapes fes) dofs) bcs)

/-- `assign_ones_bc(dofs, problem)` (`solver.py:327-335`): a scalar is broadcast. -/
def assignOnesBc [One K] (fes : List FE) (bcs : List (List (BCEntry K))) (dofs : List K) : List K :=
  ravelSol (forEntries (fun sol e => at2Set sol e.nodes e.comps (e.nodes.map fun _ => 1))
    (unravelSol (solShapes fes) dofs) bcs)

/-- `assign_zeros_bc(dofs, problem)` (`solver.py:338-346`). -/
def assignZerosBc [Zero K] (fes : List FE) (bcs : List (List (BCEntry K))) (dofs : List K) : List K :=
  ravelSol (forEntries (fun sol e => at2Set sol e.nodes e.comps (e.nodes.map fun _ => 0))
    (unravelSol (solShapes fes) dofs) bcs)

/-- `copy_bc(dofs, problem)` (`solver.py:349-363`). -/
def copyBc [Zero K] (fes : List FE) (bcs : List (List (BCEntry K))) (dofs : List K) : List K :=
  let newDofs := dofs.map fun _ => (0 : K)
  let solList := unravelSol (solShapes fes) dofs
  let newSolList := unravelSol (solShapes fes) newDofs
  ravelSol (List.zipWith (fun (ns : List (List K) × List (List K)) (es : List (BCEntry K)) =>
    es.foldl (fun new e => at2Set new e.nodes e.comps (at2Get ns.2 e.nodes e.comps)) ns.1)
    (newSolList.zip solList) bcs)

/-- `bc_row_inds_list` of `_refresh_bc_rows_if_needed` (`solver.py:508-517`): one index array per
entry, `node_inds * vec + vec_inds + offset[ind]`. -/
def bcRowLists (fes : List FE) (bcs : List (List (BCEntry K))) : List (List Nat) :=
  (List.range fes.length).flatMap fun i => (bcs.getD i []).map fun e =>
    (e.nodes.zip e.comps).map fun p =>
      p.1 * ((fes.map FE.vec).getD i 0) + p.2 + (offsets fes).getD i 0

/-- `Mat.zeroRows(rows)` with PETSc's default diagonal value 1 (`solver.py:528`): the rows become
rows of the identity. -/
def zeroRows [Zero K] [One K] {N : Nat} (A : Matrix (Fin N) (Fin N) K) (rows : List Nat) :
    Matrix (Fin N) (Fin N) K :=
  Matrix.of fun r c => if (r : Nat) ∈ rows then (if r = c then 1 else 0) else A r c

/-- The loop `solver.py:527-528`: zero the rows of every entry in turn. -/
def elimRows [Zero K] [One K] {N : Nat} (fes : List FE) (bcs : List (List (BCEntry K)))
    (A : Matrix (Fin N) (Fin N) K) : Matrix (Fin N) (Fin N) K :=
  (bcRowLists fes bcs).foldl zeroRows A

/-- `_PetscTangentCache.update` without the caching (`solver.py:522-529`): sum the triplets
(`setValuesCOO`), then eliminate the rows. -/
def tangentMat [Zero K] [One K] [Add K] (N : Nat) (fes : List FE) (bs : List BoundaryInds)
    (V : List K) (bcs : List (List (BCEntry K))) : Matrix (Fin N) (Fin N) K :=
  elimRows fes bcs (Matrix.of fun r c => cooEntry (cooI fes bs) (cooJ fes bs) V r c)

/-! The vector functions on `Fin N → K`, `N = num_total_dofs_all_vars`. -/

section
variable {N : Nat}

/-- `apply_bc_vec` on vectors. -/
def applyBcV [Ring K] (fes : List FE) (bcs : List (List (BCEntry K))) (scale : K) (r u : Fin N → K) :
    Fin N → K := fun k => (applyBcVec fes bcs scale (List.ofFn r) (List.ofFn u)).getD k 0

/-- `assign_bc` on vectors. -/
def assignBcV [Zero K] (fes : List FE) (bcs : List (List (BCEntry K))) (u : Fin N → K) : Fin N → K :=
  fun k => (assignBc fes bcs (List.ofFn u)).getD k 0

/-- `assign_zeros_bc` on vectors. -/
def assignZerosBcV [Zero K] (fes : List FE) (bcs : List (List (BCEntry K))) (u : Fin N → K) : Fin N → K :=
  fun k => (assignZerosBc fes bcs (List.ofFn u)).getD k 0

/-- `assign_ones_bc` on vectors. -/
def assignOnesBcV [Zero K] [One K] (fes : List FE) (bcs : List (List (BCEntry K))) (u : Fin N → K) : Fin N → K :=
  fun k => (assignOnesBc fes bcs (List.ofFn u)).getD k 0

/-- `copy_bc` on vectors. -/
def copyBcV [Zero K] (fes : List FE) (bcs : List (List (BCEntry K))) (u : Fin N → K) : Fin N → K :=
  fun k => (copyBc fes bcs (List.ofFn u)).getD k 0

end

end JaxFem
