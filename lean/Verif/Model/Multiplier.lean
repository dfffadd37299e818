import Verif.Model.Newton
import Mathlib.Analysis.Calculus.FDeriv.Basic
import Mathlib.Analysis.Normed.Group.Constructions
import Mathlib.Analysis.Normed.Field.Lemmas

/-!
# The Lagrange multiplier solver

`jax_fem/experimental/lm_solver.py`. The module has no import statements and uses attributes of an
older `Problem` (`problem.node_inds_list`, `problem.body_force`, ... of one variable); it is read
with the imports of `solver.py` and with these attributes, `assign_bc` being the function of
`Model/BC` for one variable. Index arrays are taken as integers (the code builds them by `hstack`
with the float array `onp.array([])`). Logging and timing are left out.
-/

namespace JaxFem
namespace LM

universe u

/-- One entry of `p_node_inds_list_A`, `p_node_inds_list_B`, `p_vec_inds_list`
(`lm_solver.py:80-83`). -/
structure PEntry where
  nodesA : List Nat
  nodesB : List Nat
  comps : List Nat
  deriving DecidableEq, Repr

/-- What the solver reads from the problem: the mesh, the Dirichlet and the periodic entries. -/
structure Prob (K : Type u) where
  fe : FE
  d : List (BCEntry K)
  p : List PEntry

/-- `aug_size` (`lm_solver.py:7-11`). -/
def augSize {K : Type u} (P : Prob K) : Nat :=
  let augSize := P.d.foldl (fun s e => s + e.nodes.length) 0
  P.p.foldl (fun s g => s + g.nodesA.length) augSize

/-- `np.cumsum` of a 1-D integer array (`lm_solver.py:54-55`). -/
def cumsum (acc : Nat) : List Nat → List Nat
  | [] => []
  | l :: ls => (acc + l) :: cumsum (acc + l) ls

/-- `np.split(xs, splits)` (`lm_solver.py:65-66`): the slices between consecutive split points. -/
def npSplit {α : Type u} (xs : List α) (splits : List Nat) : List (List α) :=
  ((0 :: splits).zip (splits ++ [xs.length])).map fun p => slice xs p.1 p.2

section
variable {K : Type u} [CommRing K]

/-- `aug_dof_w_zero_bc` (`lm_solver.py:6-12`). -/
def augZero (P : Prob K) (dofs : List K) : List K := dofs ++ List.replicate (augSize P) 0

/-- `aug_dof_w_bc` (`lm_solver.py:15-22`). -/
def augBc (P : Prob K) (dofs : List K) (eps : K) : List K :=
  let augD := P.d.foldl (fun a e => a ++ e.vals.map fun v => eps * v) []
  let augD := P.p.foldl (fun a g => a ++ List.replicate g.nodesA.length 0) augD
  dofs ++ augD

/-- `Lagrangian_fn` (`lm_solver.py:54-86`). -/
def lagrangian (P : Prob K) (eps : K) (dofsAug : List K) : K :=
  let dSplits := cumsum 0 (P.d.map fun e => e.nodes.length)
  let pSplits := cumsum 0 (P.p.map fun g => g.nodesA.length)
  let dLen := dSplits.getLast?.getD 0
  let dofs := dofsAug.take P.fe.numTotalDofs
  let lam := dofsAug.drop P.fe.numTotalDofs
  let sol := chunks P.fe.vec P.fe.numTotalNodes dofs
  let dLam := npSplit (lam.take dLen) dSplits
  let pLam := npSplit (lam.drop dLen) pSplits
  let lag := (P.d.zip dLam).foldl (fun lag el => lag + (List.zipWith (fun l x => l * x) el.2
    (List.zipWith (fun x v => x - v) (at2Get sol el.1.nodes el.1.comps) el.1.vals)).sum) 0
  let lag := (P.p.zip pLam).foldl (fun lag gl => lag + (List.zipWith (fun l x => l * x) gl.2
    (List.zipWith (fun x y => x - y) (at2Get sol gl.1.nodesA gl.1.comps)
      (at2Get sol gl.1.nodesB gl.1.comps))).sum) lag
  eps * lag

/-- `symmetry` (`lm_solver.py:98-102`). -/
def symmetry (t : List Nat × List Nat × List K) : List Nat × List Nat × List K :=
  (t.1 ++ t.2.1, t.2.1 ++ t.1, t.2.2 ++ t.2.2)

/-- The loop over Dirichlet entries (`lm_solver.py:104-115`): triplets and `group_index`. -/
def dTriplets (P : Prob K) (eps : K) : (List Nat × List Nat × List K) × Nat :=
  P.d.foldl (fun s e =>
    let size := e.nodes.length
    ((s.1.1 ++ (e.nodes.zip e.comps).map fun nc => P.fe.vec * nc.1 + nc.2,
      s.1.2.1 ++ (List.range size).map fun i => s.2 + i,
      s.1.2.2 ++ List.replicate size (eps * 1)), s.2 + size)) (([], [], []), P.fe.numTotalDofs)

/-- The loop over periodic entries (`lm_solver.py:118-132`). -/
def pTriplets (P : Prob K) (eps : K) (group : Nat) : (List Nat × List Nat × List K) × Nat :=
  P.p.foldl (fun s g =>
    let size := g.nodesA.length
    let I := s.1.1 ++ (g.nodesA.zip g.comps).map fun nc => P.fe.vec * nc.1 + nc.2
    let J := s.1.2.1 ++ (List.range size).map fun i => s.2 + i
    let V := s.1.2.2 ++ List.replicate size (eps * 1)
    let I := I ++ (g.nodesB.zip g.comps).map fun nc => P.fe.vec * nc.1 + nc.2
    let J := J ++ (List.range size).map fun i => s.2 + i
    let V := V ++ List.replicate size (-eps * 1)
    ((I, J, V), s.2 + size)) (([], [], []), group)

/-- The triplets of the augmented matrix and its size (`lm_solver.py:104-140`); `T` is
`(problem.I, problem.J, problem.V)`. -/
def augTriplets (P : Prob K) (eps : K) (T : List Nat × List Nat × List K) :
    (List Nat × List Nat × List K) × Nat :=
  let D := dTriplets P eps
  let Q := pTriplets P eps D.2
  let Ds := symmetry D.1
  let Qs := symmetry Q.1
  ((T.1 ++ Ds.1 ++ Qs.1, T.2.1 ++ Ds.2.1 ++ Qs.2.1, T.2.2 ++ Ds.2.2 ++ Qs.2.2), Q.2)

end

/-- `num_total_dofs` of the problem and the length of the augmented vector. -/
abbrev nDofs {K : Type u} (P : Prob K) : Nat := P.fe.numTotalDofs

/-- An augmented vector. -/
abbrev Vec (P : Prob ℝ) : Type := Fin (nDofs P + augSize P) → ℝ

/-- `dofs_aug[:problem.num_total_dofs]` (`lm_solver.py:205`, `234`). -/
def dofsOf (P : Prob ℝ) (x : Vec P) : Fin (nDofs P) → ℝ := fun i => x (Fin.castAdd _ i)

/-- A list of the right length as an augmented vector. -/
def ofList (P : Prob ℝ) (l : List ℝ) : Vec P := fun k => l.getD k 0

/-- `compute_residual_lm` (`lm_solver.py:49-93`); `jax.grad` is the derivative in the coordinate
directions. -/
noncomputable def residual (P : Prob ℝ) (eps : ℝ) (res : Fin (nDofs P) → ℝ) (x : Vec P) : Vec P :=
  (fun k => fderiv ℝ (fun y : Vec P => lagrangian P eps (List.ofFn y)) x (Pi.single k 1)) +
    ofList P (augZero P (List.ofFn res))

/-- The matrix of `compute_linearized_residual` (`lm_solver.py:134-148`): duplicate triplets are
summed. -/
def matrix (P : Prob ℝ) (eps : ℝ) (T : List Nat × List Nat × List ℝ) :
    Matrix (Fin (nDofs P + augSize P)) (Fin (nDofs P + augSize P)) ℝ :=
  let A := (augTriplets P eps T).1
  Matrix.of fun r c => cooEntry A.1 A.2.1 A.2.2 r c

/-- `get_A_fn_and_res_aug` (`lm_solver.py:96-167`). With `use_petsc` the matrix is assigned to `A`
and the name `A_aug` returned in line 167 is unbound: `UnboundLocalError`, here `.runtime`. -/
noncomputable def getA (P : Prob ℝ) (eps : ℝ) (T : List Nat × List Nat × List ℝ) (usePetsc : Bool)
    (x : Vec P) (res : Fin (nDofs P) → ℝ) :
    Except Err (Vec P × Matrix (Fin (nDofs P + augSize P)) (Fin (nDofs P + augSize P)) ℝ) :=
  if usePetsc then .error .runtime else .ok (residual P eps res x, matrix P eps T)

/-- What `newton_update` provides at a vector: the residual and the values of the triplets. -/
structure Update (P : Prob ℝ) where
  I : List Nat
  J : List Nat
  V : (Fin (nDofs P) → ℝ) → List ℝ
  res : (Fin (nDofs P) → ℝ) → Fin (nDofs P) → ℝ

/-- A linear solver: matrix, right-hand side, optional starting vector. -/
abbrev LinSolve (P : Prob ℝ) : Type :=
  Matrix (Fin (nDofs P + augSize P)) (Fin (nDofs P + augSize P)) ℝ → Vec P → Option (Vec P) →
    Except Err (Vec P)

/-- `newton_update_helper` (`lm_solver.py:203-208`). -/
noncomputable def helper (P : Prob ℝ) (eps : ℝ) (U : Update P) (usePetsc : Bool) (x : Vec P) :
    Except Err (Vec P × Matrix (Fin (nDofs P + augSize P)) (Fin (nDofs P + augSize P)) ℝ) :=
  let dofs := dofsOf P x
  getA P eps (U.I, U.J, U.V dofs) usePetsc x (U.res dofs)

/-- `linear_incremental_solver_lm` (`lm_solver.py:38-46`). -/
def incremental (P : Prob ℝ) (solve : LinSolve P)
    (rA : Vec P × Matrix (Fin (nDofs P + augSize P)) (Fin (nDofs P + augSize P)) ℝ) (x : Vec P) :
    Except Err (Vec P) := do
  let inc ← solve rA.2 (-rA.1) none
  pure (x + inc)

/-- `linear_guess_solve_lm` without `use_petsc` (`lm_solver.py:25-35`); `b` is
`problem.body_force + problem.neumann`, flattened. -/
def guess (P : Prob ℝ) (eps : ℝ) (solve : LinSolve P) (b : List ℝ)
    (A : Matrix (Fin (nDofs P + augSize P)) (Fin (nDofs P + augSize P)) ℝ) : Except Err (Vec P) :=
  let bAug := augBc P b eps
  let x0 := assignBc [P.fe] [P.d] (List.replicate (nDofs P) 0)
  solve A (ofList P bAug) (some (ofList P (augZero P x0)))

/-- The `while` loop (`lm_solver.py:224-231`); `fuel` bounds the number of guard evaluations. -/
noncomputable def loop (P : Prob ℝ) (eps : ℝ) (U : Update P) (usePetsc : Bool) (solve : LinSolve P)
    (norm : Vec P → Flt ℝ) : Nat → Vec P →
    (Vec P × Matrix (Fin (nDofs P + augSize P)) (Fin (nDofs P + augSize P)) ℝ) →
    Option (Except Err (Vec P))
  | 0, _, _ => none
  | fuel + 1, x, rA =>
    if (norm rA.1).gt (.fin (1 / 1000000)) then
      match incremental P solve rA x with
      | .error e => some (.error e)
      | .ok x' =>
        match helper P eps U usePetsc x' with
        | .error e => some (.error e)
        | .ok rA' => loop P eps U usePetsc solve norm fuel x' rA'
    else some (.ok x)

/-- `solver_lagrange_multiplier` up to the final slice (`lm_solver.py:170-231`): the augmented
vector. `numEps` is the optional attribute `p_num_eps`. -/
noncomputable def solver (P : Prob ℝ) (numEps : Option ℝ) (U : Update P) (b : List ℝ)
    (linear usePetsc : Bool) (solve : LinSolve P) (norm : Vec P → Flt ℝ) (fuel : Nat) :
    Option (Except Err (Vec P)) :=
  let eps := numEps.getD 1
  let dofs : List ℝ := List.replicate (nDofs P) 0
  if linear then
    let dofs := assignBc [P.fe] [P.d] dofs
    let x := ofList P (augZero P dofs)
    some (do
      let rA ← helper P eps U usePetsc x
      incremental P solve rA x)
  else
    let x := ofList P (augZero P dofs)
    match (do
      let rA ← helper P eps U usePetsc x
      let x ← guess P eps solve b rA.2
      let rA ← helper P eps U usePetsc x
      pure (x, rA)) with
    | .error e => some (.error e)
    | .ok xr => loop P eps U usePetsc solve norm fuel xr.1 xr.2

/-- The returned `sol` (`lm_solver.py:233`), flattened. -/
noncomputable def solution (P : Prob ℝ) (numEps : Option ℝ) (U : Update P) (b : List ℝ)
    (linear usePetsc : Bool) (solve : LinSolve P) (norm : Vec P → Flt ℝ) (fuel : Nat) :
    Option (Except Err (Fin (nDofs P) → ℝ)) :=
  (solver P numEps U b linear usePetsc solve norm fuel).map fun r => r.map (dofsOf P)

end LM
end JaxFem
