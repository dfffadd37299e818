import Verif.Model.SplitVars
import Verif.Model.Inverse

/-!
# Thermal mechanical control

`docs/source/learn/thermal_mechanical_control/example.ipynb` (code cells are counted from 1): displacement and
temperature of a plate, where the temperatures at the nodes of a hole are the parameters. The mesh file and the
location functions are not modelled, the Dirichlet lists are arbitrary. The material constants are parameters.
-/

namespace JaxFem.Control

open scoped BigOperators

/-- The constants of cell 2 that are used. -/
structure Material where
  lmbda : ℝ
  mu : ℝ
  kappa : ℝ
  k : ℝ

/-- `stress` (cell 4). -/
noncomputable def stress (m : Material) (G : Nat → Fin 2 → ℝ) (T : ℝ) : Fin 2 → Fin 2 → ℝ :=
  let eps := strain2 G
  fun i j => m.lmbda * (eps 0 0 + eps 1 1) * (if i = j then 1 else 0) + 2 * m.mu * eps i j
    - m.kappa * T * (if i = j then 1 else 0)

/-- `universal_kernel` (cell 5). -/
noncomputable def kernel (m : Material) (vu vT : CVar 2) (x : List ℝ) (d : PackedCell 2) (_iv : Unit) : List ℝ :=
  let sol := unravelSol (cellShapes [vu.fe, vT.fe]) x
  let solU := sol.getD 0 []
  let solT := sol.getD 1 []
  let cum := numNodesCumsum [vu, vT]
  let gU := fun q => sliceVar cum 0 (d.shapeGrads q)
  let gT := fun q => sliceVar cum 1 (d.shapeGrads q)
  let vgU := fun q => sliceVar cum 0 (d.vGradsJxW q)
  let vgT := fun q => sliceVar cum 1 (d.vGradsJxW q)
  let T := valOp vT.nn solT vT.shapeVals
  let uGrads := gradOp vu.nn solU gU
  let TGrads := gradOp vT.nn solT gT
  let val3 := fluxOp d.numQuads (fun q c j => m.k * TGrads q c j) vgT
  let uPhysics := fun (q c : Nat) (j : Fin 2) =>
    if h : c < 2 then stress m (uGrads q) (T q 0) ⟨c, h⟩ j else 0
  let val4 := fluxOp d.numQuads uPhysics vgU
  ravelSol [mk2 vu.nn vu.vec val4, mk2 vT.nn vT.vec val3]

/-- `compute_residual` (`problem.py:459-472`) with this kernel. -/
noncomputable def residual (m : Material) (vu vT : CVar 2) (sols : List (List (List ℝ))) :
    Except Err (List (List (List ℝ))) :=
  coupledResidual [vu, vT] (kernel m vu vT) (List.replicate vu.cells.length ()) sols

/-- The two variables (`custom_init`, cell 3). -/
def fes (vu vT : CVar 2) : List FE := [vu.fe, vT.fe]

/-- `unflatten_fn_sol_list` (`problem.py:116-117`) of a vector of degrees of freedom. -/
noncomputable def solList (vu vT : CVar 2) {N : Nat} (x : Fin N → ℝ) : List (List (List ℝ)) :=
  unravelSol (solShapes (fes vu vT)) (List.ofFn x)

/-- The residual of the solver, `get_flatten_fn(problem.compute_residual, problem)` (`solver.py:366-376`); errors are
zero here, they do not occur on well-formed meshes (C101). -/
noncomputable def flatResidual (m : Material) (vu vT : CVar 2) {N : Nat} (x : Fin N → ℝ) : Fin N → ℝ := fun k =>
  match residual m vu vT (solList vu vT x) with
  | .ok R => (ravelSol R).getD k 0
  | .error _ => 0

/-- `node_inds_list`, `vec_inds_list`, `vals_list` of a variable (`fe.py:220-263`). -/
abbrev DirichletLists := List (List Nat) × List (List Nat) × List (List ℝ)

/-- `set_params` (cell 6): `self.fe_T.vals_list[0] = params`; there must be a first entry. -/
def setParams (b : DirichletLists) (params : List ℝ) : Except Err DirichletLists :=
  match b.2.2 with
  | [] => .error .index
  | _ :: vs => .ok (b.1, b.2.1, params :: vs)

/-- The Dirichlet conditions of both variables after `set_params`. -/
def bcs (bu bT : DirichletLists) {n : Nat} (θ : Fin n → ℝ) : List (List (BCEntry ℝ)) :=
  match setParams bT (List.ofFn θ) with
  | .ok b => [SplitVars.entries bu, SplitVars.entries b]
  | .error _ => []

/-- The error of `J` (cell 11) for a solution list: squared distance of the displacement of node `corner` from the goal;
JAX clamps an index out of range. -/
noncomputable def cornerError (corner : Nat) (goal : Fin 2 → ℝ) (sols : List (List (List ℝ))) : ℝ :=
  let u := sols.getD 0 []
  ∑ c : Fin 2, (at2 u (min corner (u.length - 1)) c - goal c) ^ 2

/-- `θ[i]` (cell 12); clamped. -/
def getAt {n : Nat} (θ : Fin n → ℝ) (i : Nat) : Except Err ℝ :=
  if h : 0 < n then .ok (θ ⟨min i (n - 1), by omega⟩) else .error .index

/-- `θ.at[i].set(v)` (cell 12); out of range nothing is set. -/
def setAt {n : Nat} (θ : Fin n → ℝ) (i : Nat) (v : ℝ) : Fin n → ℝ := fun j => if j.1 = i then v else θ j

/-- `(J(θ_plus) - J(θ_minus))/(2*h*θ_ini[10])` (cell 12) with index `i`. -/
noncomputable def fdQuotient {n : Nat} (J : (Fin n → ℝ) → Option (Except Err ℝ)) (θ : Fin n → ℝ) (i : Nat) (h : ℝ) :
    Option (Except Err ℝ) :=
  match getAt θ i with
  | .error e => some (.error e)
  | .ok t =>
    match J (setAt θ i ((1 + h) * t)), J (setAt θ i ((1 - h) * t)) with
    | none, _ => none
    | some (.error e), _ => some (.error e)
    | some (.ok _), none => none
    | some (.ok _), some (.error e) => some (.error e)
    | some (.ok a), some (.ok b) => some (.ok ((a - b) / (2 * h * t)))

end JaxFem.Control
