import Mathlib.Analysis.SpecialFunctions.Log.Basic
import Mathlib.Analysis.SpecialFunctions.Trigonometric.Basic
import Verif.Model.Kernel
import Verif.Model.BC
import Verif.Model.Boundary

/-!
# The updated-Lagrangian application

Model of `applications/updated_lagrangian/example.py`, lines 16-227, on top of the kernel, assembly
and boundary models of the library.  The solver call `fwd_pred(params)` is a parameter that may return
any array or an error.  The mesh (a box of 8-node hexahedra, lines 178-184) is replaced by an arbitrary
list of points, cells and a reference element with `nn` nodes and `nq` quadrature points.
-/

namespace JaxFem.UL

variable {nq nn : Nat}

/-- Line 16. -/
def MU : ℝ := 1

/-- Line 17. -/
def LAMBDA : ℝ := 2

/-- Line 20. -/
noncomputable def RIGHT_PULL : ℝ := -(1 / 10)

/-- Line 22. -/
noncomputable def RHO_MIN : ℝ := 2 / 100

/-- The constant `1e-14` of lines 110, 138 and 144. -/
noncomputable def floorJ : ℝ := 1 / 10 ^ 14

/-- `jnp.isclose(a, b, atol=atol)` with the default relative tolerance `1e-5`. -/
def isclose (a b atol : ℝ) : Prop := |a - b| ≤ atol + 1 / 10 ^ 5 * |b|

open Classical in
/-- `boundary_node_tags(points0)` with its default arguments (lines 35-45): the second assignment
overwrites the first. -/
noncomputable def boundaryNodeTags (points0 : List (Fin 3 → ℝ)) : List Nat :=
  points0.map fun p =>
    if isclose (p 0) 1 (1 / 10 ^ 7) then 2 else if isclose (p 0) 0 (1 / 10 ^ 7) then 1 else 0

/-- One row of `nodal_displacement_total_target` (lines 51-62). -/
noncomputable def targetRow (p : Fin 3 → ℝ) (lam : ℝ) (tag : Nat) : List ℝ :=
  let th := lam * Real.pi
  let uxr := lam * RIGHT_PULL
  let uyr := p 1 * (Real.cos th - 1) - p 2 * Real.sin th
  let uzr := p 1 * Real.sin th + p 2 * (Real.cos th - 1)
  [if tag = 1 then 0 else if tag = 2 then uxr else 0,
   if tag = 1 then 0 else if tag = 2 then uyr else 0,
   if tag = 1 then 0 else if tag = 2 then uzr else 0]

/-- `nodal_displacement_total_target(points0, lam, tags)` (lines 48-63). -/
noncomputable def totalTarget (points0 : List (Fin 3 → ℝ)) (lam : ℝ) (tags : List Nat) :
    List (List ℝ) :=
  List.zipWith (fun p t => targetRow p lam t) points0 tags

/-- `build_dirichlet_bc_by_tag(tags)` (lines 66-80). -/
def buildDirichletBcByTag (tags : List Nat) :
    List (LocFn (Fin 3 → ℝ)) × List Nat × List ((Fin 3 → ℝ) → ℝ) :=
  let locLeft : LocFn (Fin 3 → ℝ) := .two fun _ ind => tags.getD ind 0 == 1
  let locRight : LocFn (Fin 3 → ℝ) := .two fun _ ind => tags.getD ind 0 == 2
  let zero : (Fin 3 → ℝ) → ℝ := fun _ => 0
  ([locLeft, locLeft, locLeft, locRight, locRight, locRight], [0, 1, 2, 0, 1, 2],
    [zero, zero, zero, zero, zero, zero])

/-- What `build_mesh_and_problem` (lines 177-196) sets up: the mesh, the element tables, the tags and the
index lists `node_inds_list`, `vec_inds_list` of the variable. -/
structure Setup (nq nn : Nat) where
  points0 : List (Fin 3 → ℝ)
  cells : List (List Nat)
  el : RefElement ℝ nq nn 3
  tags : List Nat
  nodeInds : List (List Nat)
  vecInds : List (List Nat)

/-- `build_mesh_and_problem` (lines 184-195): tags and Dirichlet entries of the given mesh. -/
noncomputable def build (points0 : List (Fin 3 → ℝ)) (cells : List (List Nat))
    (el : RefElement ℝ nq nn 3) : Except Err (Setup nq nn) := do
  let tags := boundaryNodeTags points0
  let r ← dirichletBC points0 (some (buildDirichletBcByTag tags))
  pure ⟨points0, cells, el, tags, r.1, r.2.1⟩

/-- `material_kirchhoff` at one quadrature point (lines 107-113). -/
noncomputable def materialKirchhoff (F : Matrix (Fin 3) (Fin 3) ℝ) : Matrix (Fin 3) (Fin 3) ℝ :=
  let J := max F.det floorJ
  let b := F * F.transpose
  MU • (b - 1) + (LAMBDA * Real.log J) • (1 : Matrix (Fin 3) (Fin 3) ℝ)

/-- `T_pull` at one quadrature point (lines 130-146). -/
noncomputable def pullStress (Fprev : Matrix (Fin 3) (Fin 3) ℝ) (rho : ℝ)
    (gradDu : Matrix (Fin 3) (Fin 3) ℝ) : Matrix (Fin 3) (Fin 3) ℝ :=
  let simp := rho ^ 3
  let Finc := 1 + gradDu
  let F := Finc * Fprev
  let J := max F.det floorJ
  let tau := simp • materialKirchhoff F
  let cauchy := J⁻¹ • tau
  let Jinc := max Finc.det floorJ
  Jinc • (cauchy * Finc⁻¹.transpose)

/-- `universal_kernel` (lines 116-149).  The internal variables of a quadrature point are
`(F_prev, rho_q)`. -/
noncomputable def universalKernel (x : List ℝ)
    (d : CellData ℝ (Matrix (Fin 3) (Fin 3) ℝ × ℝ) nq nn 3) : List ℝ :=
  let cellDu := cellSol nn 3 x
  let gradDu : Fin nq → Matrix (Fin 3) (Fin 3) ℝ := fun q =>
    Matrix.of fun i j => ∑ a, cellDu a i * d.shapeGrads q a j
  let tPull := fun q => pullStress (d.internalVars q).1 (d.internalVars q).2 (gradDu q)
  ravel2 fun (a : Fin nn) (i : Fin 3) => ∑ q, ∑ j, tPull q i j * d.vGradsJxW q a j

/-- `push_F_prev(fe0, x_frozen, delta_u, F_prev)` (lines 83-94). -/
noncomputable def pushFPrev (S : Setup nq nn) (x : List (Fin 3 → ℝ)) (du : List (List ℝ))
    (Fprev : List (Fin nq → Matrix (Fin 3) (Fin 3) ℝ)) :
    List (Fin nq → Matrix (Fin 3) (Fin 3) ℝ) :=
  List.zipWith (fun cell Fp q =>
    let gradDu : Matrix (Fin 3) (Fin 3) ℝ := Matrix.of fun i j => ∑ a : Fin nn,
      ((du.getD (cell.getD a 0) []).getD i 0) *
        shapeGradsPhysical (physicalCoos nn x cell) (S.el.shapeGradsRef q) a j
    let Finc := 1 + gradDu
    Finc * Fp q) S.cells Fprev

/-- Sum of two arrays of shape `(num_nodes, 3)` (line 222). -/
def addRows (a b : List (List ℝ)) : List (List ℝ) := List.zipWith (List.zipWith (· + ·)) a b

/-- `u_new - u_old` (line 166). -/
def subRows (a b : List (List ℝ)) : List (List ℝ) := List.zipWith (List.zipWith (· - ·)) a b

/-- `problem.points0 + u_cum` (line 209). -/
def addPoints (p : List (Fin 3 → ℝ)) (u : List (List ℝ)) : List (Fin 3 → ℝ) :=
  List.zipWith (fun x r i => x i + r.getD i 0) p u

/-- The dictionary `params` (lines 210-216). -/
structure Params (nq : Nat) where
  points : List (Fin 3 → ℝ)
  lam : ℝ
  lamPrev : ℝ
  Fprev : List (Fin nq → Matrix (Fin 3) (Fin 3) ℝ)
  rho : List ℝ

/-- The finite-element data of the variable. -/
def Setup.fes (S : Setup nq nn) : List FE := [⟨S.points0.length, 3, nn, S.cells⟩]

/-- The state of the problem object after `set_params(params)` (lines 153-163), as seen by the cell
kernel: geometric quantities on the moved mesh and internal variables. -/
noncomputable def cellInputs (S : Setup nq nn) (p : Params nq) :
    List (CellData ℝ (Matrix (Fin 3) (Fin 3) ℝ × ℝ) nq nn 3) :=
  List.zipWith (fun cell (iv : (Fin nq → Matrix (Fin 3) (Fin 3) ℝ) × ℝ) =>
    cellData S.el p.points cell fun q => (iv.1 q, iv.2)) S.cells (p.Fprev.zip p.rho)

/-- `vals_list` after `set_params(params)` (lines 164-170), with the index lists: the Dirichlet entries of
the step. -/
noncomputable def stepEntries (S : Setup nq nn) (p : Params nq) : List (BCEntry ℝ) :=
  let uNew := totalTarget S.points0 p.lam S.tags
  let uOld := totalTarget S.points0 p.lamPrev S.tags
  let deltaU := subRows uNew uOld
  List.zipWith (fun nodes comps => ⟨nodes, comps, at2Get deltaU nodes comps⟩) S.nodeInds S.vecInds

/-- `compute_residual` of the problem after `set_params(params)`. -/
noncomputable def stepResidual (S : Setup nq nn) (p : Params nq) (sols : List (List (List ℝ))) :
    Except Err (List (List (List ℝ))) :=
  computeResidual (F := Unit) S.fes [] universalKernel (cellInputs S p) [] [] sols

/-- Local variables of `end_to_end_ul` (lines 202-204). -/
structure State (nq : Nat) where
  uCum : List (List ℝ)
  Fprev : List (Fin nq → Matrix (Fin 3) (Fin 3) ℝ)
  lamPrev : ℝ

/-- Initial values (lines 201-204). -/
def State.init (S : Setup nq nn) : State nq :=
  ⟨S.points0.map fun _ => [0, 0, 0], S.cells.map fun _ _ => 1, 0⟩

/-- `params` of a step (lines 208-216). -/
def State.params (S : Setup nq nn) (rho : List ℝ) (s : State nq) (lam : ℝ) : Params nq :=
  ⟨addPoints S.points0 s.uCum, lam, s.lamPrev, s.Fprev, rho⟩

/-- Lines 221-223. -/
noncomputable def State.advance (S : Setup nq nn) (s : State nq) (lam : ℝ) (du : List (List ℝ)) :
    State nq :=
  ⟨addRows s.uCum du, pushFPrev S (addPoints S.points0 s.uCum) du s.Fprev, lam⟩

/-- The loop of `end_to_end_ul` (lines 207-223) over a list of load factors. -/
noncomputable def loop (S : Setup nq nn) (rho : List ℝ)
    (fwdPred : Params nq → Except Err (List (List (List ℝ)))) :
    List ℝ → State nq → Except Err (State nq)
  | [], s => pure s
  | lam :: lams, s => do
    let solList ← fwdPred (s.params S rho lam)
    let du := solList.getD 0 []
    loop S rho fwdPred lams (s.advance S lam du)

/-- `lam` of step `step` (line 208, with `LOAD_SCHEDULE_STEPS = 7`). -/
noncomputable def loadFactor (step : Nat) : ℝ := (step + 1) / 7

/-- `jnp.clip(rho_design, RHO_MIN, 1.0)` (line 200). -/
noncomputable def clipRho (rho : List ℝ) : List ℝ := rho.map fun r => min (max r RHO_MIN) 1

/-- `end_to_end_ul` (lines 199-223, with `N_STEPS = 7`): the state after the loop. -/
noncomputable def endToEnd (S : Setup nq nn) (rhoDesign : List ℝ)
    (fwdPred : Params nq → Except Err (List (List (List ℝ)))) : Except Err (State nq) :=
  loop S (clipRho rhoDesign) fwdPred ((List.range 7).map loadFactor) (State.init S)

end JaxFem.UL
