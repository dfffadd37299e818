import Verif.Model.Hyper
import Verif.Model.UserBC
import Verif.Model.Elements
import Verif.Model.StructMesh
import Verif.Model.ArcLength

/-!
# Buckling of a beam by arc-length continuation

`applications/arc_length/hyperelastic_models.py`, `beam2d_force.py` and `beam2d_displacement.py`: a neo-Hookean beam of length
50 and height 2 with 50 × 2 elements, clamped at its left end, compressed by a force or by a displacement of its right end.

Exact real arithmetic; element and face data of QUAD4 (quadrature) are parameters; printing and `save_sol` are left out.
-/

namespace JaxFem.Beams

variable {nq nfq : Nat}

/-- `Lx` (`hyperelastic_models.py:9`). -/
def Lx : ℝ := 50

/-- `Ly` (`hyperelastic_models.py:10`). -/
def Ly : ℝ := 2

/-- `make_mesh()` with the default arguments (`hyperelastic_models.py:11-19`): points and cells. -/
noncomputable def makeMesh : List (Fin 2 → ℝ) × List (List Nat) := rectangleMesh 50 2 Lx Ly

/-- `np.isclose(a, b, atol=1e-5)`: the relative tolerance has its default value `1e-5`. -/
def isclose (a b : ℝ) : Prop := |a - b| ≤ 1 / 10 ^ 5 + 1 / 10 ^ 5 * |b|

open Classical in
/-- `location_left` (`hyperelastic_models.py:22-24`). -/
noncomputable def locationLeft : LocFn (Fin 2 → ℝ) := .one fun p => decide (isclose (p 0) 0)

open Classical in
/-- `location_right` (`hyperelastic_models.py:27-29`). -/
noncomputable def locationRight : LocFn (Fin 2 → ℝ) := .one fun p => decide (isclose (p 0) Lx)

open Classical in
/-- `location_midspan_bottom` (`beam2d_force.py:25-26`, `beam2d_displacement.py:28-29`). -/
noncomputable def locationMidspanBottom : LocFn (Fin 2 → ℝ) := .one fun p =>
  decide (isclose (p 1) 0 ∧ p 0 > Lx / 2 - 2 ∧ p 0 < Lx / 2 + 2)

/-- `psi` of `BeamHyperelastic` (`hyperelastic_models.py:36-44`). -/
noncomputable def energy (F : Fin 2 → Fin 2 → ℝ) : ℝ :=
  let E := 1000
  let nu := 3 / 10
  Hyper.psi 2 (Hyper.muOf E nu) (Hyper.kappaOf E nu) F

/-- `END_TRACTION` (`beam2d_force.py:22`). -/
def endTraction : ℝ := 5

/-- `END_COMPRESSION` (`beam2d_displacement.py:25`). -/
noncomputable def endCompression : ℝ := -(5 / 100) * Lx

/-- `imperfection` (`beam2d_force.py:46-47`), `surface_map` (`beam2d_displacement.py:48-49`). -/
noncomputable def imperfection (_u _x : Fin 2 → ℝ) : Fin 2 → ℝ := ![0, 1 / 10 ^ 5]

/-- `end_traction` (`beam2d_force.py:49-50`). -/
noncomputable def endTractionMap (_u _x : Fin 2 → ℝ) : Fin 2 → ℝ := ![endTraction, 0]

/-- `surface_map` of `BeamCounterLoad` (`beam2d_force.py:74-75`). -/
noncomputable def counterMap (_u _x : Fin 2 → ℝ) : Fin 2 → ℝ := ![-endTraction, 0]

/-- `boundary_inds_list` (`problem.py:80`, `fe.py:291-336`) of the mesh for the given location functions. -/
noncomputable def boundaryFaces (locs : List (LocFn (Fin 2 → ℝ))) : Except Err (List (List (Nat × Nat))) := do
  let info ← getElements "QUAD4"
  let faceInds ← elementFaceInds info
  boundaryInds makeMesh.1 makeMesh.2 faceInds (some locs)

/-- A problem on the mesh with `vec=2, dim=2, ele_type='QUAD4'`, given the tensor map and the surface maps with their faces. -/
noncomputable def beam (el : RefElement ℝ nq 4 2) (fc : RefFaces ℝ nfq 4 2) (tensorMap : (Fin 2 → Fin 2 → ℝ) → Fin 2 → Fin 2 → ℝ)
    (surfaces : List (((Fin 2 → ℝ) → (Fin 2 → ℝ) → Fin 2 → ℝ) × List (Nat × Nat))) : Problem1 Unit nq nfq 4 2 2 where
  numTotalNodes := makeMesh.1.length
  points := makeMesh.1
  cells := makeMesh.2.map fun c => ⟨c, fun _ => ()⟩
  el := el
  fc := fc
  tensorMap := fun _ uGrad => tensorMap uGrad
  massMap := none
  surfaces := surfaces.map fun s => ⟨fun _ => s.1, s.2.map fun f => ⟨f.1, f.2, fun _ => ()⟩⟩

/-- Construction of a problem: boundary subset `i` belongs to surface map `i` (`problem.py:311-312`), and there must be as
many as surface maps (`problem.py:340-342`). -/
noncomputable def build (el : RefElement ℝ nq 4 2) (fc : RefFaces ℝ nfq 4 2) (tensorMap : (Fin 2 → Fin 2 → ℝ) → Fin 2 → Fin 2 → ℝ)
    (maps : List ((Fin 2 → ℝ) → (Fin 2 → ℝ) → Fin 2 → ℝ)) (locs : List (LocFn (Fin 2 → ℝ))) :
    Except Err (Problem1 Unit nq nfq 4 2 2) := do
  let bs ← boundaryFaces locs
  if bs.length = maps.length then return beam el fc tensorMap (maps.zip bs) else throw .assertion

/-- `problem` of `beam2d_force.py:82-86`. -/
noncomputable def forceProblem (el : RefElement ℝ nq 4 2) (fc : RefFaces ℝ nfq 4 2) : Except Err (Problem1 Unit nq nfq 4 2 2) :=
  build el fc (Hyper.firstPK energy) [imperfection, endTractionMap] [locationMidspanBottom, locationRight]

/-- `BeamCounterLoad(...)` of `beam2d_force.py:87-90`. -/
noncomputable def counterProblem (el : RefElement ℝ nq 4 2) (fc : RefFaces ℝ nfq 4 2) : Except Err (Problem1 Unit nq nfq 4 2 2) :=
  build el fc (fun _ => 0) [counterMap] [locationRight]

/-- `problem` of `beam2d_displacement.py:57-61`. -/
noncomputable def dispProblem (el : RefElement ℝ nq 4 2) (fc : RefFaces ℝ nfq 4 2) : Except Err (Problem1 Unit nq nfq 4 2 2) :=
  build el fc (Hyper.firstPK energy) [imperfection] [locationMidspanBottom]

/-- `clamped_left_dirichlet_bc_info` (`beam2d_force.py:29-37`). -/
noncomputable def clampedLeft : UserBC.Info (Fin 2 → ℝ) ℝ :=
  some ([locationLeft, locationLeft], [0, 1], [fun _ => 0, fun _ => 0])

/-- `compression_dirichlet_bc_info` (`beam2d_displacement.py:32-43`). -/
noncomputable def compression : UserBC.Info (Fin 2 → ℝ) ℝ :=
  some ([locationLeft, locationLeft, locationRight, locationRight], [0, 1, 0, 1],
    [fun _ => 0, fun _ => 0, fun _ => endCompression, fun _ => 0])

/-- `get_q_vec(problem)` (`solver.py:637-642`): the residual at zero. -/
def getQVec {N : Nat} (newtonUpdate : (Fin N → ℝ) → Fin N → ℝ) : Fin N → ℝ := newtonUpdate 0

open Classical in
/-- `assert len(node_inds) == 3` for the first four lists of `fe.node_inds_list` (`beam2d_displacement.py:63-67`). -/
def checkEdges (nodeInds : List (List Nat)) : Except Err Unit :=
  if ∀ l ∈ nodeInds.take 4, l.length = 3 then .ok () else .error .assertion

open Classical in
/-- `on_step` of `beam2d_displacement.py:69-78` for `N` degrees of freedom: every tenth step the vertical displacement of the
right edge must be below `1e-6`. (`onp.max` is taken over three nodes, see `C108_nodes`.) -/
noncomputable def onStep {N : Nat} (step : Nat) (u : Fin N → ℝ) (_lam : ℝ) : Except Err Unit :=
  if step % 10 = 0 then
    if ∀ n p, makeMesh.1[n]? = some p → isclose (p 0) Lx → ∀ k : Fin N, (k : Nat) = n * 2 + 1 → |u k| < 1 / 10 ^ 6 then .ok ()
    else .error .assertion
  else .ok ()

/-- `solver_options['arc_length']` of `beam2d_force.py:100-112`; its `on_step` only prints and saves. -/
noncomputable def forceCfg {N : Nat} (q : Fin N → ℝ) : ArcCfg (Fin N → ℝ) ℝ where
  control := some "force"
  psi := some (1 / 2)
  deltaL := some (1 / 10)
  deltaLLate := some 1
  switchStep := some 200
  maxSteps := some 600
  qVecAux := some q
  callback := some fun _ _ _ => .ok ()

/-- `solver_options['arc_length']` of `beam2d_displacement.py:80-89`. -/
noncomputable def dispCfg {N : Nat} : ArcCfg (Fin N → ℝ) ℝ where
  control := some "displacement"
  psi := some 1
  deltaL := some (1 / 10)
  maxSteps := some 600
  callback := some onStep

open Classical in
/-- `solver(problem, solver_options)` (`solver.py:759-852`) from rest (`solver.py:766-769`, `806-809`); `disp`, `force` are
the two correctors and `polish` the final Newton solve. -/
noncomputable def continuation {N : Nat} (disp : ℝ → ℝ → ArcState N → Except Err (ArcState N))
    (force : (Fin N → ℝ) → ℝ → ℝ → ArcState N → Except Err (ArcState N)) (polish : (Fin N → ℝ) → Except Err (Fin N → ℝ))
    (cfg : ArcCfg (Fin N → ℝ) ℝ) : Except Err (ArcResult (Fin N → ℝ) ℝ) :=
  solveArcLength (1 / 10) (1 / 2) disp force polish (fun s => (s.u, s.lam)) ⟨0, 0, 0, 0⟩ cfg

end JaxFem.Beams
