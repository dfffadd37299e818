import Verif.Model.Coupled
import Verif.Model.Elastic
import Verif.Model.BC
import Verif.Model.Boundary

/-!
# Linear elasticity with one variable and with two

Model of `applications/stokes/example_1var.py` (`vec=3`) and `applications/stokes/example_2vars.py`
(`vec=[1, 2]`), two formulations of the same problem that the authors compare "to verify that the
implementation of multi-variable problem is correct".  The material constants `E = 70e3`, `nu = 0.3` are
parameters.
-/

namespace JaxFem.SplitVars

/-- `jax.vmap(stress)(u_grads_reshape)` (`example_1var.py:41`, `example_2vars.py:47`) as an array over
quadrature points, components and directions. -/
noncomputable def physics (E nu : ℝ) (uGrads : Nat → Nat → Fin 3 → ℝ) (q c : Nat) (j : Fin 3) : ℝ :=
  if h : c < 3 then Elastic.stress E nu (fun i j => uGrads q i j) ⟨c, h⟩ j else 0

/-- `universal_kernel` of `example_1var.py:28-45`; `[:, :self.fes[0].num_nodes]` are the first rows. -/
noncomputable def kernel1 (E nu : ℝ) (v : CVar 3) (x : List ℝ) (d : PackedCell 3) (_iv : Unit) : List ℝ :=
  let sol := (unravelSol (cellShapes [v.fe]) x).getD 0 []
  let g := fun q => (d.shapeGrads q).take v.nn
  let vg := fun q => (d.vGradsJxW q).take v.nn
  let uGrads := gradOp v.nn sol g
  let val := fluxOp d.numQuads (physics E nu uGrads) vg
  ravelSol [mk2 v.nn v.vec val]

/-- `universal_kernel` of `example_2vars.py:28-53`: `np.concatenate(cell_sol_list, axis=1)`, the geometry
of the first variable, and `[val[:, :1], val[:, 1:]]`. -/
noncomputable def kernel2 (E nu : ℝ) (v1 v2 : CVar 3) (x : List ℝ) (d : PackedCell 3) (_iv : Unit) : List ℝ :=
  let sols := unravelSol (cellShapes [v1.fe, v2.fe]) x
  let cum := numNodesCumsum [v1, v2]
  let g := fun q => sliceVar cum 0 (d.shapeGrads q)
  let vg := fun q => sliceVar cum 0 (d.vGradsJxW q)
  let sol := List.zipWith (· ++ ·) (sols.getD 0 []) (sols.getD 1 [])
  let vec := v1.vec + v2.vec
  let uGrads := gradOp v1.nn sol g
  let val := mk2 v1.nn vec (fluxOp d.numQuads (physics E nu uGrads) vg)
  ravelSol [val.map fun r => r.take 1, val.map fun r => r.drop 1]

/-- `compute_residual` of `example_1var.py`. -/
noncomputable def residual1 (E nu : ℝ) (v : CVar 3) (sols : List (List (List ℝ))) :
    Except Err (List (List (List ℝ))) :=
  coupledResidual [v] (kernel1 E nu v) (List.replicate v.cells.length ()) sols

/-- `compute_residual` of `example_2vars.py`. -/
noncomputable def residual2 (E nu : ℝ) (v1 v2 : CVar 3) (sols : List (List (List ℝ))) :
    Except Err (List (List (List ℝ))) :=
  coupledResidual [v1, v2] (kernel2 E nu v1 v2) (List.replicate v1.cells.length ()) sols

/-- The lists `node_inds_list`, `vec_inds_list`, `vals_list` of one variable as entries. -/
def entries (b : List (List Nat) × List (List Nat) × List (List ℝ)) : List (BCEntry ℝ) :=
  List.zipWith (fun n cv => ⟨n, cv.1, cv.2⟩) b.1 (b.2.1.zip b.2.2)

/-- `np.isclose(x, b, atol=1e-5)` with the default relative tolerance. -/
def isclose (a b : ℝ) : Prop := |a - b| ≤ 1 / 10 ^ 5 + 1 / 10 ^ 5 * |b|

open Classical in
/-- `left` (`example_1var.py:58-59`). -/
noncomputable def left : LocFn (Fin 3 → ℝ) := .one fun p => isclose (p 0) 0

open Classical in
/-- `right` (`example_1var.py:61-62`). -/
noncomputable def right : LocFn (Fin 3 → ℝ) := .one fun p => isclose (p 0) 1

/-- `zero_dirichlet_val` (`example_1var.py:64-65`). -/
def zeroVal : (Fin 3 → ℝ) → ℝ := fun _ => 0

/-- `dirichlet_val` (`example_1var.py:67-68`). -/
noncomputable def dirichletVal : (Fin 3 → ℝ) → ℝ := fun _ => 0.1

/-- `dirichlet_bc_info` (`example_1var.py:70-73`). -/
noncomputable def info : List (LocFn (Fin 3 → ℝ)) × List Nat × List ((Fin 3 → ℝ) → ℝ) :=
  ([left, left, left, right, right, right], [0, 1, 2, 0, 1, 2],
    [zeroVal, zeroVal, zeroVal, dirichletVal, zeroVal, zeroVal])

/-- `dirichlet_bc_info1` (`example_2vars.py:78-80`). -/
noncomputable def info1 : List (LocFn (Fin 3 → ℝ)) × List Nat × List ((Fin 3 → ℝ) → ℝ) :=
  ([left, right], [0, 0], [zeroVal, dirichletVal])

/-- `dirichlet_bc_info2` (`example_2vars.py:83-86`). -/
noncomputable def info2 : List (LocFn (Fin 3 → ℝ)) × List Nat × List ((Fin 3 → ℝ) → ℝ) :=
  ([left, left, right, right], [0, 1, 0, 1], [zeroVal, zeroVal, zeroVal, zeroVal])

end JaxFem.SplitVars
