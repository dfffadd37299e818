import Verif.Model.Coupled
import Verif.Model.Boundary

/-!
# The `Problem` object and `initialize_geometric_quantities`

Model of the mutable part of a `Problem` (`jax_fem/problem.py:56-182`) and of its `FiniteElement`s
(`jax_fem/fe.py:76-270`).  `initialize_geometric_quantities(fes_points)` may be called again with moved
points (`applications/differentiable_mesh/example.py:108-110`,
`applications/updated_lagrangian/example.py:162`); it assigns attributes of the finite elements and of
the problem one after the other, and what was assigned before an exception stays assigned.

Simplification: every row number in `cells` is assumed to exist in the given points (`jnp.take` fills
missing rows with NaN, the model with 0).
-/

namespace JaxFem.Refresh

variable {dim : Nat}

/-- The points of a mesh. -/
abbrev Points (dim : Nat) := List (Fin dim → ℝ)

/-- `[location_fns, vecs, value_fns]` or `None` (`fe.py:241`). -/
abbrev Info (dim : Nat) := Option (List (LocFn (Fin dim → ℝ)) × List Nat × List ((Fin dim → ℝ) → ℝ))

/-- `node_inds_list`, `vec_inds_list`, `vals_list` (`fe.py:100`). -/
abbrev BCLists := List (List Nat) × List (List Nat) × List (List ℝ)

/-- The same variable with other points. -/
def withPoints (v : CVar dim) (x : Points dim) : CVar dim := { v with points := x }

/-- A `FiniteElement` with its mutable attributes: `var` holds `points`, `cells` and the tables
(`fe.py:76-98`), `bc` the boundary conditions (`fe.py:100`), the rest is assigned in
`problem.py:137-139`. -/
structure FEObj (dim : Nat) where
  var : CVar dim
  bc : BCLists
  shapeGrads : Nat → Nat → List (Fin dim → ℝ)
  JxW : Nat → Nat → ℝ
  vGradsJxW : Nat → Nat → List (Fin dim → ℝ)

/-- A `Problem` with the attributes assigned in `problem.py:79` and `problem.py:143-182`.  Leading axes
(cells; boundary subsets and faces) are lists. -/
structure Obj (dim : Nat) where
  fes : List (FEObj dim)
  bs : List BoundaryInds
  JxW : List (List (Nat → ℝ))
  shapeGrads : List (Nat → List (Fin dim → ℝ))
  vGradsJxW : List (Nat → List (Fin dim → ℝ))
  quadPoints : List (Nat → Fin dim → ℝ)
  faceShapeGrads : List (List (Nat → List (Fin dim → ℝ)))
  nanson : List (List (List (Nat → ℝ)))
  faceShapeVals : List (List (Nat → List ℝ))
  surfQuadPoints : List (List (Nat → Fin dim → ℝ))

/-- Body of the first loop (`problem.py:136-139`). -/
noncomputable def feStep (x : Points dim) (f : FEObj dim) : FEObj dim :=
  let sg := (withPoints f.var x).shapeGrads
  let jw := (withPoints f.var x).jxw
  { f with shapeGrads := sg, JxW := jw, vGradsJxW := fun e q => (sg e q).map fun g j => g j * jw e q }

/-- The first loop (`problem.py:135-139`); `fes_points[i]` raises `IndexError` when the list is too
short, after the elements before have been updated. -/
noncomputable def feLoop : List (FEObj dim) → List (Points dim) → List (FEObj dim) × Except Err Unit
  | [], _ => ([], .ok ())
  | f :: fs, [] => (f :: fs, .error .index)
  | f :: fs, x :: xs =>
    let r := feLoop fs xs
    (feStep x f :: r.1, r.2)

/-- `self.fes[0].get_physical_surface_quad_points(boundary_inds, fes_points[0])` (`problem.py:178`). -/
noncomputable def firstSurfPoints (vs : List (CVar dim)) (b : BoundaryInds) : List (Nat → Fin dim → ℝ) :=
  match vs with
  | [] => []
  | v0 :: _ => b.map fun p => v0.faceQuadPoint p

/-- Body of the second loop for the boundary subset `b` (`problem.py:159-182`): append one entry to
each of the four lists. -/
noncomputable def faceStep (fp : List (Points dim)) (o : Obj dim) (b : BoundaryInds) : Obj dim :=
  let vs := List.zipWith (fun (f : FEObj dim) x => withPoints f.var x) o.fes fp
  { o with
    faceShapeGrads := o.faceShapeGrads ++ [b.map fun p q => vs.flatMap fun v => v.faceShapeGrads p q]
    nanson := o.nanson ++ [b.map fun p => vs.map fun v => v.nanson p]
    faceShapeVals := o.faceShapeVals ++
      [b.map fun p q => o.fes.flatMap fun f => f.var.faceVals p q]
    surfQuadPoints := o.surfQuadPoints ++ [firstSurfPoints vs b] }

/-- `initialize_geometric_quantities(fes_points)` (`problem.py:130-182`): the object afterwards and the
exception, if any.  `np.stack` and `np.concatenate` raise `ValueError` when the variables have different
numbers of cells or of quadrature points (`problem.py:143`), before any attribute of the problem is
assigned, or, with a boundary subset, different numbers of face points (`problem.py:171`). -/
noncomputable def initGeom (o : Obj dim) (pts : Option (List (Points dim))) : Obj dim × Except Err Unit :=
  let fp := pts.getD (o.fes.map fun f => f.var.points)
  let r := feLoop o.fes fp
  let o := { o with fes := r.1 }
  match r.2 with
  | .error e => (o, .error e)
  | .ok _ =>
    match o.fes, fp with
    | f0 :: _, x0 :: _ =>
      if o.fes.all (fun f => f.var.cells.length == f0.var.cells.length && f.var.nq == f0.var.nq) then
        let cs := List.range f0.var.cells.length
        let o := { o with
          JxW := cs.map fun e => o.fes.map fun f => f.JxW e
          shapeGrads := cs.map fun e q => o.fes.flatMap fun f => f.shapeGrads e q
          vGradsJxW := cs.map fun e q => o.fes.flatMap fun f => f.vGradsJxW e q
          quadPoints := cs.map fun e => (withPoints f0.var x0).quadPoint e
          faceShapeGrads := [], nanson := [], faceShapeVals := [], surfQuadPoints := [] }
        if o.bs.isEmpty || o.fes.all (fun f => f.var.nfq == f0.var.nfq) then
          (o.bs.foldl (faceStep fp) o, .ok ())
        else (o, .error .value)
      else (o, .error .value)
    | _, _ => (o, .error .value)

/-- A `FiniteElement` after its own constructor (`fe.py:76-104`): no geometric attributes yet. -/
def FEObj.bare (v : CVar dim) (bc : BCLists) : FEObj dim where
  var := v
  bc := bc
  shapeGrads _ _ := []
  JxW _ _ := 0
  vGradsJxW _ _ := []

/-- The problem before its geometric attributes are assigned. -/
def Obj.bare (fes : List (FEObj dim)) (bs : List BoundaryInds) : Obj dim where
  fes := fes
  bs := bs
  JxW := []
  shapeGrads := []
  vGradsJxW := []
  quadPoints := []
  faceShapeGrads := []
  nanson := []
  faceShapeVals := []
  surfQuadPoints := []

/-- `Problem.__post_init__` (`problem.py:66-123`) for given variables: boundary conditions of every
element (`fe.py:100`), selection of the boundary faces by the first element (`problem.py:79`), geometry.
`faceInds` is `face_inds` of the first element. -/
noncomputable def construct (vars : List (CVar dim)) (infos : List (Info dim)) (faceInds : List (List Nat))
    (locs : Option (List (LocFn (Fin dim → ℝ)))) : Except Err (Obj dim) := do
  let fes ← (vars.zip infos).mapM fun p => do
    let bc ← dirichletBC p.1.points p.2
    pure (FEObj.bare p.1 bc)
  match fes with
  | [] => .error .index
  | f0 :: _ => do
    let bs ← boundaryInds f0.var.points f0.var.cells faceInds locs
    let r := initGeom (Obj.bare fes bs) none
    let _ ← r.2
    pure r.1

/-- `fe.update_Dirichlet_boundary_conditions(info)` of element `i` (`fe.py:260-269`): evaluated at
`fe.points`; the attributes are assigned only if no exception is raised. -/
noncomputable def updateBC (o : Obj dim) (i : Nat) (info : Info dim) : Obj dim × Except Err Unit :=
  match o.fes[i]? with
  | none => (o, .error .index)
  | some f =>
    match dirichletBC f.var.points info with
    | .error e => (o, .error e)
    | .ok bc => ({ o with fes := o.fes.set i { f with bc := bc } }, .ok ())

/-- `fe.points = x` for element `i`, as in `applications/updated_lagrangian/example.py` around the
writing of the output. -/
def assignPoints (o : Obj dim) (i : Nat) (x : Points dim) : Obj dim × Except Err Unit :=
  match o.fes[i]? with
  | none => (o, .error .index)
  | some f => ({ o with fes := o.fes.set i { f with var := withPoints f.var x } }, .ok ())

/-- What user code may do to the object between two solves. -/
inductive Op (dim : Nat) where
  | refresh (pts : Option (List (Points dim)))
  | updateBC (i : Nat) (info : Info dim)
  | assignPoints (i : Nat) (x : Points dim)

/-- One operation. -/
noncomputable def step (o : Obj dim) : Op dim → Obj dim × Except Err Unit
  | .refresh pts => initGeom o pts
  | .updateBC i info => updateBC o i info
  | .assignPoints i x => assignPoints o i x

/-- A history of operations; exceptions are caught by the caller. -/
noncomputable def run (o : Obj dim) (ops : List (Op dim)) : Obj dim :=
  ops.foldl (fun o op => (step o op).1) o

/-- What the cell kernels are mapped over (`problem.py:367,392`). -/
noncomputable def Obj.cellInputs (o : Obj dim) : List (PackedCell dim) :=
  match o.fes with
  | [] => []
  | f0 :: _ => (List.range o.JxW.length).map fun e =>
    { numQuads := f0.var.nq
      quadPoints := o.quadPoints.getD e 0
      shapeGrads := o.shapeGrads.getD e fun _ => []
      JxW := o.JxW.getD e []
      vGradsJxW := o.vGradsJxW.getD e fun _ => [] }

/-- What the face kernels are mapped over (`problem.py:408-409`). -/
noncomputable def Obj.faceInputs (o : Obj dim) : List (List (PackedFace dim)) :=
  match o.fes with
  | [] => []
  | f0 :: _ => (List.range o.nanson.length).map fun i =>
    (List.range (o.nanson.getD i []).length).map fun k =>
    { numQuads := f0.var.nfq
      quadPoints := (o.surfQuadPoints.getD i []).getD k 0
      shapeVals := (o.faceShapeVals.getD i []).getD k fun _ => []
      shapeGrads := (o.faceShapeGrads.getD i []).getD k fun _ => []
      nanson := (o.nanson.getD i []).getD k [] }

/-- `compute_residual` (`problem.py:462-475`) of the object with its present attributes. -/
noncomputable def Obj.residual {IV : Type} (o : Obj dim) (kernel : List ℝ → PackedCell dim × IV → List ℝ)
    (ivs : List IV) (ks : List (List ℝ → PackedFace dim × IV → List ℝ)) (fivs : List (List IV))
    (sols : List (List (List ℝ))) : Except Err (List (List (List ℝ))) :=
  computeResidual (o.fes.map fun f => f.var.fe) o.bs kernel (o.cellInputs.zip ivs) ks
    (List.zipWith (fun d iv => d.zip iv) o.faceInputs fivs) sols

/-- `fe.sol_to_grad(sol)[e, q, c, j]` (`fe.py:366-382`): uses the attribute `shape_grads`. -/
noncomputable def FEObj.solToGrad (f : FEObj dim) (sol : List (List ℝ)) (e q c : Nat) (j : Fin dim) : ℝ :=
  gradOp f.var.nn ((f.var.cells.getD e []).map fun n => sol.getD n []) (f.shapeGrads e) q c j

/-- `fe.get_physical_quad_points()[e, q]` without argument (`fe.py:184-197`): uses `fe.points`. -/
noncomputable def FEObj.physicalQuadPoints (f : FEObj dim) (e q : Nat) : Fin dim → ℝ := f.var.quadPoint e q

end JaxFem.Refresh
