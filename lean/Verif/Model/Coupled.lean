import Mathlib.Algebra.BigOperators.Fin
import Verif.Model.Kernel
import Verif.Model.Elements

/-!
# Several variables: construction, packed geometry and universal kernels

Model of `jax_fem/problem.py`, lines 56-76 (scalar or list arguments), 120-185 (packed geometric
arrays), and of the universal kernels in `applications/stokes/example.py`,
`applications/wave/example.py`, `applications/thermal_mechanical_full/example.py` and
`applications/dendrite`.

Axes over cells, quadrature points and local nodes are functions of natural numbers together with
their extents; the axis that the code concatenates (the nodes of all variables) is a list, so that
the slices `[:, cumsum[i]:cumsum[i+1]]` are Python slices of that list.
-/

namespace JaxFem

open scoped BigOperators

/-! ### Arguments of `Problem` -/

/-- A Python argument that is a list or something else. -/
inductive Arg (α : Type) where
  | one (a : α)
  | many (l : List α)
  deriving DecidableEq, Repr

/-- `a[i]` for an argument that must be a list (`vec`, `problem.py:69`): indexing an `int` raises
`TypeError`. -/
def Arg.item {α : Type} : Arg α → Nat → Except Err α
  | .one _, _ => .error .type
  | .many l, i => match l[i]? with
    | some a => .ok a
    | none => .error .index

/-- `ele_type[i]` (`problem.py:71`): a string can be indexed too and gives its `i`-th character. -/
def Arg.strItem : Arg String → Nat → Except Err String
  | .one s, i => match s.toList[i]? with
    | some c => .ok (String.singleton c)
    | none => .error .index
  | .many l, i => (Arg.many l).item i

/-- `x[i] if type(x) == type([]) else x` (`problem.py:72-74`). -/
def Arg.shared {α : Type} : Arg α → Nat → Except Err α
  | .one a, _ => .ok a
  | .many l, i => (Arg.many l).item i

/-- One `dirichlet_bc_info` triple `[location_fns, vecs, value_fns]` (`fe.py:241`). -/
structure BcInfo (L V : Type) where
  locations : List L
  vecs : List Nat
  values : List V
  deriving DecidableEq, Repr

/-- The argument `dirichlet_bc_info`: `None`, one triple (which is a Python list as well), or a list
with one entry per variable. -/
inductive BcArg (L V : Type) where
  | none
  | info (b : BcInfo L V)
  | perVar (l : List (Option (BcInfo L V)))
  deriving DecidableEq, Repr

/-- `dirichlet_bc_info[i] if type(dirichlet_bc_info) == type([]) else dirichlet_bc_info`
(`problem.py:74`).  The inner result is that of the unpacking `location_fns, vecs, value_fns = …` in
`fe.py:241-242`.  A single triple is a list, so its entry `i` is taken, which is a list of functions or
integers and does not unpack into three lists: `ValueError` unless it has three entries, then
`TypeError` from `len` of a function or an integer. -/
def BcArg.item {L V : Type} : BcArg L V → Nat → Except Err (Except Err (Option (BcInfo L V)))
  | .none, _ => .ok (.ok Option.none)
  | .info b, i =>
    if i = 0 then .ok (if b.locations.length = 3 then .error .type else .error .value)
    else if i = 1 then .ok (if b.vecs.length = 3 then .error .type else .error .value)
    else if i = 2 then .ok (if b.values.length = 3 then .error .type else .error .value)
    else .error .index
  | .perVar l, i => match l[i]? with
    | some b => .ok (.ok b)
    | Option.none => .error .index

/-- The wrapped argument of a problem with a single mesh (`problem.py:64`): a list with one entry per
variable becomes the "triple" of the only variable and does not unpack. -/
def BcArg.wrap {L V : Type} : BcArg L V → Except Err (BcArg L V)
  | .none => .ok (.perVar [Option.none])
  | .info b => .ok (.perVar [some b])
  | .perVar l => if l.length = 3 then .error .type else .error .value

/-- The arguments of `Problem` that depend on the variable (`problem.py:46-52`). -/
structure ProblemArgs (M Q L V : Type) where
  mesh : Arg M
  vec : Arg Nat
  eleType : Arg String
  quadratureRule : Arg Q
  quadratureOrder : Arg (Option Nat)
  dirichlet : BcArg L V

/-- What one `FiniteElement` is constructed from (`problem.py:68-74`). -/
structure FEArgs (M Q L V : Type) where
  mesh : M
  vec : Nat
  eleType : String
  quadratureRule : Q
  quadratureOrder : Option Nat
  dirichlet : Option (BcInfo L V)
  deriving DecidableEq, Repr

/-- Wrapping of a scalar argument in a list of length one (`problem.py:59-63`). An argument that is
already a list becomes a list whose single entry is that list; this is not a legal value for one
variable and its use fails (the exception depends on the argument; here `TypeError`). -/
def Arg.wrap {α : Type} : Arg α → Except Err (Arg α)
  | .one a => .ok (.many [a])
  | .many _ => .error .type

/-- `problem.py:58-64`: with a single mesh all arguments are wrapped. -/
def wrapArgs {M Q L V : Type} (p : ProblemArgs M Q L V) : Except Err (ProblemArgs M Q L V) :=
  match p.mesh with
  | .many _ => .ok p
  | .one m => do
    let vec ← p.vec.wrap
    let ele ← p.eleType.wrap
    let qr ← p.quadratureRule.wrap
    let qo ← p.quadratureOrder.wrap
    let bc ← p.dirichlet.wrap
    .ok { mesh := .many [m], vec := vec, eleType := ele, quadratureRule := qr, quadratureOrder := qo,
          dirichlet := bc }

/-- The arguments of the `i`-th `FiniteElement` (`problem.py:68-75`), whose constructor looks up the
element (`fe.py:87`) and unpacks the boundary conditions (`fe.py:104,241`). -/
def feArg {M Q L V : Type} (p : ProblemArgs M Q L V) (i : Nat) : Except Err (FEArgs M Q L V) := do
  let m ← p.mesh.item i
  let vec ← p.vec.item i
  let ele ← p.eleType.strItem i
  let qr ← p.quadratureRule.shared i
  let qo ← p.quadratureOrder.shared i
  let raw ← p.dirichlet.item i
  let _ ← getElements ele
  let bc ← raw
  .ok { mesh := m, vec := vec, eleType := ele, quadratureRule := qr, quadratureOrder := qo,
        dirichlet := bc }

/-- `problem.py:58-79`: the arguments of all `FiniteElement`s, in order; `fes[0]` raises `IndexError`
when there is none. -/
def feArgs {M Q L V : Type} (p : ProblemArgs M Q L V) : Except Err (List (FEArgs M Q L V)) := do
  let p ← wrapArgs p
  let n := match p.mesh with
    | .many l => l.length
    | .one _ => 0
  let fes ← (List.range n).mapM (feArg p)
  if fes.isEmpty then .error .index else .ok fes

/-! ### Geometry of one variable and packing -/

/-- One variable of a `Problem`: a `FiniteElement` with its mesh and its tables
(`fe.py:76-100`). -/
structure CVar (dim : Nat) where
  numTotalNodes : Nat
  vec : Nat
  nn : Nat
  nq : Nat
  nfq : Nat
  points : List (Fin dim → ℝ)
  cells : List (List Nat)
  shapeVals : Nat → Nat → ℝ
  shapeGradsRef : Nat → Nat → Fin dim → ℝ
  quadWeights : Nat → ℝ
  faceShapeVals : Nat → Nat → Nat → ℝ
  faceShapeGradsRef : Nat → Nat → Nat → Fin dim → ℝ
  faceQuadWeights : Nat → Nat → ℝ
  faceNormals : Nat → Fin dim → ℝ

namespace CVar

variable {dim : Nat} (v : CVar dim)

/-- The bookkeeping part of the variable. -/
def fe : FE := ⟨v.numTotalNodes, v.vec, v.nn, v.cells⟩

/-- `physical_coos` of cell `e` (`fe.py:131`). -/
noncomputable def coos (e : Nat) : Fin v.nn → Fin dim → ℝ := physicalCoos v.nn v.points (v.cells.getD e [])

/-- `shape_grads_ref[q]`. -/
def gref (q : Nat) : Fin v.nn → Fin dim → ℝ := fun a => v.shapeGradsRef q a

/-- `fe.shape_grads[e, q]` (`problem.py:137`, `fe.py:112-141`): one row per local node. -/
noncomputable def shapeGrads (e q : Nat) : List (Fin dim → ℝ) :=
  List.ofFn (shapeGradsPhysical (v.coos e) (v.gref q))

/-- `fe.JxW[e, q]` (`problem.py:137`). -/
noncomputable def jxw (e q : Nat) : ℝ := cellJxW (v.coos e) (v.gref q) (v.quadWeights q)

/-- `fe.v_grads_JxW[e, q]` (`problem.py:139`), without the axis of length 1. -/
noncomputable def vGradsJxW (e q : Nat) : List (Fin dim → ℝ) :=
  (v.shapeGrads e q).map fun g j => g j * v.jxw e q

/-- `fe.get_physical_quad_points()[e, q]` (`fe.py:184-197`). -/
noncomputable def quadPoint (e q : Nat) : Fin dim → ℝ :=
  physicalPoint (fun a : Fin v.nn => v.shapeVals q a) (v.coos e)

/-- `get_face_shape_grads(...)[0]` for the face `(e, f)` at face point `q` (`fe.py:143-182`). -/
noncomputable def faceShapeGrads (p : Nat × Nat) (q : Nat) : List (Fin dim → ℝ) :=
  List.ofFn (shapeGradsPhysical (v.coos p.1) fun a => v.faceShapeGradsRef p.2 q a)

/-- `get_face_shape_grads(...)[1]`, the Nanson scale (`fe.py:179-182`). -/
noncomputable def nanson (p : Nat × Nat) (q : Nat) : ℝ :=
  nansonScale (v.coos p.1) (fun a => v.faceShapeGradsRef p.2 q a) (v.faceNormals p.2)
    (v.faceQuadWeights p.2 q)

/-- `fe.face_shape_vals[f, q]` as a row over the local nodes (`problem.py:165`). -/
noncomputable def faceVals (p : Nat × Nat) (q : Nat) : List ℝ :=
  (List.range v.nn).map fun a => v.faceShapeVals p.2 q a

/-- `get_physical_surface_quad_points(...)` (`fe.py:199-218`). -/
noncomputable def faceQuadPoint (p : Nat × Nat) (q : Nat) : Fin dim → ℝ :=
  physicalPoint (fun a : Fin v.nn => v.faceShapeVals p.2 q a) (v.coos p.1)

end CVar

/-- `self.num_nodes_cumsum` (`problem.py:121`). -/
def numNodesCumsum {dim : Nat} (vars : List (CVar dim)) : List Nat :=
  (vars.map CVar.nn).scanl (· + ·) 0

/-- What a cell kernel receives for one cell besides the solution and the internal variables
(`problem.py:367`): extent of the quadrature axis, `physical_quad_points[e]`, `shape_grads[e]`,
`JxW[e]` (variables × points) and `v_grads_JxW[e]`. -/
structure PackedCell (dim : Nat) where
  numQuads : Nat
  quadPoints : Nat → Fin dim → ℝ
  shapeGrads : Nat → List (Fin dim → ℝ)
  JxW : List (Nat → ℝ)
  vGradsJxW : Nat → List (Fin dim → ℝ)

/-- What a face kernel receives for one selected face (`problem.py:408-409`). -/
structure PackedFace (dim : Nat) where
  numQuads : Nat
  quadPoints : Nat → Fin dim → ℝ
  shapeVals : Nat → List ℝ
  shapeGrads : Nat → List (Fin dim → ℝ)
  nanson : List (Nat → ℝ)

/-- All arrays of `initialize_geometric_quantities`. -/
structure Packed (dim : Nat) where
  cells : List (PackedCell dim)
  faces : List (List (PackedFace dim))

/-- `initialize_geometric_quantities` (`problem.py:130-185`) for the boundary subsets `bs`.
`stack` and `concatenate` raise `ValueError` unless all variables have the same numbers of cells and
of quadrature points (`problem.py:143-147`) and, if there is a boundary subset, of face quadrature
points (`problem.py:171-175`); `fes[0]` raises `IndexError` if there is no variable
(`problem.py:79`). -/
noncomputable def pack {dim : Nat} (vars : List (CVar dim)) (bs : List BoundaryInds) :
    Except Err (Packed dim) :=
  match vars with
  | [] => .error .index
  | v0 :: _ =>
    if vars.all (fun v => v.cells.length == v0.cells.length && v.nq == v0.nq) then
      if bs.isEmpty || vars.all (fun v => v.nfq == v0.nfq) then
        .ok
          { cells := (List.range v0.cells.length).map fun e =>
              { numQuads := v0.nq
                quadPoints := v0.quadPoint e
                shapeGrads := fun q => vars.flatMap fun v => v.shapeGrads e q
                JxW := vars.map fun v => v.jxw e
                vGradsJxW := fun q => vars.flatMap fun v => v.vGradsJxW e q }
            faces := bs.map fun b => b.map fun p =>
              { numQuads := v0.nfq
                quadPoints := v0.faceQuadPoint p
                shapeVals := fun q => vars.flatMap fun v => v.faceVals p q
                shapeGrads := fun q => vars.flatMap fun v => v.faceShapeGrads p q
                nanson := vars.map fun v => v.nanson p } }
      else .error .value
    else .error .value

/-- `[arr[:, cumsum[i]:cumsum[i+1]] for i in range(num_vars)][i]` at one quadrature point
(`stokes/example.py:36-41` and the other universal kernels). -/
def sliceVar {α : Type} (cum : List Nat) (i : Nat) (row : List α) : List α :=
  slice row (cum.getD i 0) (cum.getD (i + 1) 0)

/-- A problem whose cell kernel is `get_universal_kernel` and that has no surface terms
(`problem.py:287-292`, `439-445`): pack the geometry, then assemble.  `kernel` receives the cell's
slice of the internal variables. -/
noncomputable def coupledResidual {dim : Nat} {IV : Type} (vars : List (CVar dim))
    (kernel : List ℝ → PackedCell dim → IV → List ℝ) (ivs : List IV)
    (sols : List (List (List ℝ))) : Except Err (List (List (List ℝ))) := do
  let pk ← pack vars []
  computeResidual (F := Unit) (vars.map CVar.fe) [] (fun x (d : PackedCell dim × IV) => kernel x d.1 d.2)
    (pk.cells.zip ivs) [] [] sols

/-! ### Operations shared by the universal kernels -/

/-- Entry `(a, c)` of a 2-D array. -/
def at2 (m : List (List ℝ)) (a c : Nat) : ℝ := (m.getD a []).getD c 0

/-- `np.sum(cell_sol[None, :, :, None] * cell_shape_grads[:, :, None, :], axis=1)[q, c, j]`. -/
def gradOp {dim : Nat} (nn : Nat) (sol : List (List ℝ)) (g : Nat → List (Fin dim → ℝ)) (q c : Nat)
    (j : Fin dim) : ℝ :=
  ∑ a ∈ Finset.range nn, at2 sol a c * (g q).getD a 0 j

/-- `np.sum(cell_sol[None, :, :] * shape_vals[:, :, None], axis=1)[q, c]`. -/
def valOp (nn : Nat) (sol : List (List ℝ)) (N : Nat → Nat → ℝ) (q c : Nat) : ℝ :=
  ∑ a ∈ Finset.range nn, at2 sol a c * N q a

/-- `np.sum(flux[:, None, :, :] * cell_v_grads_JxW, axis=(0, -1))[a, c]`. -/
def fluxOp {dim : Nat} (nq : Nat) (flux : Nat → Nat → Fin dim → ℝ) (vg : Nat → List (Fin dim → ℝ))
    (a c : Nat) : ℝ :=
  ∑ q ∈ Finset.range nq, ∑ j, flux q c j * (vg q).getD a 0 j

/-- `np.sum(src[:, None, :] * shape_vals[:, :, None] * JxW[:, None, None], axis=0)[a, c]`. -/
def srcOp (nq : Nat) (src : Nat → Nat → ℝ) (N : Nat → Nat → ℝ) (JxW : Nat → ℝ) (a c : Nat) : ℝ :=
  ∑ q ∈ Finset.range nq, src q c * N q a * JxW q

/-- An array of shape `(n, v)` given by its entries. -/
def mk2 (n v : Nat) (f : Nat → Nat → ℝ) : List (List ℝ) :=
  (List.range n).map fun a => (List.range v).map fun c => f a c

/-! ### Stokes flow -/

/-- `StokesFlow.get_universal_kernel` (`applications/stokes/example.py:24-68`), two dimensions,
velocity with two components and scalar pressure. -/
noncomputable def stokesKernel (vu vp : CVar 2) (x : List ℝ) (d : PackedCell 2) (_iv : Unit) : List ℝ :=
  let sol := unravelSol (cellShapes [vu.fe, vp.fe]) x
  let solU := sol.getD 0 []
  let solP := sol.getD 1 []
  let cum := numNodesCumsum [vu, vp]
  let gU := fun q => sliceVar cum 0 (d.shapeGrads q)
  let vgU := fun q => sliceVar cum 0 (d.vGradsJxW q)
  let jP := d.JxW.getD 1 0
  let uGrads := gradOp vu.nn solU gU
  let val1 := fluxOp d.numQuads uGrads vgU
  let p := fun q => valOp vp.nn solP vp.shapeVals q 0
  let divV := fun (q a : Nat) (c : Fin 2) => (vgU q).getD a 0 c
  let val2 := fun (a c : Nat) => ∑ q ∈ Finset.range d.numQuads,
    p q * (if h : c < 2 then divV q a ⟨c, h⟩ else 0)
  let divU := fun q => uGrads q 0 0 + uGrads q 1 1
  let val3 := srcOp d.numQuads (fun q _ => divU q) vp.shapeVals jP
  ravelSol [mk2 vu.nn vu.vec fun a c => val1 a c + val2 a c, mk2 vp.nn vp.vec val3]

/-! ### Scalar wave equation -/

/-- `wave.get_universal_kernel` (`applications/wave/example.py:30-72`); `iv` is the pair
`(cell_sol_2dt, cell_sol_dt)` of values at the quadrature points (`wave/example.py:25-28`). -/
noncomputable def waveKernel (c dt : ℝ) (v : CVar 2) (x : List ℝ) (d : PackedCell 2)
    (iv : (Nat → Nat → ℝ) × (Nat → Nat → ℝ)) : List ℝ :=
  let sol := (unravelSol (cellShapes [v.fe]) x).getD 0 []
  let cum := numNodesCumsum [v]
  let g := fun q => sliceVar cum 0 (d.shapeGrads q)
  let vg := fun q => sliceVar cum 0 (d.vGradsJxW q)
  let jxw := d.JxW.getD 0 0
  let uGrad := gradOp v.nn sol g
  let val1 := fluxOp d.numQuads (fun q k j => c ^ 2 * dt ^ 2 * uGrad q k j) vg
  let val2 := srcOp d.numQuads (valOp v.nn sol v.shapeVals) v.shapeVals jxw
  let val3 := srcOp d.numQuads (fun q k => 2 * iv.2 q k - iv.1 q k) v.shapeVals jxw
  ravelSol [mk2 v.nn v.vec fun a k => val1 a k + val2 a k - val3 a k]

/-- `convert_from_dof_to_quad(sol)[e]` (`fe.py:324-341`) in the representation used here. -/
noncomputable def dofToQuad {dim : Nat} (v : CVar dim) (sol : List (List ℝ)) (e : Nat) : Nat → Nat → ℝ :=
  valOp v.nn ((v.cells.getD e []).map fun n => sol.getD n []) v.shapeVals

/-- `sol_to_grad(sol)[e]` (`fe.py:366-382`). -/
noncomputable def dofToGrad {dim : Nat} (v : CVar dim) (sol : List (List ℝ)) (e : Nat) :
    Nat → Nat → Fin dim → ℝ :=
  gradOp v.nn ((v.cells.getD e []).map fun n => sol.getD n []) (v.shapeGrads e)

/-- `wave.set_params` followed by `compute_residual` (`wave/example.py:25-28,174-176`). -/
noncomputable def waveResidual (c dt : ℝ) (v : CVar 2) (sol2dt soldt sol : List (List ℝ)) :
    Except Err (List (List (List ℝ))) :=
  coupledResidual [v] (waveKernel c dt v)
    ((List.range v.cells.length).map fun e => (dofToQuad v sol2dt e, dofToQuad v soldt e)) [sol]

/-! ### Fully coupled thermoelasticity -/

/-- Material parameters (`applications/thermal_mechanical_full/example.py:157-170`). -/
structure ThermoParams where
  lmbda : ℝ
  mu : ℝ
  kappa : ℝ
  T0 : ℝ
  C : ℝ
  k : ℝ

/-- `strain` (`thermal_mechanical_full/example.py:39-40`). -/
noncomputable def strain2 (G : Nat → Fin 2 → ℝ) : Fin 2 → Fin 2 → ℝ :=
  fun i j => 0.5 * (G i j + G j i)

/-- `stress` (`thermal_mechanical_full/example.py:42-47`). -/
noncomputable def thermoStress (m : ThermoParams) (G : Nat → Fin 2 → ℝ) (T : ℝ) : Fin 2 → Fin 2 → ℝ :=
  let eps := strain2 G
  fun i j => m.lmbda * (eps 0 0 + eps 1 1) * (if i = j then 1 else 0) + 2 * m.mu * eps i j
    - m.kappa * T * (if i = j then 1 else 0)

/-- `thermal_mechanical_full.get_universal_kernel` (`thermal_mechanical_full/example.py:37-99`); `iv` is
`(u_grads_old, T_old, dt)` (`thermal_mechanical_full/example.py:31-35`). -/
noncomputable def thermoKernel (m : ThermoParams) (vu vT : CVar 2) (x : List ℝ) (d : PackedCell 2)
    (iv : (Nat → Nat → Fin 2 → ℝ) × (Nat → Nat → ℝ) × ℝ) : List ℝ :=
  let sol := unravelSol (cellShapes [vu.fe, vT.fe]) x
  let solU := sol.getD 0 []
  let solT := sol.getD 1 []
  let cum := numNodesCumsum [vu, vT]
  let gU := fun q => sliceVar cum 0 (d.shapeGrads q)
  let gT := fun q => sliceVar cum 1 (d.shapeGrads q)
  let vgU := fun q => sliceVar cum 0 (d.vGradsJxW q)
  let vgT := fun q => sliceVar cum 1 (d.vGradsJxW q)
  let jT := d.JxW.getD 1 0
  let dt := iv.2.2
  let T := valOp vT.nn solT vT.shapeVals
  let val1 := fun (a c : Nat) => m.C / dt * srcOp d.numQuads (fun q c => T q c - iv.2.1 q c) vT.shapeVals jT a c
  let uGrads := gradOp vu.nn solU gU
  let dtr := fun q => (strain2 (uGrads q) 0 0 - strain2 (iv.1 q) 0 0) / dt
    + (strain2 (uGrads q) 1 1 - strain2 (iv.1 q) 1 1) / dt
  let val2 := fun (a c : Nat) => m.kappa * m.T0 * srcOp d.numQuads (fun q _ => dtr q) vT.shapeVals jT a c
  let TGrads := gradOp vT.nn solT gT
  let val3 := fluxOp d.numQuads (fun q c j => m.k * TGrads q c j) vgT
  let uPhysics := fun (q c : Nat) (j : Fin 2) =>
    if h : c < 2 then thermoStress m (uGrads q) (T q 0) ⟨c, h⟩ j else 0
  let val4 := fluxOp d.numQuads uPhysics vgU
  ravelSol [mk2 vu.nn vu.vec val4, mk2 vT.nn vT.vec fun a c => val1 a c + val2 a c + val3 a c]

/-- `set_params` followed by `compute_residual` (`thermal_mechanical_full/example.py:31-35,203-205`). -/
noncomputable def thermoResidual (m : ThermoParams) (vu vT : CVar 2) (uOld TOld : List (List ℝ)) (dt : ℝ)
    (sols : List (List (List ℝ))) : Except Err (List (List (List ℝ))) :=
  coupledResidual [vu, vT] (thermoKernel m vu vT)
    ((List.range vu.cells.length).map fun e => (dofToGrad vu uOld e, dofToQuad vT TOld e, dt)) sols

end JaxFem
