import Mathlib.Analysis.SpecialFunctions.Complex.Arg
import Mathlib.Analysis.SpecialFunctions.Trigonometric.Arctan
import Mathlib.Analysis.Calculus.FDeriv.Basic
import Mathlib.Analysis.Calculus.Deriv.Basic
import Verif.Model.Coupled

/-!
# Dendrite growth: semi-implicit and explicit finite elements

`applications/dendrite/implicit_fem/example.py` and `applications/dendrite/explicit_fem/example.py`, two
scalar variables: phase `p` and temperature `T`. Writing of files is left out. The noise `chi` is an
argument (the script draws it with the same key in every step).
-/

namespace JaxFem

namespace Dendrite

/-- Parameters (`input/json/params.json`, read in the kernels). -/
structure Params where
  epsBar : ℝ
  delta : ℝ
  J : ℝ
  alpha : ℝ
  gamma : ℝ
  Teq : ℝ
  a : ℝ
  K : ℝ
  tau : ℝ
  dt : ℝ

/-- `safe_arctan2` (`implicit_fem/example.py:32-46`); `arctan2(y, x)` is the argument of `x + i y`. -/
noncomputable def safeArctan2 (y x : ℝ) : ℝ := if y = 0 ∧ x = 0 then 0 else Complex.arg ⟨x, y⟩

/-- `eps_fn` (`implicit_fem/example.py:56-61`). -/
noncomputable def epsFn (m : Params) (θ : ℝ) : ℝ :=
  m.epsBar * (1 + m.delta * Real.cos (m.J * (θ - Real.pi / 2)))

/-- `tmp1[q, 0, :]` (`implicit_fem/example.py:107-112`, `explicit_fem/example.py:138-143`): the direction of
the interface is taken from `go`, the gradient from `g`. `eps_grad = jax.grad(eps_fn)`. -/
noncomputable def flux (m : Params) (go g : Fin 2 → ℝ) : Fin 2 → ℝ :=
  let θ := safeArctan2 (go 1) (go 0)
  let eps := epsFn m θ
  let epsP := deriv (epsFn m) θ
  fun j => eps * epsP * (if j = 0 then - g 1 else g 0) + eps ^ 2 * g j

/-- `tmp2` (`implicit_fem/example.py:122-126`, `explicit_fem/example.py:153-157`). -/
noncomputable def reaction (m : Params) (p T : ℝ) : ℝ :=
  -p * (1 - p) * (p - 0.5 + m.alpha / Real.pi * Real.arctan (m.gamma * (m.Teq - T)))

/-- `tmp4` (`implicit_fem/example.py:139-140`, `explicit_fem/example.py:162-163`). -/
def noiseTerm (m : Params) (p chi : ℝ) : ℝ := - m.a * p * (1 - p) * chi

/-- Internal variables of one cell: `cell_sol_p_old`, `p_old`, `T_old`, `chi`
(`implicit_fem/example.py:166-173`; `cell_sol_T_old` is not used by the kernel). -/
structure Old where
  pCell : List (List ℝ)
  p : Nat → ℝ
  T : Nat → ℝ
  chi : Nat → ℝ

/-- `Solidification.get_universal_kernel` (`implicit_fem/example.py:68-163`). -/
noncomputable def implicitKernel (m : Params) (vp vT : CVar 2) (x : List ℝ) (d : PackedCell 2) (iv : Old) :
    List ℝ :=
  let sol := unravelSol (cellShapes [vp.fe, vT.fe]) x
  let solP := sol.getD 0 []
  let solT := sol.getD 1 []
  let cum := numNodesCumsum [vp, vT]
  let gP := fun q => sliceVar cum 0 (d.shapeGrads q)
  let gT := fun q => sliceVar cum 1 (d.shapeGrads q)
  let vgP := fun q => sliceVar cum 0 (d.vGradsJxW q)
  let vgT := fun q => sliceVar cum 1 (d.vGradsJxW q)
  let jP := d.JxW.getD 0 0
  let jT := d.JxW.getD 1 0
  let pGrads := gradOp vp.nn solP gP
  let pGradsOld := gradOp vp.nn iv.pCell gP
  let val1 := fluxOp d.numQuads (fun q _ => flux m (pGradsOld q 0) (pGrads q 0)) vgP
  let p := fun q => valOp vp.nn solP vp.shapeVals q 0
  let T := fun q => valOp vT.nn solT vT.shapeVals q 0
  let val2 := srcOp d.numQuads (fun q _ => reaction m (iv.p q) (iv.T q)) vp.shapeVals jP
  let val3 := srcOp d.numQuads (fun q _ => m.tau * (p q - iv.p q) / m.dt) vp.shapeVals jP
  let val4 := srcOp d.numQuads (fun q _ => noiseTerm m (iv.p q) (iv.chi q)) vp.shapeVals jP
  let val5 := fluxOp d.numQuads (gradOp vT.nn solT gT) vgT
  let val6 := srcOp d.numQuads (fun q _ => (T q - iv.T q) / m.dt) vT.shapeVals jT
  let val7 := srcOp d.numQuads (fun q _ => - m.K * (p q - iv.p q) / m.dt) vT.shapeVals jT
  ravelSol [mk2 vp.nn vp.vec fun a c => val1 a c + val2 a c + val3 a c + val4 a c,
    mk2 vT.nn vT.vec fun a c => val5 a c + val6 a c + val7 a c]

/-- `set_params([sol_p_old, sol_T_old, noise])` and `compute_residual` (`implicit_fem/example.py:165-173`). -/
noncomputable def implicitResidual (m : Params) (vp vT : CVar 2) (pOld TOld : List (List ℝ))
    (noise : List ℝ) (sols : List (List (List ℝ))) : Except Err (List (List (List ℝ))) :=
  coupledResidual [vp, vT] (implicitKernel m vp vT)
    ((List.range vp.cells.length).map fun e =>
      { pCell := gatherVar pOld (vp.cells.getD e [])
        p := fun q => dofToQuad vp pOld e q 0
        T := fun q => dofToQuad vT TOld e q 0
        chi := fun _ => noise.getD e 0 }) sols

/-- `SolidificationMass.get_universal_kernel` (`explicit_fem/example.py:46-88`). -/
noncomputable def massKernel (m : Params) (vp vT : CVar 2) (x : List ℝ) (d : PackedCell 2) : List ℝ :=
  let sol := unravelSol (cellShapes [vp.fe, vT.fe]) x
  let p := fun q => valOp vp.nn (sol.getD 0 []) vp.shapeVals q 0
  let T := fun q => valOp vT.nn (sol.getD 1 []) vT.shapeVals q 0
  let val3 := srcOp d.numQuads (fun q _ => m.tau * p q / m.dt) vp.shapeVals (d.JxW.getD 0 0)
  let val6 := srcOp d.numQuads (fun q _ => T q / m.dt) vT.shapeVals (d.JxW.getD 1 0)
  ravelSol [mk2 vp.nn vp.vec val3, mk2 vT.nn vT.vec val6]

/-- `SolidificationForce.get_universal_kernel` (`explicit_fem/example.py:101-190`). -/
noncomputable def forceKernel (m : Params) (vp vT : CVar 2) (x : List ℝ) (d : PackedCell 2)
    (chi : Nat → ℝ) : List ℝ :=
  let sol := unravelSol (cellShapes [vp.fe, vT.fe]) x
  let solP := sol.getD 0 []
  let solT := sol.getD 1 []
  let cum := numNodesCumsum [vp, vT]
  let gP := fun q => sliceVar cum 0 (d.shapeGrads q)
  let gT := fun q => sliceVar cum 1 (d.shapeGrads q)
  let vgP := fun q => sliceVar cum 0 (d.vGradsJxW q)
  let vgT := fun q => sliceVar cum 1 (d.vGradsJxW q)
  let jP := d.JxW.getD 0 0
  let jT := d.JxW.getD 1 0
  let pGrads := gradOp vp.nn solP gP
  let tmp1 := fun q (_ : Nat) => flux m (pGrads q 0) (pGrads q 0)
  let val1 := fluxOp d.numQuads tmp1 vgP
  let p := fun q => valOp vp.nn solP vp.shapeVals q 0
  let T := fun q => valOp vT.nn solT vT.shapeVals q 0
  let tmp2 := fun q (_ : Nat) => reaction m (p q) (T q)
  let val2 := srcOp d.numQuads tmp2 vp.shapeVals jP
  let val4 := srcOp d.numQuads (fun q _ => noiseTerm m (p q) (chi q)) vp.shapeVals jP
  let val5 := fluxOp d.numQuads (gradOp vT.nn solT gT) vgT
  let val71 := fluxOp d.numQuads tmp1 vgT
  let val72 := srcOp d.numQuads tmp2 vT.shapeVals jT
  let val7 := fun a c => m.K / m.tau * (val71 a c + val72 a c)
  ravelSol [mk2 vp.nn vp.vec fun a c => val1 a c + val2 a c + val4 a c,
    mk2 vT.nn vT.vec fun a c => val5 a c + val7 a c]

/-- `jax.jacfwd(f)(x)` for a vector function of a vector, as a list of rows. -/
noncomputable def jacfwd (f : List ℝ → List ℝ) (x : List ℝ) : List (List ℝ) :=
  (List.range (f x).length).map fun p => List.ofFn fun q : Fin x.length =>
    fderiv ℝ (fun s : Fin x.length → ℝ => (f (List.ofFn s)).getD p 0) (fun i => x.getD i 0) (Pi.single q 1)

/-- `problem_mass.newton_update(zeros)` and the row sums of the matrix (`explicit_fem/example.py:201-208`);
`value_and_jacfwd` is `problem.py:262-266`. -/
noncomputable def getMass (m : Params) (vp vT : CVar 2) : Except Err (List ℝ) := do
  let fes := [vp, vT].map CVar.fe
  let pk ← pack [vp, vT] []
  let RV ← computeNewton (F := Unit) fes []
    (fun x (d : PackedCell 2 × Unit) =>
      (massKernel m vp vT x d.1, jacfwd (fun y => massKernel m vp vT y d.1) x))
    (pk.cells.zip (List.replicate vp.cells.length ())) [] [] (unravelSol (solShapes fes) (List.replicate (numDofs fes) 0))
  .ok ((List.range (numDofs fes)).map fun r =>
    ((List.range (numDofs fes)).map fun c => cooEntry (cooI fes []) (cooJ fes []) RV.2 r c).sum)

/-- `jax.tree.map` of a binary function on two lists of 2-D arrays of the same shapes. -/
def treeMap2 (f : ℝ → ℝ → ℝ) : List (List (List ℝ)) → List (List (List ℝ)) → List (List (List ℝ)) :=
  List.zipWith (List.zipWith (List.zipWith f))

/-- `force_func` and `explicit_euler` (`explicit_fem/example.py:215-228`). -/
noncomputable def explicitEuler (m : Params) (vp vT : CVar 2) (noise : List ℝ)
    (sols : List (List (List ℝ))) : Except Err (List (List (List ℝ))) := do
  let fes := [vp, vT].map CVar.fe
  let M ← getMass m vp vT
  let mInv := unravelSol (solShapes fes) (M.map fun x => 1 / x)
  let res ← coupledResidual [vp, vT] (forceKernel m vp vT)
    ((List.range vp.cells.length).map fun e => fun _ => noise.getD e 0) sols
  let rhs := treeMap2 (fun x y => - x * y) mInv res
  .ok (treeMap2 (fun x y => x + y) sols rhs)

end Dendrite

end JaxFem
