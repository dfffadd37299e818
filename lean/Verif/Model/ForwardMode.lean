import Verif.Model.Adjoint
import Verif.Model.Flt
import Mathlib.Analysis.SpecialFunctions.Trigonometric.Deriv
import Mathlib.LinearAlgebra.Matrix.NonsingularInverse

/-!
# Derivative rules of `jax_fem/experimental`

* `autodiff_utils.py`: forward solve with a custom JVP. The module imports `get_jacobi_precond` and
  `jacobi_preconditioner`, which `solver.py` no longer defines, and calls `solver` and `jax_solve` with
  former argument lists; it is modelled with the meaning these calls had (`solve matvec b` is the iterative
  solver applied to an operator, `primal` the forward solver after `set_params`). `jax.linearize` and
  `jax.jvp` are the Fréchet derivative.
* `custom_jvp.py`, `adjoint_save_to_local.py`, `jit_global.py`, `safe_grad.py`.

`sol.reshape` and `v.reshape` do not change the flat vector.
-/

namespace JaxFem
namespace ForwardMode

section Fem
variable {E : Type} [NormedAddCommGroup E] [NormedSpace ℝ E] {N : Nat}

/-- `backward_matvec`: `jvp_fn` of `jax.linearize(partial_fn_of_u, sol0)` (`autodiff_utils.py:117-122`). -/
noncomputable def matvec (fes : List FE) (bcs : E → List (List (BCEntry ℝ)))
    (res : E → (Fin N → ℝ) → Fin N → ℝ) (sol : Fin N → ℝ) (params : E) (x : Fin N → ℝ) : Fin N → ℝ :=
  fderiv ℝ (fun u => constraintFn fes bcs res u params) sol x

/-- `implicit_jvp_helper` (`autodiff_utils.py:78-140`); `residual` (`:103-111`) is `constraintFn`. -/
noncomputable def implicitJvp (fes : List FE) (bcs : E → List (List (BCEntry ℝ)))
    (res : E → (Fin N → ℝ) → Fin N → ℝ)
    (solve : ((Fin N → ℝ) → Fin N → ℝ) → (Fin N → ℝ) → Except Err (Fin N → ℝ))
    (sol : Fin N → ℝ) (params paramsDot : E) : Except Err (Fin N → ℝ) :=
  let rhs := fderiv ℝ (fun p => constraintFn fes bcs res sol p) params paramsDot
  solve (matvec fes bcs res sol params) ((-1 : ℝ) • rhs)

/-- The transposed operator which `custom_linear_solve` hands to `transpose_solve`. -/
def transposed (f : (Fin N → ℝ) → Fin N → ℝ) (w : Fin N → ℝ) : Fin N → ℝ :=
  fun i => dotProduct w (f (Pi.single i 1))

/-- Reverse mode through `implicit_jvp_helper`: JAX transposes the tangent map; `custom_linear_solve`
(`autodiff_utils.py:137-139`) is transposed by `transpose_solve`, the right hand side by `jax.vjp`. -/
noncomputable def implicitJvpT (fes : List FE) (bcs : E → List (List (BCEntry ℝ)))
    (res : E → (Fin N → ℝ) → Fin N → ℝ)
    (solve : ((Fin N → ℝ) → Fin N → ℝ) → (Fin N → ℝ) → Except Err (Fin N → ℝ))
    (sol : Fin N → ℝ) (params : E) (v : Fin N → ℝ) : Except Err (E →L[ℝ] ℝ) := do
  let l ← solve (transposed (matvec fes bcs res sol params)) v
  pure (jaxVjp (fun p => constraintFn fes bcs res sol p) params ((-1 : ℝ) • l))

/-- `forward_solve_jvp` (`autodiff_utils.py:66-73`); `primal` is `forward_solve` (`:59-64`). -/
noncomputable def forwardSolveJvp (fes : List FE) (bcs : E → List (List (BCEntry ℝ)))
    (res : E → (Fin N → ℝ) → Fin N → ℝ)
    (solve : ((Fin N → ℝ) → Fin N → ℝ) → (Fin N → ℝ) → Except Err (Fin N → ℝ))
    (primal : E → Except Err (Fin N → ℝ)) (params paramsDot : E) :
    Except Err ((Fin N → ℝ) × (Fin N → ℝ)) := do
  let sol ← primal params
  let solDot ← implicitJvp fes bcs res solve sol params paramsDot
  pure (sol, solDot)

end Fem

/-- `jax_array_list_to_numpy_diff` (`autodiff_utils.py:143-174`) for arrays with two axes, as lists of rows:
`onp.vstack` in a callback whose result has to have the declared shape, `len(list)` times the rows of the
first array. (`w` is the common number of columns, otherwise `vstack` raises.) -/
def stackArrays {K : Type} (w : Nat) (l : List (List (List K))) : Except Err (List (List K)) :=
  match l with
  | [] => .error .index
  | a :: _ =>
    if l.flatten.all fun row => row.length == w then
      if l.flatten.length = a.length * l.length then .ok l.flatten else .error .runtime
    else .error .value

/-- `jax_array_list_to_numpy_diff_jvp` (`autodiff_utils.py:177-185`). -/
def stackArraysJvp {K : Type} (w : Nat) (l lDot : List (List (List K))) :
    Except Err (List (List K) × List (List K)) := do
  let a ← stackArrays w l
  let b ← stackArrays w lDot
  pure (a, b)

/-! ### `custom_jvp.py` -/

/-- `implicit_residual` (`custom_jvp.py:6-9`). -/
def implicitResidual (x y : Fin 3 → ℝ) : Fin 3 → ℝ := (Matrix.diagonal ![1, 2, 3]).mulVec y - x

/-- `np.linalg.norm` of a vector. -/
noncomputable def norm2 {n : Nat} (x : Fin n → ℝ) : ℝ := Real.sqrt (∑ i, x i ^ 2)

/-- `jax.jacfwd(f)(y)`: the columns are the derivatives in the coordinate directions. -/
noncomputable def jacfwd {n m : Nat} (f : (Fin n → ℝ) → Fin m → ℝ) (y : Fin n → ℝ) :
    Matrix (Fin m) (Fin n) ℝ := fun i j => fderiv ℝ f y (Pi.single j 1) i

/-- `np.linalg.solve`. -/
noncomputable def linalgSolve {n : Nat} (A : Matrix (Fin n) (Fin n) ℝ) (b : Fin n → ℝ) : Fin n → ℝ :=
  A⁻¹.mulVec b

/-- `body_fun` (`custom_jvp.py:22-29`). -/
noncomputable def newtonBody (x : Fin 3 → ℝ) (s : Nat × (Fin 3 → ℝ) × (Fin 3 → ℝ)) :
    Nat × (Fin 3 → ℝ) × (Fin 3 → ℝ) :=
  let jac := jacfwd (fun y => implicitResidual x y) s.2.2
  let yInc := linalgSolve jac (-s.2.1)
  (s.1 + 1, implicitResidual x (s.2.2 + yInc), s.2.2 + yInc)

open Classical in
/-- `jax.lax.while_loop(cond_fun, body_fun, state)` (`custom_jvp.py:18-20, 31`) with `tol = 1e-8`; `none` if
it is still running after `fuel` tests. -/
noncomputable def newtonWhile (x : Fin 3 → ℝ) :
    Nat → Nat × (Fin 3 → ℝ) × (Fin 3 → ℝ) → Option (Nat × (Fin 3 → ℝ) × (Fin 3 → ℝ))
  | 0, _ => none
  | fuel + 1, s => if norm2 s.2.1 > 1e-8 then newtonWhile x fuel (newtonBody x s) else some s

/-- `newton_solver` (`custom_jvp.py:11-32`): steps and result. -/
noncomputable def newtonSolver (x : Fin 3 → ℝ) (fuel : Nat) : Option (Nat × (Fin 3 → ℝ)) :=
  (newtonWhile x fuel (0, implicitResidual x 0, 0)).map fun s => (s.1, s.2.2)

/-- `f_jvp` (`custom_jvp.py:34-42`). -/
noncomputable def newtonJvp (x v : Fin 3 → ℝ) (fuel : Nat) : Option ((Fin 3 → ℝ) × (Fin 3 → ℝ)) :=
  (newtonSolver x fuel).map fun r =>
    let jacX := jacfwd (fun x => implicitResidual x r.2) x
    let jacY := jacfwd (fun y => implicitResidual x y) r.2
    (r.2, linalgSolve jacY (-(jacX.mulVec v)))

/-! ### `adjoint_save_to_local.py` -/

/-- What the module calls: forward passes and backward passes with the residuals they were given. -/
inductive FileOp where
  | fwd (x y : ℝ)
  | bwd (sinX y g : ℝ)

/-- `f_fwd` (`adjoint_save_to_local.py:21-23`): value and residuals; the file holds `cos x` afterwards. -/
noncomputable def fFwd (x y : ℝ) (_file : Option ℝ) : (ℝ × ℝ × ℝ) × Option ℝ :=
  ((Real.sin x * y, Real.sin x, y), some (Real.cos x))

/-- `f_bwd` (`adjoint_save_to_local.py:25-28`). -/
def fBwd (sinX y g : ℝ) (file : Option ℝ) : Except Err (ℝ × ℝ) :=
  match file with
  | none => .error .fileNotFound
  | some cosX => .ok (cosX * g * y, sinX * g)

/-- The file after a sequence of calls. -/
noncomputable def fileAfter (file : Option ℝ) : List FileOp → Option ℝ
  | [] => file
  | .fwd x y :: ops => fileAfter (fFwd x y file).2 ops
  | .bwd _ _ _ :: ops => fileAfter file ops

/-- `jax.grad` of `x ↦ f(f(x, y), z)`: both forward passes, then the backward passes in reverse order. -/
noncomputable def gradNested (x y z : ℝ) (file : Option ℝ) : Except Err ℝ :=
  let inner := fFwd x y file
  let outer := fFwd inner.1.1 z inner.2
  match fBwd outer.1.2.1 outer.1.2.2 1 outer.2 with
  | .error e => .error e
  | .ok (g, _) =>
    match fBwd inner.1.2.1 inner.1.2.2 g outer.2 with
    | .error e => .error e
    | .ok (gx, _) => .ok gx

/-! ### `jit_global.py` -/

/-- Object of class `A`: the attribute `E` and the compiled program of `f`, which has no arguments. -/
structure GlobalA where
  E : Option ℝ := none
  compiled : Option ℝ := none

/-- `f()` (`jit_global.py:9-11`): traced on the first call, `self.E` becomes a constant. -/
def GlobalA.f (a : GlobalA) : Except Err ℝ × GlobalA :=
  match a.compiled with
  | some c => (.ok c, a)
  | none =>
    match a.E with
    | none => (.error .key, a)
    | some e => (.ok e, { a with compiled := some e })

/-- `test_fn_a` (`jit_global.py:19-21`). -/
def testFnA (E : ℝ) (a : GlobalA) : Except Err ℝ × GlobalA := GlobalA.f { a with E := some E }

/-- `test_fn_b` (`jit_global.py:29-42`): `set_params` and `f` are inside the compiled function, whose
argument is `E`. -/
def testFnB (E : ℝ) : ℝ := E

/-! ### `safe_grad.py` -/

/-- Tangent of `np.sqrt` at `x` in direction `g`: `g * (0.5 / sqrt(x))`; its transpose is the same
multiplication. -/
noncomputable def sqrtTangent (x : ℝ) (g : Flt ℝ) : Flt ℝ :=
  g * (Flt.fin 0.5 / Flt.sqrt Real.sqrt (.fin x))

open Classical in
/-- `safe_sqrt` (`safe_grad.py:8-10`). -/
noncomputable def safeSqrt (x : ℝ) : Flt ℝ := if x > 0 then Flt.sqrt Real.sqrt (.fin x) else .fin 0

open Classical in
/-- `jax.jacfwd(safe_sqrt)(x)` (`safe_grad.py:16`): `np.where` selects the tangent. -/
noncomputable def safeSqrtFwd (x : ℝ) : Flt ℝ := if x > 0 then sqrtTangent x (.fin 1) else .fin 0

open Classical in
/-- `jax.jacrev(safe_sqrt)(x)` (`safe_grad.py:15`): `np.where` hands the cotangent or zero to the root. -/
noncomputable def safeSqrtRev (x : ℝ) : Flt ℝ := sqrtTangent x (if x > 0 then .fin 1 else .fin 0)

end ForwardMode
end JaxFem
