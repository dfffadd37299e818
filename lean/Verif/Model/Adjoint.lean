import Verif.Model.BC
import Mathlib.Analysis.Calculus.FDeriv.Basic
import Mathlib.Topology.Algebra.Module.FiniteDimension

/-!
# Implicit differentiation

`solver.py:1362-1418` (`implicit_vjp`). Parameters are a vector of a real normed space `E` (a pytree of
float arrays); exact real arithmetic; `jax.vjp` is the adjoint of the Fréchet derivative.
-/

namespace JaxFem

variable {E : Type} [NormedAddCommGroup E] [NormedSpace ℝ E] {N : Nat}

/-- `x ↦ ⟨w, x⟩` as a continuous linear map. -/
noncomputable def dotCLM {n : Nat} (w : Fin n → ℝ) : (Fin n → ℝ) →L[ℝ] ℝ :=
  LinearMap.toContinuousLinearMap
    { toFun := fun x => dotProduct w x
      map_add' := fun x y => dotProduct_add w x y
      map_smul' := fun c x => dotProduct_smul c w x }

/-- `jax.vjp(f, p)[1](w)`: the cotangent `w` pulled back by the derivative of `f` at `p`. -/
noncomputable def jaxVjp {n : Nat} (f : E → Fin n → ℝ) (p : E) (w : Fin n → ℝ) : E →L[ℝ] ℝ :=
  (dotCLM w).comp (fderiv ℝ f p)

/-- `constraint_fn(dofs, params)` (`solver.py:1364-1371`): residual with the boundary conditions, both
after `set_params(params)`; the Dirichlet values may depend on the parameters. -/
def constraintFn (fes : List FE) (bcs : E → List (List (BCEntry ℝ)))
    (res : E → (Fin N → ℝ) → Fin N → ℝ) (u : Fin N → ℝ) (p : E) : Fin N → ℝ :=
  applyBcV fes (bcs p) 1 (res p u) u

/-- `implicit_vjp` (`solver.py:1362-1418`). `tan p u` is the assembled tangent after
`set_params(p); newton_update(u)`, `P` is `problem.P_mat` if the attribute exists, `solve` is
`linear_solver` with the adjoint options and `x0 = None`. -/
noncomputable def implicitVjp (fes : List FE) (bcs : E → List (List (BCEntry ℝ)))
    (res : E → (Fin N → ℝ) → Fin N → ℝ) (tan : E → (Fin N → ℝ) → Matrix (Fin N) (Fin N) ℝ)
    (P : Option (Σ M : Nat, Matrix (Fin N) (Fin M) ℝ))
    (solve : (n : Nat) → Matrix (Fin n) (Fin n) ℝ → (Fin n → ℝ) → Except Err (Fin n → ℝ))
    (sol : Fin N → ℝ) (params : E) (v : Fin N → ℝ) : Except Err (E →L[ℝ] ℝ) :=
  let A := elimRows fes (bcs params) (tan params sol)
  match P with
  | none => do
    let adjoint ← solve N A.transpose v
    pure (-jaxVjp (fun p => constraintFn fes bcs res sol p) params adjoint)
  | some ⟨M, P⟩ => do
    let A := P.transpose * (A * P)
    let adjoint ← solve M A.transpose (P.transpose.mulVec v)
    pure (-jaxVjp (fun p => constraintFn fes bcs res sol p) params (P.mulVec adjoint))

end JaxFem
