import Mathlib.Data.Real.Basic
import Mathlib.Algebra.BigOperators.Fin

/-!
# Linear elasticity

The stress function that is repeated in `tests/benchmarks/linear_elasticity_cube/test_linear_elasticity_cube.py`,
`tests/benchmarks/linear_elasticity_cylinder/test_linear_elasticity_cylinder.py`,
`applications/serendipity/example.py` and `applications/stokes/example_1var.py`; there with `E = 70e3`,
`nu = 0.3`.
-/

namespace JaxFem

namespace Elastic

open scoped BigOperators

/-- `mu = E/(2.*(1. + nu))` (`test_linear_elasticity_cube.py:20`). -/
noncomputable def mu (E nu : ℝ) : ℝ := E / (2 * (1 + nu))

/-- `lmbda = E*nu/((1+nu)*(1-2*nu))` (`test_linear_elasticity_cube.py:21`). -/
noncomputable def lmbda (E nu : ℝ) : ℝ := E * nu / ((1 + nu) * (1 - 2 * nu))

/-- `stress` (`test_linear_elasticity_cube.py:17-24`): `epsilon = 0.5*(u_grad + u_grad.T)`,
`sigma = lmbda*np.trace(epsilon)*np.eye(self.dim) + 2*mu*epsilon`. -/
noncomputable def stress {dim : Nat} (E nu : ℝ) (uGrad : Fin dim → Fin dim → ℝ) : Fin dim → Fin dim → ℝ :=
  let epsilon := fun i j => 0.5 * (uGrad i j + uGrad j i)
  fun i j => lmbda E nu * (∑ k, epsilon k k) * (if i = j then 1 else 0) + 2 * mu E nu * epsilon i j

end Elastic

end JaxFem
