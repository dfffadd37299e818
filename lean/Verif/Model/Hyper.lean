import Verif.Model.Kernel
import Mathlib.Analysis.Calculus.FDeriv.Basic
import Mathlib.Analysis.SpecialFunctions.Pow.Real
import Mathlib.LinearAlgebra.Matrix.NonsingularInverse

/-!
# Neo-Hookean solids

The energy that is repeated in `tests/benchmarks/hyperelasticity/test_hyper_elasticity.py`,
`applications/nodal_stress/example.py`, `applications/scalability/hyperelastic3d_common.py`,
`applications/dynamic_relaxation/beam3d_displacement.py` (three dimensions), in
`applications/arc_length/hyperelastic_models.py`, `applications/dynamic_relaxation/beam2d_displacement.py` (two
dimensions, with 2 instead of 3) and in `applications/dynamic_relaxation/cellular_displacement.py` (plane strain).

Simplification: powers and divisions are those of the real numbers. For `det F < 0` the power `J**(-2./3.)` of the code is
NaN, and for `det F = 0` the energy is infinite; the theorems about these energies assume `0 < det F`. With exponent
`-2./2.` negative determinants are admitted by the code and by the model.
-/

namespace JaxFem.Hyper

open scoped BigOperators

variable {n : Nat} {IV : Type} {nq nfq nn : Nat}

/-- `mu = E/(2.*(1. + nu))` (`test_hyper_elasticity.py:20`). -/
noncomputable def muOf (E nu : ℝ) : ℝ := E / (2 * (1 + nu))

/-- `kappa = E/(3.*(1. - 2.*nu))` (`test_hyper_elasticity.py:21`; in the two-dimensional scripts too). -/
noncomputable def kappaOf (E nu : ℝ) : ℝ := E / (3 * (1 - 2 * nu))

/-- `psi` (`test_hyper_elasticity.py:17-26`, `d = 3`; `hyperelastic_models.py:36-44`, `d = 2`). -/
noncomputable def psi (d mu kappa : ℝ) (F : Fin n → Fin n → ℝ) : ℝ :=
  let J := (Matrix.of F).det
  let Jinv := J ^ (-2 / d)
  let I1 := ((Matrix.of F).transpose * Matrix.of F).trace
  mu / 2 * (Jinv * I1 - d) + kappa / 2 * (J - 1) ^ 2

/-- `F = np.array([[F_2d[0, 0], F_2d[0, 1], 0.], [F_2d[1, 0], F_2d[1, 1], 0.], [0., 0., 1.]])`
(`cellular_displacement.py:16-18`). -/
def embed (F : Fin 2 → Fin 2 → ℝ) : Fin 3 → Fin 3 → ℝ :=
  ![![F 0 0, F 0 1, 0], ![F 1 0, F 1 1, 0], ![0, 0, 1]]

/-- `psi` of `cellular_displacement.py:15-27`. -/
noncomputable def psiPlane (mu kappa : ℝ) (F : Fin 2 → Fin 2 → ℝ) : ℝ := psi 3 mu kappa (embed F)

/-- `psi` of `HyperElasticityInverse` (`hyperelastic3d_common.py:53-62`): `J = np.maximum(J, 1e-14)`; `rho` scales the
modulus. -/
noncomputable def psiInverse (E nu rho : ℝ) (F : Fin n → Fin n → ℝ) : ℝ :=
  let mu := muOf (E * rho) nu
  let kappa := kappaOf (E * rho) nu
  let J := max (Matrix.of F).det (1 / 10 ^ 14)
  let Jinv := J ^ (-2 / 3 : ℝ)
  let I1 := ((Matrix.of F).transpose * Matrix.of F).trace
  mu / 2 * (Jinv * I1 - 3) + kappa / 2 * (J - 1) ^ 2

/-- `jax.grad` of a function of a matrix. -/
noncomputable def grad (W : (Fin n → Fin n → ℝ) → ℝ) (F : Fin n → Fin n → ℝ) (i j : Fin n) : ℝ :=
  fderiv ℝ W F (Pi.single i (Pi.single j 1))

/-- `first_PK_stress` (`test_hyper_elasticity.py:29-33`): `F = u_grad + I`, `P = P_fn(F)`. -/
noncomputable def firstPK (W : (Fin n → Fin n → ℝ) → ℝ) (uGrad : Fin n → Fin n → ℝ) : Fin n → Fin n → ℝ :=
  grad W fun i j => uGrad i j + if i = j then 1 else 0

/-- A problem whose `get_tensor_map` returns `first_PK_stress` (`test_hyper_elasticity.py:15-34`); mesh, element, internal
variables (`rho` in `HyperElasticityInverse`) and surface maps are those of `P`, there is no mass map. -/
noncomputable def withEnergy (P : Problem1 IV nq nfq nn n n) (W : IV → (Fin n → Fin n → ℝ) → ℝ) :
    Problem1 IV nq nfq nn n n :=
  { P with tensorMap := fun iv uGrad => firstPK (W iv) uGrad, massMap := none }

end JaxFem.Hyper
