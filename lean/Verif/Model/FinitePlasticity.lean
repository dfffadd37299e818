import Mathlib.Analysis.SpecialFunctions.Pow.Real
import Mathlib.LinearAlgebra.Matrix.NonsingularInverse
import Mathlib.LinearAlgebra.Matrix.Trace

/-!
# Finite-strain plasticity (`applications/finite_plasticity/model.py`)

Model at one quadrature point, over the reals, with the material constants (22-25) as parameters.
`np.linalg.inv` is the matrix inverse; `det(f)**(-1./3.)` is the real power (the theorems assume a positive
determinant; a negative one gives NaN in the code).
-/

namespace JaxFem
namespace FinitePlasticity

/-- 3×3 matrices. -/
abbrev M3 := Matrix (Fin 3) (Fin 3) ℝ

/-- Material constants (22-25). -/
structure Mat where
  K : ℝ
  G : ℝ
  H1 : ℝ
  sig0 : ℝ

/-- Internal variables at a quadrature point (12-15). -/
structure FState where
  F : M3
  be : M3
  alpha : ℝ

/-- `custom_init` (8-15). -/
def fInit : FState := ⟨1, 1, 0⟩

/-- `deviatoric` (51-52). -/
noncomputable def deviatoric (A : M3) : M3 := A - (1 / 3 * A.trace) • (1 : M3)

/-- `np.linalg.norm` of a matrix: the Frobenius norm. -/
noncomputable def frob (A : M3) : ℝ := Real.sqrt (∑ i, ∑ j, A i j * A i j)

/-- `get_tau` (46-49). -/
noncomputable def getTau (m : Mat) (F be : M3) : M3 := (1 / 2 * m.K * (F.det ^ 2 - 1)) • (1 : M3) + m.G • deviatoric be

/-- `be_bar_trial` (55-63). -/
noncomputable def beTrial (s : FState) (uGrad : M3) : M3 :=
  let F := uGrad + 1
  let f := F * s.F⁻¹
  let fBar := (f.det ^ (-(1 : ℝ) / 3)) • f
  fBar * s.be * fBar.transpose

/-- `yield_f_trial` (64-65). -/
noncomputable def yieldTrial (m : Mat) (s : FState) (uGrad : M3) : ℝ :=
  frob (m.G • deviatoric (beTrial s uGrad)) - Real.sqrt (2 / 3) * (m.sig0 + m.H1 * s.alpha)

/-- `return_map` (54-84): new `be_bar`, `alpha` and the Kirchhoff stress. -/
noncomputable def returnMap (m : Mat) (s : FState) (uGrad : M3) : M3 × ℝ × M3 :=
  let F := uGrad + 1
  let trial := beTrial s uGrad
  let sTrial := m.G • deviatoric trial
  let y := yieldTrial m s uGrad
  if y < 0 then (trial, s.alpha, getTau m F trial)
  else
    let Ie := 1 / 3 * trial.trace
    let Gbar := Ie * m.G
    let dg := (y / (2 * Gbar)) / (1 + m.H1 / (3 * Gbar))
    let dir := (1 / frob sTrial) • sTrial
    let sNew := sTrial - (2 * Gbar * dg) • dir
    let alpha := s.alpha + Real.sqrt (2 / 3) * dg
    let be := (1 / m.G) • sNew + Ie • (1 : M3)
    (be, alpha, getTau m F be)

/-- `update_int_vars` (34-37). -/
noncomputable def updateVars (m : Mat) (s : FState) (uGrad : M3) : FState :=
  let r := returnMap m s uGrad
  ⟨uGrad + 1, r.1, r.2.1⟩

/-- `first_PK_stress` (28-32). -/
noncomputable def firstPK (m : Mat) (s : FState) (uGrad : M3) : M3 :=
  (returnMap m s uGrad).2.2 * ((uGrad + 1)⁻¹).transpose

/-- `compute_cauchy_stress` (39-44). -/
noncomputable def cauchy (m : Mat) (s : FState) (uGrad : M3) : M3 :=
  (1 / (uGrad + 1).det) • firstPK m s uGrad * (uGrad + 1).transpose

/-- A history of load steps. -/
noncomputable def fHistory (m : Mat) (grads : List M3) : FState := grads.foldl (updateVars m) fInit

end FinitePlasticity
end JaxFem
