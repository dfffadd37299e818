import Mathlib.Analysis.SpecialFunctions.Sqrt
import Mathlib.LinearAlgebra.Matrix.Trace
import Mathlib.Algebra.BigOperators.Field

/-!
# Small-strain plasticity (`tests/benchmarks/plasticity/test_plasticity.py:16-78`)

Model at one quadrature point; the vectorised maps (67-71) apply it to every point. Arithmetic is exact over
the reals; `E`, `nu` and `sig0` (47-48, 55) are parameters.
-/

namespace JaxFem
namespace Plasticity

variable {d : Nat}

/-- `safe_sqrt` (33-37). -/
noncomputable def safeSqrt (x : ℝ) : ℝ := if 0 < x then Real.sqrt x else 0

/-- `safe_divide` (39-40), elementwise with a scalar denominator. -/
noncomputable def safeDivide (x : Matrix (Fin d) (Fin d) ℝ) (y : ℝ) : Matrix (Fin d) (Fin d) ℝ :=
  fun i j => if y = 0 then 0 else x i j / y

/-- `strain` (42-44). -/
noncomputable def strain (uGrad : Matrix (Fin d) (Fin d) ℝ) : Matrix (Fin d) (Fin d) ℝ :=
  fun i j => 1 / 2 * (uGrad i j + uGrad j i)

/-- `mu` (49). -/
noncomputable def muOf (E nu : ℝ) : ℝ := E / (2 * (1 + nu))

/-- `lmbda` (50). -/
noncomputable def lmbdaOf (E nu : ℝ) : ℝ := E * nu / ((1 + nu) * (1 - 2 * nu))

/-- `stress` (46-52). -/
noncomputable def stress (E nu : ℝ) (eps : Matrix (Fin d) (Fin d) ℝ) : Matrix (Fin d) (Fin d) ℝ :=
  fun i j => lmbdaOf E nu * eps.trace * (1 : Matrix (Fin d) (Fin d) ℝ) i j + 2 * muOf E nu * eps i j

/-- `sigma_trial` (56-58). -/
noncomputable def sigmaTrial (E nu : ℝ) (uGrad sigOld epsOld : Matrix (Fin d) (Fin d) ℝ) : Matrix (Fin d) (Fin d) ℝ :=
  fun i j => stress E nu (fun i j => strain uGrad i j - epsOld i j) i j + sigOld i j

/-- `s_dev` (59). -/
noncomputable def sDev (sig : Matrix (Fin d) (Fin d) ℝ) : Matrix (Fin d) (Fin d) ℝ :=
  fun i j => sig i j - 1 / (d : ℝ) * sig.trace * (1 : Matrix (Fin d) (Fin d) ℝ) i j

/-- `s_norm` (60). -/
noncomputable def sNorm (s : Matrix (Fin d) (Fin d) ℝ) : ℝ := safeSqrt (3 / 2 * ∑ i, ∑ j, s i j * s i j)

/-- Yield function and return mapping (59-63); the thermo-mechanical example repeats these lines
(`applications/thermal_mechanical/example.py:130-134`). -/
noncomputable def radialReturn (sig0 : ℝ) (trial : Matrix (Fin d) (Fin d) ℝ) : Matrix (Fin d) (Fin d) ℝ :=
  let s := sDev trial
  let sn := sNorm s
  let fYield := sn - sig0
  let fPlus := if 0 < fYield then fYield else 0
  fun i j => trial i j - safeDivide (fun i j => fPlus * s i j) sn i j

/-- `stress_return_map` (54-64). -/
noncomputable def stressReturnMap (E nu sig0 : ℝ) (uGrad sigOld epsOld : Matrix (Fin d) (Fin d) ℝ) :
    Matrix (Fin d) (Fin d) ℝ :=
  radialReturn sig0 (sigmaTrial E nu uGrad sigOld epsOld)

/-- Stored data at a quadrature point: `sigmas_old`, `epsilons_old`. -/
structure PState (d : Nat) where
  sig : Matrix (Fin d) (Fin d) ℝ
  eps : Matrix (Fin d) (Fin d) ℝ

/-- `custom_init` (17-24). -/
def pInit (d : Nat) : PState d := ⟨0, 0⟩

/-- `update_stress_strain` (73-78): the stress is updated with the old strain. -/
noncomputable def pUpdate (E nu sig0 : ℝ) (s : PState d) (uGrad : Matrix (Fin d) (Fin d) ℝ) : PState d :=
  ⟨stressReturnMap E nu sig0 uGrad s.sig s.eps, strain uGrad⟩

/-- A history of converged displacement gradients. -/
noncomputable def pHistory (E nu sig0 : ℝ) (grads : List (Matrix (Fin d) (Fin d) ℝ)) : PState d :=
  grads.foldl (pUpdate E nu sig0) (pInit d)

/-! ### Thermo-mechanical example (`applications/thermal_mechanical/example.py`) -/

/-- Phases (`example.py:192-194`); the values are only compared. -/
inductive Phase where
  | powder
  | liquid
  | solid
deriving DecidableEq, Repr

/-- `stress_return_maps` (120-135), the stress: Young's modulus and thermal expansion depend on the phase. -/
noncomputable def thermalReturnMap (E0 nu alphaV0 sig0 : ℝ) (uGrad sigOld epsOld : Matrix (Fin d) (Fin d) ℝ) (dT : ℝ)
    (phase : Phase) : Matrix (Fin d) (Fin d) ℝ :=
  let alphaV := if phase = .solid then alphaV0 else 0
  let E := if phase = .solid then E0 else 1 / 100 * E0
  radialReturn sig0 fun i j =>
    stress E nu (fun i j => strain uGrad i j - epsOld i j - alphaV * dT * (1 : Matrix (Fin d) (Fin d) ℝ) i j) i j +
      sigOld i j

/-- `update_dT_and_phase` (163-174) at one quadrature point: the new phase. The two tests are made on the
old phase and the assignments follow each other. -/
def updatePhase {T : Type} [LT T] [DecidableLT T] (Tl : T) (phase : Phase) (temp : T) : Phase :=
  let powderToLiquid := phase = .powder ∧ Tl < temp
  let liquidToSolid := phase = .liquid ∧ temp < Tl
  let phase1 := if powderToLiquid then .liquid else phase
  if liquidToSolid then .solid else phase1

/-- Internal variables at a quadrature point. -/
structure TState (d : Nat) where
  sig : Matrix (Fin d) (Fin d) ℝ
  eps : Matrix (Fin d) (Fin d) ℝ
  dT : ℝ
  phase : Phase

/-- `custom_init` (89-95). -/
def tInit (d : Nat) : TState d := ⟨0, 0, 0, .powder⟩

/-- One time step (the order of the calls is that of the time loop): temperature first, then the mechanical
solve with displacement gradient `uGrad`. -/
noncomputable def tUpdate (E0 nu alphaV0 sig0 Tl : ℝ) (s : TState d) (step : ℝ × ℝ × Matrix (Fin d) (Fin d) ℝ) :
    TState d :=
  let s1 : TState d := ⟨s.sig, s.eps, step.1, updatePhase Tl s.phase step.2.1⟩
  ⟨thermalReturnMap E0 nu alphaV0 sig0 step.2.2 s1.sig s1.eps s1.dT s1.phase, strain step.2.2, s1.dT, s1.phase⟩

end Plasticity
end JaxFem
