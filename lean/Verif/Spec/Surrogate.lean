import Mathlib.Analysis.Calculus.FDeriv.Basic
import Mathlib.Analysis.Calculus.FDeriv.Pi
import Mathlib.Analysis.SpecialFunctions.Log.Basic
import Mathlib.LinearAlgebra.Matrix.Determinant.Basic
import Mathlib.LinearAlgebra.Matrix.Trace

/-!
# Specification for C96: strains, energies, hyperelastic laws
-/

namespace JaxFem

open Matrix

/-- The components `E₀₀`, `E₀₁`, `E₁₁` of the Green–Lagrange strain `(FᵀF - I)/2` of a plane deformation. -/
noncomputable def greenStrain (F : Fin 2 → Fin 2 → ℝ) : Fin 3 → ℝ :=
  ![(F 0 0 ^ 2 + F 1 0 ^ 2 - 1) / 2, (F 0 0 * F 0 1 + F 1 0 * F 1 1) / 2, (F 0 1 ^ 2 + F 1 1 ^ 2 - 1) / 2]

/-- The strains of invertible deformations: `I + 2 E` is positive definite. -/
def IsStrain (e : Fin 3 → ℝ) : Prop := 0 < 1 + 2 * e 0 ∧ 4 * e 1 ^ 2 < (1 + 2 * e 0) * (1 + 2 * e 2)

/-- A function of the strain that is a sum of a function of the normal strains and a function of the shear strain. -/
def Separable (phi : (Fin 3 → ℝ) → ℝ) : Prop :=
  ∃ (a : ℝ → ℝ → ℝ) (b : ℝ → ℝ), ∀ e, IsStrain e → phi e = a (e 0) (e 2) + b (e 1)

/-- `P` is the stress of a hyperelastic solid: there is an energy whose derivative at every deformation gradient with positive
determinant in every direction is the power of `P`. -/
def IsHyperelastic (P : (Fin 2 → Fin 2 → ℝ) → Fin 2 → Fin 2 → ℝ) : Prop :=
  ∃ W : (Fin 2 → Fin 2 → ℝ) → ℝ, ∀ F, 0 < F 0 0 * F 1 1 - F 0 1 * F 1 0 →
    ∃ L : (Fin 2 → Fin 2 → ℝ) →L[ℝ] ℝ, HasFDerivAt W L F ∧ ∀ H, L H = ∑ i, ∑ j, P F i j * H i j

/-- `S` is the second Piola–Kirchhoff stress of the energy `psi` of the strain: the power `∑ S_ij dE_ij` over all four components
(both shear components) is the derivative of the energy. -/
def IsStressOf (S : (Fin 3 → ℝ) → Fin 2 → Fin 2 → ℝ) (psi : (Fin 3 → ℝ) → ℝ) : Prop :=
  ∀ e, IsStrain e → S e 0 1 = S e 1 0 ∧ ∃ L : (Fin 3 → ℝ) →L[ℝ] ℝ, HasFDerivAt psi L e ∧
    ∀ d : Fin 3 → ℝ, L d = ∑ i, ∑ j, S e i j * (!![d 0, d 1; d 1, d 2] : Matrix (Fin 2) (Fin 2) ℝ) i j

/-- St. Venant–Kirchhoff energy of the plane strain. -/
noncomputable def svkEnergy (lam mu : ℝ) (e : Fin 3 → ℝ) : ℝ :=
  lam / 2 * (e 0 + e 2) ^ 2 + mu * (e 0 ^ 2 + 2 * e 1 ^ 2 + e 2 ^ 2)

/-- Its stress. -/
def svkStress (lam mu : ℝ) (e : Fin 3 → ℝ) : Fin 2 → Fin 2 → ℝ :=
  ![![lam * (e 0 + e 2) + 2 * mu * e 0, 2 * mu * e 1], ![2 * mu * e 1, lam * (e 0 + e 2) + 2 * mu * e 2]]

/-- The energy `(J² - 1)²/4` of the change of area, `J² = det (I + 2 E)`. -/
noncomputable def areaEnergy (e : Fin 3 → ℝ) : ℝ := ((1 + 2 * e 0) * (1 + 2 * e 2) - 4 * e 1 ^ 2 - 1) ^ 2 / 4

/-- Its stress. -/
noncomputable def areaStress (e : Fin 3 → ℝ) : Fin 2 → Fin 2 → ℝ :=
  let k := (1 + 2 * e 0) * (1 + 2 * e 2) - 4 * e 1 ^ 2 - 1
  ![![k * (1 + 2 * e 2), -2 * k * e 1], ![-2 * k * e 1, k * (1 + 2 * e 0)]]

end JaxFem
