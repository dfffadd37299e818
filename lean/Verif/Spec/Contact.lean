import Mathlib.LinearAlgebra.Matrix.Determinant.Basic
import Mathlib.Analysis.SpecialFunctions.Log.Basic
import Mathlib.Analysis.SpecialFunctions.Pow.Real
import Mathlib.LinearAlgebra.Matrix.NonsingularInverse

/-!
# Specification for C94: polar decomposition, plane rotations
-/

namespace JaxFem

open Matrix

/-- `F = R U` with `R` orthogonal and `U` symmetric and positive definite. -/
def IsPolar {n : Nat} (F R U : Matrix (Fin n) (Fin n) ℝ) : Prop :=
  R.transpose * R = 1 ∧ U.transpose = U ∧ (∀ x : Fin n → ℝ, x ≠ 0 → 0 < x ⬝ᵥ U.mulVec x) ∧ F = R * U

/-- Rotation about the third axis with cosine `c` and sine `s`. -/
def planeRotation (c s : ℝ) : Matrix (Fin 3) (Fin 3) ℝ := !![c, -s, 0; s, c, 0; 0, 0, 1]

/-- Rotation of the plane with cosine `c` and sine `s`. -/
def planeRotation2 (c s : ℝ) : Matrix (Fin 2) (Fin 2) ℝ := !![c, -s; s, c]

/-- The vector `(F₀₀ + F₁₁, F₁₀ - F₀₁)`, whose direction is the angle of rotation of the plane deformation `F`. -/
def turning (F : Matrix (Fin 2) (Fin 2) ℝ) : ℝ × ℝ := (F 0 0 + F 1 1, F 1 0 - F 0 1)

/-- Length of `turning F`. -/
noncomputable def turningLength (F : Matrix (Fin 2) (Fin 2) ℝ) : ℝ :=
  Real.sqrt ((turning F).1 ^ 2 + (turning F).2 ^ 2)

/-- Stored energy of plane strain: `K/2 ln² J + G/2 (J^(-2/3) (|F|² + 1) - 3)`. -/
noncomputable def planeEnergy (K G : ℝ) (F : Matrix (Fin 2) (Fin 2) ℝ) : ℝ :=
  K / 2 * Real.log F.det ^ 2 + G / 2 * (F.det ^ (-2 / 3 : ℝ) * (∑ i, ∑ j, F i j ^ 2 + 1) - 3)

/-- Its stress: `K ln J F⁻ᵀ + G J^(-2/3) (F - (|F|² + 1)/3 F⁻ᵀ)`. -/
noncomputable def planePiola (K G : ℝ) (F : Matrix (Fin 2) (Fin 2) ℝ) : Matrix (Fin 2) (Fin 2) ℝ :=
  (K * Real.log F.det) • F⁻¹.transpose
    + (G * F.det ^ (-2 / 3 : ℝ)) • (F - ((∑ i, ∑ j, F i j ^ 2 + 1) / 3) • F⁻¹.transpose)

/-- Stress of the regularisation with old cosine `a` and old sine `b`. -/
noncomputable def couplePiola (k a b : ℝ) (F : Matrix (Fin 2) (Fin 2) ℝ) : Matrix (Fin 2) (Fin 2) ℝ :=
  let p := (turning F).1
  let q := (turning F).2
  (2 * k * (q * a - p * b) / turningLength F ^ 3) • !![-q, -p; p, -q]

end JaxFem
