import Mathlib.LinearAlgebra.CrossProduct
import Mathlib.Analysis.SpecialFunctions.Pow.Real
import Mathlib.LinearAlgebra.Matrix.ToLin

/-! Euclidean length and area. -/

namespace JaxFem

/-- Euclidean length. -/
noncomputable def euclid {d : Nat} (v : Fin d → ℝ) : ℝ := Real.sqrt (v ⬝ᵥ v)

/-- Length of the segment spanned by `t` under the linear map `J`: the line element of a mapped
edge. -/
noncomputable def mappedLength (J : Matrix (Fin 2) (Fin 2) ℝ) (t : Fin 2 → ℝ) : ℝ :=
  euclid (J.mulVec t)

/-- Area of the parallelogram spanned by `t₁, t₂` under `J`: the area element of a mapped face. -/
noncomputable def mappedArea (J : Matrix (Fin 3) (Fin 3) ℝ) (t₁ t₂ : Fin 3 → ℝ) : ℝ :=
  euclid (crossProduct (J.mulVec t₁) (J.mulVec t₂))

end JaxFem
