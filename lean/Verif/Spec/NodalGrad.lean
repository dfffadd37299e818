import Mathlib.Analysis.Calculus.FDeriv.Basic
import Mathlib.Analysis.Normed.Module.FiniteDimension
import Mathlib.Data.Real.Basic

/-!
# Specification for C93: the gradient of an interpolated field at a point of a cell
-/

namespace JaxFem

open scoped Topology

variable {nn dim vec : Nat}

/-- Interpolation `∑ₐ φₐ(ξ) Vₐ` of nodal values; with the node positions it is the map from the reference cell to the
mesh. -/
def interpolant {m : Nat} (φ : Fin nn → (Fin dim → ℝ) → ℝ) (V : Fin nn → Fin m → ℝ) (ξ : Fin dim → ℝ) : Fin m → ℝ :=
  fun c => ∑ a, φ a ξ * V a c

/-- `G` is the gradient, in the coordinates of the mesh, of the interpolated field at the image of `ξ`: near that point
there is a field `v` of the mesh coordinates that agrees with the interpolated field and has derivative `G`, and
every such field that is differentiable has this derivative. -/
def IsGradientAt (φ : Fin nn → (Fin dim → ℝ) → ℝ) (X : Fin nn → Fin dim → ℝ) (U : Fin nn → Fin vec → ℝ)
    (ξ : Fin dim → ℝ) (G : Fin vec → Fin dim → ℝ) : Prop :=
  (∃ (v : (Fin dim → ℝ) → Fin vec → ℝ) (v' : (Fin dim → ℝ) →L[ℝ] (Fin vec → ℝ)),
    (∀ᶠ η in 𝓝 ξ, v (interpolant φ X η) = interpolant φ U η) ∧ HasFDerivAt v v' (interpolant φ X ξ) ∧
    ∀ c j, v' (Pi.single j 1) c = G c j) ∧
  ∀ (v : (Fin dim → ℝ) → Fin vec → ℝ) (v' : (Fin dim → ℝ) →L[ℝ] (Fin vec → ℝ)),
    (∀ᶠ η in 𝓝 ξ, v (interpolant φ X η) = interpolant φ U η) → HasFDerivAt v v' (interpolant φ X ξ) →
    ∀ c j, v' (Pi.single j 1) c = G c j

end JaxFem
