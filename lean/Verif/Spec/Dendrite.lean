import Verif.Spec.Coupled
import Verif.Model.Dendrite

/-! Spec for the dendrite scripts: partition of unity and total enthalpy. -/

namespace JaxFem

variable {dim : Nat}

/-- The shape functions sum to one and their reference gradients sum to zero at every quadrature
point. -/
def CVar.Unity (v : CVar dim) : Prop :=
  ∀ q < v.nq, (∑ a : Fin v.nn, v.shapeVals q a = 1) ∧ ∀ j, ∑ a : Fin v.nn, v.shapeGradsRef q a j = 0

/-- Integral of a scalar field. -/
noncomputable def CVar.total (v : CVar dim) (u : Nat → Nat → ℝ) : ℝ :=
  v.integral fun e q => v.valueAt u e q 0

/-- Integral of the shape function of node `n`: the area attached to the node. -/
noncomputable def CVar.nodeArea (v : CVar dim) (n : Nat) : ℝ :=
  v.total fun n' _ => if n' = n then 1 else 0

/-- Total enthalpy `∫ T - K p`. -/
noncomputable def enthalpy (K : ℝ) (vp vT : CVar dim) (p T : Nat → Nat → ℝ) : ℝ :=
  vT.integral fun e q => vT.valueAt T e q 0 - K * vp.valueAt p e q 0

end JaxFem

/-! ### Free energy -/

namespace JaxFem.Dendrite

variable (m : Params)

/-- Anisotropic gradient energy `½ ε(θ)² |g|²`, `θ` the angle of `g` and
`ε(θ) = ε̄ (1 + δ cos (J (θ - π/2)))`. -/
noncomputable def anisoEnergy (g : Fin 2 → ℝ) : ℝ :=
  1 / 2 * (m.epsBar * (1 + m.delta * Real.cos (m.J * (Complex.arg ⟨g 0, g 1⟩ - Real.pi / 2)))) ^ 2
    * (g 0 ^ 2 + g 1 ^ 2)

/-- Double well tilted by the undercooling `μ = α/π arctan (γ (T_eq - T))`. -/
noncomputable def wellEnergy (T p : ℝ) : ℝ :=
  let μ := m.alpha / Real.pi * Real.arctan (m.gamma * (m.Teq - T))
  p ^ 4 / 4 - (1 / 2 - μ / 3) * p ^ 3 + (1 / 4 - μ / 2) * p ^ 2

/-- Potential of the noise. -/
noncomputable def noiseEnergy (chi p : ℝ) : ℝ := - m.a * chi * (p ^ 2 / 2 - p ^ 3 / 3)

/-- Free energy of the phase field. -/
noncomputable def phaseEnergy (vp vT : CVar 2) (noise : List ℝ) (p T : Nat → Nat → ℝ) : ℝ :=
  vp.integral fun e q => anisoEnergy m (vp.gradAt p e q 0)
    + wellEnergy m (vT.valueAt T e q 0) (vp.valueAt p e q 0)
    + noiseEnergy m (noise.getD e 0) (vp.valueAt p e q 0)

end JaxFem.Dendrite
