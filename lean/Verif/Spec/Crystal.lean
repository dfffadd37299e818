import Verif.Spec.Hyper
import Mathlib.Algebra.Quaternion
import Mathlib.Data.Matrix.Mul

/-!
Independent notions for crystal plasticity.
-/

namespace JaxFem.Crystal

open Matrix

/-- The vector as a quaternion without real part. -/
def pure (v : Fin 3 → ℝ) : Quaternion ℝ := ⟨0, v 0, v 1, v 2⟩

/-- Components of a quaternion, real part first. -/
def comps (q : Quaternion ℝ) : Fin 4 → ℝ := ![q.re, q.imI, q.imJ, q.imK]

/-- Operations that permute the cubic axes and change their directions. -/
def cubicOp (p : Equiv.Perm (Fin 3)) (s : Fin 3 → Bool) : Matrix (Fin 3) (Fin 3) ℝ :=
  fun i j => if j = p i then (if s i then -1 else 1) else 0

/-- Stress of a linear elastic cubic crystal, in the axes of the crystal, for a symmetric strain. -/
def cubicStress (C11 C12 C44 : ℝ) (E : Matrix (Fin 3) (Fin 3) ℝ) : Matrix (Fin 3) (Fin 3) ℝ :=
  fun i j => if i = j then C12 * (E 0 0 + E 1 1 + E 2 2) + (C11 - C12) * E i i else 2 * C44 * E i j

/-- Green strain. -/
noncomputable def green (Fe : Matrix (Fin 3) (Fin 3) ℝ) : Matrix (Fin 3) (Fin 3) ℝ := (1 / 2 : ℝ) • (Fe.transpose * Fe - 1)

/-- The equations of a time step at a point. Data: deformation gradient `F`, inverse plastic part `A` and resistances `g` before
the step, orientation `R`, slip directions `d` and normals `n` in the axes of the crystal, elastic constants, reference rate,
rate exponent, time increment. Unknowns: second Piola–Kirchhoff stress `S`, slips `γ`, inverse plastic part `A'`. -/
structure StepEquations {ns : Nat} (F A R : Matrix (Fin 3) (Fin 3) ℝ) (g : Fin ns → ℝ) (d n : Fin ns → Fin 3 → ℝ)
    (C11 C12 C44 rate exponent dt : ℝ) (S : Matrix (Fin 3) (Fin 3) ℝ) (γ : Fin ns → ℝ) (A' : Matrix (Fin 3) (Fin 3) ℝ) : Prop where
  /-- power law, in the direction of the resolved shear stress -/
  flow : ∀ a, |γ a| = rate * dt * |(R *ᵥ d a) ⬝ᵥ (S *ᵥ (R *ᵥ n a))| ^ exponent / |g a| ^ exponent
    ∧ 0 ≤ γ a * ((R *ᵥ d a) ⬝ᵥ (S *ᵥ (R *ᵥ n a)))
  /-- plastic flow on the slip systems -/
  plastic : A' = A - ∑ a, γ a • (A * vecMulVec (R *ᵥ d a) (R *ᵥ n a))
  /-- elastic law in the axes of the crystal -/
  elastic : R.transpose * S * R = cubicStress C11 C12 C44 (R.transpose * green (F * A') * R)

/-- A damped Newton step from `y` to `y'` along `d`: the full step is halved until the measure `f` decreases, at most four times.
`less` is the comparison of measures. -/
def DampedStep {Y N : Type} (f : Y → N) (less : N → N → Prop) (move : ℝ → Y → Y → Y) (y d y' : Y) : Prop :=
  ∃ k ≤ 4, y' = move (1 / 2 ^ k) d y ∧ (∀ j < k, ¬ less (f (move (1 / 2 ^ j) d y)) (f y)) ∧ (k = 4 ∨ less (f y') (f y))

end JaxFem.Crystal
