import Verif.Spec.Fracture
import Mathlib.Analysis.SpecialFunctions.Pow.Real

/-!
Independent notions for finite elasticity.
-/

namespace JaxFem

open Matrix

variable {IV : Type} {nq nfq nn n : Nat}

/-- Rotations. -/
def IsRotation (Q : Matrix (Fin n) (Fin n) ℝ) : Prop := Q.transpose * Q = 1 ∧ Q.det = 1

/-- First Piola–Kirchhoff stress of the compressible neo-Hookean solid in `d` dimensions:
`μ J^(-2/d) (F - |F|²/d F⁻ᵀ) + κ J (J - 1) F⁻ᵀ`. -/
noncomputable def neoHookePiola (d mu kappa : ℝ) (F : Matrix (Fin n) (Fin n) ℝ) : Matrix (Fin n) (Fin n) ℝ :=
  (mu * F.det ^ (-2 / d)) • (F - ((∑ i, ∑ j, F i j ^ 2) / d) • F⁻¹.transpose)
    + (kappa * F.det * (F.det - 1)) • F⁻¹.transpose

/-- Deformation gradient at quadrature point `q` of a cell. -/
noncomputable def Problem1.defGrad (P : Problem1 IV nq nfq nn n n) (u : Nat → Fin n → ℝ) (cell : List Nat) (q : Fin nq) :
    Matrix (Fin n) (Fin n) ℝ := 1 + P.gradient u cell q

/-- No cell is turned inside out: positive determinants at all quadrature points. -/
def Problem1.Admissible (P : Problem1 IV nq nfq nn n n) (u : Nat → Fin n → ℝ) : Prop :=
  ∀ cell ∈ P.cells, ∀ q, 0 < (P.defGrad u cell.nodes q).det

/-- Dead loads: the surface maps do not depend on the displacement. -/
def Problem1.DeadLoads (P : Problem1 IV nq nfq nn n n) : Prop :=
  ∀ s ∈ P.surfaces, ∀ iv u u' x, s.map iv u x = s.map iv u' x

/-- Total energy: stored energy and work of the dead loads (the code puts `-traction` into the surface maps). -/
noncomputable def Problem1.potential (P : Problem1 IV nq nfq nn n n) (W : IV → (Fin n → Fin n → ℝ) → ℝ)
    (u : Nat → Fin n → ℝ) : ℝ :=
  P.integral (fun iv _ G => W iv fun i j => (1 : Matrix (Fin n) (Fin n) ℝ) i j + G i j) u + P.surfaceWork 0 u

end JaxFem
