import Verif.Model.UpdatedLagrangian
import Verif.Spec.Variational
import Verif.Spec.BC
import Verif.Spec.Layout

/-!
Independent statement of the boundary value problem behind the updated-Lagrangian application: a
compressible neo-Hookean solid in the *total* Lagrangian formulation, on the undeformed mesh, with the
total displacement as unknown.
-/

namespace JaxFem.UL

variable {nq nn : Nat}

/-- Stored energy of the neo-Hookean solid, `μ/2 (F : F - 3) - μ ln J + λ/2 (ln J)²` with `μ = 1`, `λ = 2`. -/
noncomputable def energy (F : Matrix (Fin 3) (Fin 3) ℝ) : ℝ :=
  (1 : ℝ) / 2 * (∑ i, ∑ j, F i j ^ 2 - 3) - (1 : ℝ) * Real.log F.det + (2 : ℝ) / 2 * Real.log F.det ^ 2

/-- First Piola-Kirchhoff stress `μ (F - F⁻ᵀ) + λ ln J F⁻ᵀ` with `μ = 1`, `λ = 2`. -/
noncomputable def firstPiola (F : Matrix (Fin 3) (Fin 3) ℝ) : Matrix (Fin 3) (Fin 3) ℝ :=
  (1 : ℝ) • (F - F⁻¹.transpose) + (2 * Real.log F.det) • F⁻¹.transpose

/-- The total-Lagrangian problem: the undeformed mesh, one density per cell, and the stress
`ρ³ P(I + ∇u)` as a function of the gradient of the total displacement. -/
noncomputable def totalProblem (S : Setup nq nn) (rho : List ℝ) : Problem1 ℝ nq 0 nn 3 3 where
  numTotalNodes := S.points0.length
  points := S.points0
  cells := List.zipWith (fun cell r => ⟨cell, fun _ => r⟩) S.cells rho
  el := S.el
  fc := ⟨fun _ _ _ => 0, fun _ _ _ _ => 0, fun _ _ => 0, fun _ _ => 0⟩
  tensorMap := fun r G i j => r ^ 3 * firstPiola (1 + Matrix.of G) i j
  massMap := none
  surfaces := []

/-- Gradient of a displacement array on a mesh with nodes at `x`. -/
noncomputable def gradOn (S : Setup nq nn) (x : List (Fin 3 → ℝ)) (u : List (List ℝ)) (cell : List Nat)
    (q : Fin nq) : Matrix (Fin 3) (Fin 3) ℝ :=
  physGrad (coords nn x cell) (Matrix.of (S.el.shapeGradsRef q)) (restrict nn (fieldOf 3 u) cell)

/-- Deformation gradient of a total displacement with respect to the undeformed mesh. -/
noncomputable def defGrad (S : Setup nq nn) (u : List (List ℝ)) (cell : List Nat) (q : Fin nq) :
    Matrix (Fin 3) (Fin 3) ℝ :=
  1 + gradOn S S.points0 u cell q

/-- Well-formed input: rectangular connectivity with valid node numbers, and a regular undeformed mesh. -/
structure Setup.WF (S : Setup nq nn) : Prop where
  nonempty : S.cells ≠ []
  cell_length : ∀ c ∈ S.cells, c.length = nn
  cell_lt : ∀ c ∈ S.cells, ∀ n ∈ c, n < S.points0.length
  regular : S.el.Regular S.points0 S.cells

/-- The increment `du` keeps clear of the floors of the code: in every quadrature point the determinants
of the incremental and of the new total deformation gradient exceed `1e-14`. -/
def ClearOfFloor (S : Setup nq nn) (p : Params nq) (du : List (List ℝ)) : Prop :=
  ∀ (e : Nat) cell Fp, S.cells[e]? = some cell → p.Fprev[e]? = some Fp → ∀ q,
    1 / 10 ^ 14 < (1 + gradOn S p.points du cell q).det ∧
    1 / 10 ^ 14 < ((1 + gradOn S p.points du cell q) * Fp q).det

/-- A node is on the clamped end: `|x| ≤ 1e-7`. -/
def OnLeft (p : Fin 3 → ℝ) : Prop := |p 0| ≤ 1 / 10 ^ 7

/-- A node is on the driven end: `|x - 1| ≤ 1e-7 + 1e-5`. -/
def OnRight (p : Fin 3 → ℝ) : Prop := |p 0 - 1| ≤ 1 / 10 ^ 7 + 1 / 10 ^ 5

/-- Where load factor `lam` puts a point of the driven end: it is moved by `-lam / 10` along the axis of the
beam and turned by the angle `lam π` about it. -/
noncomputable def driven (lam : ℝ) (p : Fin 3 → ℝ) : Fin 3 → ℝ :=
  ![p 0 - lam / 10, Real.cos (lam * Real.pi) * p 1 - Real.sin (lam * Real.pi) * p 2,
    Real.sin (lam * Real.pi) * p 1 + Real.cos (lam * Real.pi) * p 2]

/-- The array `u` meets the boundary conditions of load factor `lam`: the clamped end has not moved and the
driven end is where it should be. -/
def MeetsBC (points0 : List (Fin 3 → ℝ)) (lam : ℝ) (u : List (List ℝ)) : Prop :=
  ∀ n (p : Fin 3 → ℝ), points0[n]? = some p →
    (OnLeft p → ∀ c, fieldOf 3 u n c = 0) ∧
    (OnRight p → ∀ c, p c + fieldOf 3 u n c = driven lam p c)

/-- `u` solves the total-Lagrangian problem at load factor `lam`: forces balance at all nodes that are on
neither end, and the boundary conditions hold. -/
def SolvesTotal (S : Setup nq nn) (rho : List ℝ) (lam : ℝ) (u : List (List ℝ)) : Prop :=
  IsSolution (totalProblem S rho) (fun n _ => ∀ p, S.points0[n]? = some p → ¬OnLeft p ∧ ¬OnRight p) u ∧
    MeetsBC S.points0 lam u

/-- What a successful call of the solver in one step means: an array of the right shape that has zero
residual at the unconstrained degrees of freedom of the step and the prescribed increments at the others, and stays
clear of the floors. -/
structure ExactStep (S : Setup nq nn) (p : Params nq) (sols : List (List (List ℝ))) : Prop where
  shape : HasShapes [(S.points0.length, 3)] sols
  balance : ∃ R, stepResidual S p sols = .ok R ∧ ∀ n < S.points0.length, ∀ c < 3,
    FreeDof (stepEntries S p) n c → at3 R 0 n c = 0
  values : ∀ n < S.points0.length, ∀ c < 3, ∀ v, LastPrescribes (stepEntries S p) n c v →
    at3 sols 0 n c = v
  clear : ClearOfFloor S p (sols.getD 0 [])

end JaxFem.UL
