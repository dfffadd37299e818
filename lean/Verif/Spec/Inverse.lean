import Verif.Model.Inverse
import Verif.Spec.Newton
import Verif.Spec.BC
import Verif.Spec.Deriv
import Verif.Spec.TopOpt

/-!
Independent notions for the inverse problems: exact solvers, problems in which state and parameters enter linearly,
quadratic objectives, the forms of the source identification.
-/

namespace JaxFem.Inverse

open scoped BigOperators

variable {E : Type} [NormedAddCommGroup E] [NormedSpace ℝ E] {fes : List FE}

/-- Exact arithmetic: definite residual norm, exact linear solvers that succeed for regular matrices, zero absolute
tolerance, the assembled tangent is the derivative (C05), well-formed boundary conditions (C14). -/
structure Exact (S : Setup E fes (totalDofs fes)) : Prop where
  norm_nonneg : ∀ r, 0 ≤ S.norm r
  norm_zero : ∀ r, S.norm r = 0 ↔ r = 0
  solve : ExactSolver S.solve
  solve_total : ∀ A b x0, A.det ≠ 0 → ∃ x, S.solve A b x0 = .ok x
  adjoint : ∀ n A b x, S.adjointSolve n A b = .ok x → A.mulVec x = b
  adjoint_total : ∀ n A b, A.det ≠ 0 → ∃ x, S.adjointSolve n A b = .ok x
  tol : S.tol = 0
  relTol : S.relTol < 1
  tangent : ∀ p u, HasJacobianAt (S.res p) (S.tan p u) u
  bcs : ∀ p, WFBC fes (S.bcs p)

/-- An affine function of the parameters. -/
def AffineIn {V : Type} [AddCommGroup V] [Module ℝ V] (F : E → V) : Prop := ∃ L : E →ₗ[ℝ] V, ∀ p, F p = L p + F 0

/-- The state enters with a fixed matrix, loads and prescribed values are affine in the parameters, the constrained
degrees of freedom do not depend on the parameters, and the matrix with eliminated rows is regular. -/
structure LinearModel (S : Setup E fes (totalDofs fes)) (T : Matrix (Fin (totalDofs fes)) (Fin (totalDofs fes)) ℝ)
    (load vals : E → Fin (totalDofs fes) → ℝ) : Prop where
  res : ∀ p u, S.res p u = T.mulVec u - load p
  load_affine : AffineIn load
  vals_affine : AffineIn vals
  free : ∀ p (k : Fin (totalDofs fes)), Prescribed fes (S.bcs p) k none ↔ Prescribed fes (S.bcs 0) k none
  fixed : ∀ p (k : Fin (totalDofs fes)) v, Prescribed fes (S.bcs p) k (some v) → v = vals p k
  regular : (elimRows fes (S.bcs 0) T).det ≠ 0

/-- A quadratic function: form `B`, linear part `l`, constant `c`. -/
structure QuadraticFn {V : Type} [AddCommGroup V] [Module ℝ V] (f : V → ℝ) (B : V →ₗ[ℝ] V →ₗ[ℝ] ℝ) (l : V →ₗ[ℝ] ℝ)
    (c : ℝ) : Prop where
  symm : ∀ x y, B x y = B y x
  eq : ∀ x, f x = B x x + l x + c

/-! ### Source identification -/

variable {nq nfq nn dim : Nat}

/-- Value of a field at quadrature point `q` of cell `c`. -/
noncomputable def valueAt (P : Problem1 ℝ nq nfq nn 1 dim) (x : Fin (totalDofs P.fes) → ℝ) (c : Fin P.cells.length)
    (q : Fin nq) : ℝ :=
  interp (P.el.shapeVals q) (restrict nn (P.vecField x) (P.cells[c]).nodes) 0

/-- Integral of `∇x · ∇y`. -/
noncomputable def dirichletForm (P : Problem1 ℝ nq nfq nn 1 dim) (x y : Fin (totalDofs P.fes) → ℝ) : ℝ :=
  ∑ c, ∑ q, contract (P.gradAt (P.vecField x) c q) (P.gradAt (P.vecField y) c q) * P.measureAt c q

/-- Integral of `x y`. -/
noncomputable def massProduct (P : Problem1 ℝ nq nfq nn 1 dim) (x y : Fin (totalDofs P.fes) → ℝ) : ℝ :=
  ∑ c, ∑ q, valueAt P x c q * valueAt P y c q * P.measureAt c q

/-- Integral of `θ y`, where `θ` is given at the quadrature points. -/
noncomputable def sourceWork (P : Problem1 ℝ nq nfq nn 1 dim) (θ : Fin P.cells.length → Fin nq → ℝ)
    (y : Fin (totalDofs P.fes) → ℝ) : ℝ :=
  ∑ c, ∑ q, θ c q * valueAt P y c q * P.measureAt c q

/-- `w` vanishes at the constrained degrees of freedom and satisfies `-Δ w + θ = 0` weakly. -/
def IsState (P : Problem1 ℝ nq nfq nn 1 dim) (bcs : List (List (BCEntry ℝ))) (θ : Fin P.cells.length → Fin nq → ℝ)
    (w : Fin (totalDofs P.fes) → ℝ) : Prop :=
  (∀ (k : Fin (totalDofs P.fes)) v, Prescribed P.fes bcs k (some v) → w k = 0) ∧
  ∀ y : Fin (totalDofs P.fes) → ℝ, (∀ (k : Fin (totalDofs P.fes)) v, Prescribed P.fes bcs k (some v) → y k = 0) →
    dirichletForm P w y + sourceWork P θ y = 0

/-- Adjoint state: vanishes at the constrained degrees of freedom, with the misfit `d` as a source. -/
def IsAdjoint (P : Problem1 ℝ nq nfq nn 1 dim) (bcs : List (List (BCEntry ℝ))) (d w : Fin (totalDofs P.fes) → ℝ) :
    Prop :=
  (∀ (k : Fin (totalDofs P.fes)) v, Prescribed P.fes bcs k (some v) → w k = 0) ∧
  ∀ y : Fin (totalDofs P.fes) → ℝ, (∀ (k : Fin (totalDofs P.fes)) v, Prescribed P.fes bcs k (some v) → y k = 0) →
    dirichletForm P w y + 2 * massProduct P d y = 0

/-- Values at the quadrature points determine the nodal values of a cell. -/
def ValuesDetermine (el : RefElement ℝ nq nn dim) : Prop :=
  ∀ U : Fin nn → ℝ, (∀ q, ∑ a, el.shapeVals q a * U a = 0) → U = 0

end JaxFem.Inverse
