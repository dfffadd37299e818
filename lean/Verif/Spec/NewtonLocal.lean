import Verif.Spec.Newton
import Verif.Spec.Deriv
import Verif.Spec.Hyper

/-!
# Notions for the local convergence of the Newton solver
-/

namespace JaxFem

open scoped Topology

/-- A linear solver that succeeds for regular matrices and stops at a relative residual `eta`. -/
def InexactSolver {N : Nat} (eta : ℝ)
    (solve : Matrix (Fin N) (Fin N) ℝ → (Fin N → ℝ) → (Fin N → ℝ) → Except Err (Fin N → ℝ)) : Prop :=
  ∀ A b x0, A.det ≠ 0 → ∃ y, solve A b x0 = .ok y ∧ ‖A.mulVec y - b‖ ≤ eta * ‖b‖

/-- `A` is the strict derivative of `f` at `x` (for instance because `f` is continuously differentiable). -/
def HasStrictJacobianAt {m n : Type*} [Fintype m] [Fintype n] (f : (n → ℝ) → (m → ℝ))
    (A : Matrix m n ℝ) (x : n → ℝ) : Prop := HasStrictFDerivAt f (matCLM A) x

/-- The same degrees of freedom are prescribed, with values that differ by less than `d`. -/
def NearbyBC (fes : List FE) (bcs bcs' : List (List (BCEntry ℝ))) (d : ℝ) : Prop :=
  (∀ k, Prescribed fes bcs k none ↔ Prescribed fes bcs' k none)
    ∧ ∀ k v v', Prescribed fes bcs k (some v) → Prescribed fes bcs' k (some v') → |v' - v| < d

/-- The problem with the surface maps `S` instead of its own. -/
def Problem1.withSurfaces {IV : Type} {nq nfq nn n : Nat} (P : Problem1 IV nq nfq nn n n) (S : List (Surface ℝ IV nfq n n)) :
    Problem1 IV nq nfq nn n n := { P with surfaces := S }

end JaxFem
