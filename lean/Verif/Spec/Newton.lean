import Verif.Model.Newton
import Verif.Spec.BC

/-!
# Specification of the Newton solver
-/

namespace JaxFem

universe u
variable {K : Type u}

/-- `n` iterations lead from `d0` to `d`, where the residual data is `r`. -/
inductive NewtonPath {D R : Type u} (update : D → Except Err R) (step : R → D → Except Err D) (d0 : D) :
    Nat → D → R → Prop
  | start (r : R) : update d0 = .ok r → NewtonPath update step d0 0 d0 r
  | next (n : Nat) (d d' : D) (r r' : R) : NewtonPath update step d0 n d r → step r d = .ok d' →
      update d' = .ok r' → NewtonPath update step d0 (n + 1) d' r'

/-- `u` satisfies the boundary conditions. -/
def SatisfiesBC (fes : List FE) (bcs : List (List (BCEntry K))) {N : Nat} (u : Fin N → K) : Prop :=
  ∀ (k : Fin N) v, Prescribed fes bcs k (some v) → u k = v

/-- `u` solves the constrained problem: prescribed values at constrained, zero residual at free
degrees of freedom. -/
def SolvesBVP [Zero K] (fes : List FE) (bcs : List (List (BCEntry K))) {N : Nat}
    (res : (Fin N → K) → Fin N → K) (u : Fin N → K) : Prop :=
  SatisfiesBC fes bcs u ∧ ∀ k : Fin N, Prescribed fes bcs k none → res u k = 0

/-- The linear solver returns solutions whenever it returns. -/
def ExactSolver [Semiring K] {N : Nat}
    (solve : Matrix (Fin N) (Fin N) K → (Fin N → K) → (Fin N → K) → Except Err (Fin N → K)) : Prop :=
  ∀ A b x0 x, solve A b x0 = .ok x → A.mulVec x = b

end JaxFem
