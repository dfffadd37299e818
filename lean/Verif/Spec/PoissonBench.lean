import Verif.Spec.NaturalSides
import Verif.Spec.Variational

/-!
# Specification: a mesh of the unit layer `0 ≤ x ≤ 1` with insulated sides
-/

namespace JaxFem.PoissonBench

open Patch

/-- First coordinate of a node. -/
def xOf (points : List (Fin 3 → ℝ)) (n : Nat) : ℝ := (points.getD n 0) 0

/-- The mesh fits the benchmark: nodes within the tolerance of the test of the planes `x = 0` and `x = 1` lie in these planes,
there is a node in the second one, every node is connected through cells with one of these nodes, and every outer side at a
node in between is flat and parallel to the `x` axis. -/
structure Layer (N k : Nat) (matched : List (List Nat) → List Nat → Prop) (points : List (Fin 3 → ℝ)) (cells : List (List Nat)) :
    Prop where
  left : ∀ n < N, |xOf points n| ≤ 1 / 100000 → xOf points n = 0
  right : ∀ n < N, |xOf points n - 1| ≤ 2 / 100000 → xOf points n = 1
  nonempty : ∃ n < N, xOf points n = 1
  connected : ∀ n < N, ∃ m < N, (xOf points m = 0 ∨ xOf points m = 1) ∧ Relation.ReflTransGen (Linked cells) m n
  insulated : ∀ n < N, xOf points n ≠ 0 → xOf points n ≠ 1 → NoFlux k matched cells points ![1, 0, 0] n

end JaxFem.PoissonBench
