import Mathlib.Algebra.BigOperators.Fin
import Mathlib.Algebra.Field.Basic

/-!
# Explicit dynamics (`applications/explicit_dynamics/example.py:75-112`)

Nodal fields are functions of the node and the component; the internal force `problem.compute_residual` is an
arbitrary function. Connectivity, shape values and `JxW` are those of the finite element object
(`Model/Kernel.lean`).
-/

namespace JaxFem
namespace Explicit

variable {K : Type} [Field K]

/-- `element_mass = rho * einsum("qi,eq->ei", shape_vals, JxW)` (76), one cell. -/
def elementMass {nq nn : Nat} (rho : K) (shapeVals : Fin nq → Fin nn → K) (JxW : Fin nq → K) : Fin nn → K :=
  fun i => rho * ∑ q, shapeVals q i * JxW q

/-- `nodal_mass.at[...].add(...)` (78): repeated indices accumulate, indices outside the array are dropped. -/
def scatterAdd (m : List K) (ops : List (Nat × K)) : List K := ops.foldl (fun m p => m.modify p.1 (· + p.2)) m

/-- `nodal_mass` (76-78). A cell is given by its node numbers and its `JxW`. -/
def nodalMass {nq nn : Nat} (rho : K) (shapeVals : Fin nq → Fin nn → K) (numNodes : Nat)
    (cells : List ((Fin nn → Nat) × (Fin nq → K))) : List K :=
  scatterAdd (List.replicate numNodes 0)
    (cells.flatMap fun c => (List.finRange nn).map fun i => (c.1 i, elementMass rho shapeVals c.2 i))

/-- `fixed` (81-83): the entries of all Dirichlet node/component lists. -/
def fixedMask (bcs : List (List Nat × List Nat)) (n c : Nat) : Bool :=
  bcs.any fun p => (p.1.zip p.2).contains (n, c)

/-- A nodal vector field. -/
abbrev Field3 (K : Type) (N vec : Nat) := Fin N → Fin vec → K

variable {N vec : Nat}

/-- `acceleration` (97-99). -/
def acceleration (fixed : Fin N → Fin vec → Bool) (mass : Fin N → K) (force : Field3 K N vec → Field3 K N vec)
    (u : Field3 K N vec) : Field3 K N vec :=
  fun n c => if fixed n c then 0 else -force u n c / mass n

/-- `u_previous` (102-103). -/
def uPrevious (fixed : Fin N → Fin vec → Bool) (mass : Fin N → K) (force : Field3 K N vec → Field3 K N vec) (dt : K)
    (u0 v0 : Field3 K N vec) : Field3 K N vec :=
  fun n c => if fixed n c then 0
    else u0 n c - dt * v0 n c + 1 / 2 * dt ^ 2 * acceleration fixed mass force u0 n c

/-- `step` (105-109), the new carry. -/
def step (fixed : Fin N → Fin vec → Bool) (mass : Fin N → K) (force : Field3 K N vec → Field3 K N vec) (dt : K)
    (s : Field3 K N vec × Field3 K N vec) : Field3 K N vec × Field3 K N vec :=
  (s.2, fun n c => if fixed n c then 0
    else 2 * s.2 n c - s.1 n c + dt ^ 2 * acceleration fixed mass force s.2 n c)

/-- Carry after `k` steps of the scan (111). -/
def carry (fixed : Fin N → Fin vec → Bool) (mass : Fin N → K) (force : Field3 K N vec → Field3 K N vec) (dt : K)
    (u0 v0 : Field3 K N vec) (k : Nat) : Field3 K N vec × Field3 K N vec :=
  (step fixed mass force dt)^[k] (uPrevious fixed mass force dt u0 v0, u0)

/-- `history[k]` (111-112): the initial field followed by the results of the steps. -/
def history (fixed : Fin N → Fin vec → Bool) (mass : Fin N → K) (force : Field3 K N vec → Field3 K N vec) (dt : K)
    (u0 v0 : Field3 K N vec) (k : Nat) : Field3 K N vec := (carry fixed mass force dt u0 v0 k).2

end Explicit
end JaxFem
