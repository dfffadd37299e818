import Verif.Spec.ElasticBench
import Verif.Spec.Hyper

/-!
# Specification: a hyperelastic body between two plates
-/

namespace JaxFem.HyperBench

open ElasticBench (Body)

variable {nq nfq nn : Nat}

/-- Deformation gradient of a nodal displacement. -/
noncomputable def deformation (M : Body nq nfq nn) (u : Nat → Fin 3 → ℝ) (c : List Nat) (q : Fin nq) : Matrix (Fin 3) (Fin 3) ℝ :=
  1 + Matrix.of (M.grad u c q)

/-- Power of the neo-Hookean stresses (`E = 1000`, `ν = 0.3`), `∫ P(F) : ∇v`. -/
noncomputable def internalPower (M : Body nq nfq nn) (u v : Nat → Fin 3 → ℝ) : ℝ :=
  (M.cells.map fun c => cellIntegral M.el M.points c fun q =>
    contract (neoHookePiola 3 (5000 / 13) (2500 / 3) (deformation M u c q)) (M.grad v c q)).sum

/-- A node of the plate at the top (height 10 up to the tolerance). -/
def AtTop (M : Body nq nfq nn) (n : Nat) : Prop := n < M.numNodes ∧ |M.pos n 2 - 10| ≤ 11 / 100000

/-- A node of the plate at the bottom. -/
def AtBottom (M : Body nq nfq nn) (n : Nat) : Prop := n < M.numNodes ∧ |M.pos n 2| ≤ 1 / 100000

/-- Euclidean length of a nodal field. -/
noncomputable def length (M : Body nq nfq nn) (v : Nat → Fin 3 → ℝ) : ℝ :=
  √(∑ n ∈ Finset.range M.numNodes, ∑ i, v n i ^ 2)

open Classical in
/-- What the solver may leave over: `1e-6`, or `1e-8` times the length of the prescribed displacement. -/
noncomputable def tolerance (M : Body nq nfq nn) : ℝ :=
  max (1 / 10 ^ 6) (1 / 10 ^ 8 * √((Finset.range M.numNodes).filter (AtTop M)).card)

open Classical in
/-- Force that both plates together exert on the body in the direction `w`. -/
noncomputable def plateForce (M : Body nq nfq nn) (u : Nat → Fin 3 → ℝ) (w : Fin 3 → ℝ) : ℝ :=
  internalPower M u fun n i => if AtTop M n ∨ AtBottom M n then w i else 0

end JaxFem.HyperBench
