import Verif.Model.PlasticDrivers
import Verif.Spec.UserBC
import Verif.Spec.TopOpt
import Verif.Spec.Variational

/-!
Independent notions for the drivers of the finite-plasticity example.
-/

namespace JaxFem.FinitePlasticity

open scoped BigOperators

variable {nq nfq nn : Nat}

/-- Deformation gradient of the displacement `u` at quadrature point `q` of cell `c`. -/
noncomputable def defAt (P : Problem1 FState nq nfq nn 3 3) (u : Fin (totalDofs P.fes) → ℝ) (c : Fin P.cells.length)
    (q : Fin nq) : M3 := Matrix.of (P.gradAt (P.vecField u) c q) + 1

/-- No quadrature point is turned inside out. -/
def Upright (P : Problem1 FState nq nfq nn 3 3) (u : Fin (totalDofs P.fes) → ℝ) : Prop :=
  ∀ c q, 0 < (defAt P u c q).det

/-- Component `c` of the internal force at a node, for first Piola–Kirchhoff stresses `stress`: work of the stresses on the
displacement that moves degree of freedom `k` by one. -/
noncomputable def internalForce (P : Problem1 FState nq nfq nn 3 3) (stress : Fin P.cells.length → Fin nq → M3)
    (k : Fin (totalDofs P.fes)) : ℝ :=
  ∑ c, ∑ q, (∑ i, ∑ j, stress c q i j * P.gradAt (P.vecField (Pi.single k 1)) c q i j) * P.measureAt c q

/-- What is left to do: `d` is the deviation from the prescribed value where the user's conditions prescribe one, the
internal force elsewhere. -/
def Misfit (P : Problem1 FState nq nfq nn 3 3) (info : UserBC.Info (Fin 3 → ℝ) ℝ)
    (stress : Fin P.cells.length → Fin nq → M3) (u d : Fin (totalDofs P.fes) → ℝ) : Prop :=
  ∀ n < P.numTotalNodes, ∀ c < 3, ∀ k : Fin (totalDofs P.fes), (k : Nat) = n * 3 + c →
    (∀ v, UserBC.Demands P.points (UserBC.conds info) n c (some v) → d k = u k - v) ∧
    (UserBC.Demands P.points (UserBC.conds info) n c none → d k = internalForce P stress k)

/-- Euclidean length. -/
noncomputable def euclid {N : Nat} (d : Fin N → ℝ) : ℝ := Real.sqrt (∑ k, d k ^ 2)

/-- Cauchy stress of a stored state: `1/J (K/2 (J² - 1) I + G dev be)`. -/
noncomputable def storedStress (m : Mat) (s : FState) : M3 :=
  (1 / s.F.det) • ((m.K / 2 * (s.F.det ^ 2 - 1)) • (1 : M3) + m.G • (s.be - (s.be.trace / 3) • (1 : M3)))

/-- State (solution, internal variables) before step `i` of a run that starts with `(u, vars)`. -/
def stateBefore {C nq N : Nat} (l : List (Step C nq N)) (u : Fin N → ℝ) (vars : Vars C nq) : Nat → (Fin N → ℝ) × Vars C nq
  | 0 => (u, vars)
  | i + 1 => match l[i]? with
    | some st => (st.sol, st.vars)
    | none => (u, vars)

end JaxFem.FinitePlasticity
