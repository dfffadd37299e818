import Verif.Spec.ElasticBench
import Verif.Spec.Hyper

/-!
# Specification: equilibrium of a neo-Hookean body with a given density of stiffness
-/

namespace JaxFem.Scalability

open ElasticBench (Body)

variable {nq nfq nn : Nat}

/-- Deformation gradient. -/
noncomputable def deformation (M : Body nq nfq nn) (u : Nat → Fin 3 → ℝ) (c : List Nat) (q : Fin nq) : Matrix (Fin 3) (Fin 3) ℝ :=
  1 + Matrix.of (M.grad u c q)

/-- Virtual power of the stresses; `rho` are the densities, cell by cell. Shear modulus 10/2.6, bulk modulus 10/1.2. -/
noncomputable def internalPower (M : Body nq nfq nn) (rho : List (Fin nq → ℝ)) (u v : Nat → Fin 3 → ℝ) : ℝ :=
  ((M.cells.zip rho).map fun cr => cellIntegral M.el M.points cr.1 fun q =>
    cr.2 q * contract (neoHookePiola 3 (50 / 13) (25 / 3) (deformation M u cr.1 q)) (M.grad v cr.1 q)).sum

/-- The displacement prescribed at a point of one of the two held faces. -/
inductive Prescribes : (Fin 3 → ℝ) → (Fin 3 → ℝ) → Prop
  | left (p : Fin 3 → ℝ) : |p 0| ≤ 1 / 100000 → Prescribes p 0
  | right (p : Fin 3 → ℝ) : |p 0 - 1| ≤ 2 / 100000 → Prescribes p ![2 / 100, 0, 0]

/-- A node of one of the held faces. -/
def OnEnds (M : Body nq nfq nn) (n : Nat) : Prop := n < M.numNodes ∧ ∃ d, Prescribes (M.pos n) d

/-- Equilibrium (virtual powers) with a constant traction on some faces. -/
def Balanced (M : Body nq nfq nn) (rho : List (Fin nq → ℝ)) (faces : List (Nat × Nat)) (t : Fin 3 → ℝ) (u : Nat → Fin 3 → ℝ) :
    Prop :=
  ∀ v, (∀ n, OnEnds M n → ∀ i, v n i = 0) → internalPower M rho u v = M.facePower faces (fun _ => t) v

open Classical in
/-- Force that the held faces exert on the body, in the direction `w`: what stresses and loads leave over on a field that is `w` at
the held nodes and zero elsewhere. -/
noncomputable def endForce (M : Body nq nfq nn) (rho : List (Fin nq → ℝ)) (faces : List (Nat × Nat)) (t : Fin 3 → ℝ)
    (u : Nat → Fin 3 → ℝ) (w : Fin 3 → ℝ) : ℝ :=
  let v := fun n i => if OnEnds M n then w i else 0
  internalPower M rho u v - M.facePower faces (fun _ => t) v

/-- Velocities of the deformed body in a rigid rotation with the skew matrix `W`. -/
noncomputable def spin (M : Body nq nfq nn) (u : Nat → Fin 3 → ℝ) (W : Matrix (Fin 3) (Fin 3) ℝ) (n : Nat) (i : Fin 3) : ℝ :=
  ∑ j, W i j * (M.pos n j + u n j)

open Classical in
/-- Power of the forces at the held nodes in this rotation, i.e. their moment about the axis of `W`. -/
noncomputable def endMoment (M : Body nq nfq nn) (rho : List (Fin nq → ℝ)) (faces : List (Nat × Nat)) (t : Fin 3 → ℝ)
    (u : Nat → Fin 3 → ℝ) (W : Matrix (Fin 3) (Fin 3) ℝ) : ℝ :=
  let v := fun n i => if OnEnds M n then spin M u W n i else 0
  internalPower M rho u v - M.facePower faces (fun _ => t) v

end JaxFem.Scalability
