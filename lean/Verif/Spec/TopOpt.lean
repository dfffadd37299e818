import Verif.Spec.Elastic
import Verif.Spec.Newton
import Verif.Model.TopOpt

/-!
Independent notions for topology optimisation: plane stress as a state of a three-dimensional body, materials whose
stiffness is scaled by a design variable, the energy stored at a quadrature point, loads that do not depend on the
displacement.
-/

namespace JaxFem

variable {IV : Type} {nq nfq nn vec dim : Nat}

/-- The displacement gradient `H` of a body extends the in-plane gradient `G`, without transverse shear. -/
def Extends (H : Fin 3 → Fin 3 → ℝ) (G : Fin 2 → Fin 2 → ℝ) : Prop :=
  (∀ i j : Fin 2, H i.castSucc j.castSucc = G i j) ∧ ∀ i : Fin 2, H i.castSucc 2 + H 2 i.castSucc = 0

/-- A stress without components on the planes parallel to the plate. -/
def FreeOfNormalStress (S : Fin 3 → Fin 3 → ℝ) : Prop := ∀ i, S i 2 = 0 ∧ S 2 i = 0

/-- The tensor map is a fixed symmetric positive semidefinite linear law `C`, scaled by a number that depends on the
internal variables. -/
structure Problem1.Scaled (P : Problem1 IV nq nfq nn dim dim) (e : IV → ℝ)
    (C : (Fin dim → Fin dim → ℝ) →ₗ[ℝ] (Fin dim → Fin dim → ℝ)) : Prop where
  map : ∀ iv G i j, P.tensorMap iv G i j = e iv * C G i j
  symm : ∀ G H, contract (C G) H = contract (C H) G
  nonneg : ∀ G, 0 ≤ contract (C G) G

/-- One boundary subset, on which the traction does not depend on the displacement; no volume load. -/
structure Problem1.DeadLoad (P : Problem1 IV nq nfq nn dim dim) : Prop where
  mass : P.massMap = none
  surface : ∃ s, P.surfaces = [s] ∧ ∀ iv u w x, s.map iv u x = s.map iv w x

/-- Measure that quadrature point `q` of cell `c` stands for. -/
noncomputable def Problem1.measureAt (P : Problem1 IV nq nfq nn vec dim) (c : Fin P.cells.length) (q : Fin nq) : ℝ :=
  (mapJacobian (coords nn P.points (P.cells[c]).nodes) (Matrix.of (P.el.shapeGradsRef q))).det * P.el.quadWeights q

/-- Displacement gradient at quadrature point `q` of cell `c`. -/
noncomputable def Problem1.gradAt (P : Problem1 IV nq nfq nn vec dim) (u : Nat → Fin vec → ℝ)
    (c : Fin P.cells.length) (q : Fin nq) : Fin vec → Fin dim → ℝ := P.gradient u (P.cells[c]).nodes q

/-- Twice the energy that the displacement `u` stores at quadrature point `q` of cell `c` for the unscaled law. -/
noncomputable def Problem1.energyAt (P : Problem1 IV nq nfq nn dim dim)
    (C : (Fin dim → Fin dim → ℝ) →ₗ[ℝ] (Fin dim → Fin dim → ℝ)) (u : Nat → Fin dim → ℝ)
    (c : Fin P.cells.length) (q : Fin nq) : ℝ :=
  contract (C (P.gradAt u c q)) (P.gradAt u c q) * P.measureAt c q

/-- All prescribed displacements are zero. -/
def ZeroValues (bcs : List (List (BCEntry ℝ))) : Prop := ∀ es ∈ bcs, ∀ e ∈ es, ∀ v ∈ e.vals, v = 0

/-- The array of nodal values in a vector of degrees of freedom (`unflatten_fn_sol_list(dofs)[0]`). -/
noncomputable def Problem1.solArray (P : Problem1 IV nq nfq nn vec dim) (u : Fin (totalDofs P.fes) → ℝ) :
    List (List ℝ) :=
  (unravelSol (solShapes P.fes) (List.ofFn u)).getD 0 []

end JaxFem
