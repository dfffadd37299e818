import Verif.Spec.Variational
import Verif.Spec.Hyper
import Verif.Spec.TopOpt

/-!
# Specification: a cube that is moved at its bottom and loaded at its top
-/

namespace JaxFem.Gradients

open scoped BigOperators

variable {IV : Type} {nq nfq nn : Nat}

/-- Node `n` is at height zero, up to `1e-5`. -/
def OnBottom (points : List (Fin 3 → ℝ)) (n : Nat) : Prop := ∃ p, points[n]? = some p ∧ |p 2| ≤ 1 / 100000

/-- Stress of the neo-Hookean solid with Young's modulus 1 and Poisson's ratio 0.3 for the displacement gradient `G`. -/
noncomputable def unitPiola (G : Fin 3 → Fin 3 → ℝ) : Fin 3 → Fin 3 → ℝ :=
  neoHookePiola 3 (1 / (2 * (1 + 3 / 10))) (1 / (3 * (1 - 2 * (3 / 10)))) (1 + Matrix.of G)

/-- Work of the stress `T`, in the state `u`, on the gradient of `w` at quadrature point `q` of cell `c`, times the volume of
the point. -/
noncomputable def power (P : Problem1 IV nq nfq nn 3 3) (T : (Fin 3 → Fin 3 → ℝ) → Fin 3 → Fin 3 → ℝ)
    (u w : Nat → Fin 3 → ℝ) (c : Fin P.cells.length) (q : Fin nq) : ℝ :=
  contract (T (P.gradAt u c q)) (P.gradAt w c q) * P.measureAt c q

/-- Integral of the third component of `w` over the faces. -/
noncomputable def lift (P : Problem1 IV nq nfq nn 3 3) (faces : List (Nat × Nat)) (w : Nat → Fin 3 → ℝ) : ℝ :=
  (faces.map fun f => ∑ q, interp (P.fc.shapeVals f.2 q) (restrict nn w (P.conn.getD f.1 [])) 2
    * nansonScale (coords nn P.points (P.conn.getD f.1 [])) (P.fc.shapeGradsRef f.2 q) (P.fc.normals f.2)
      (P.fc.quadWeights f.2 q)).sum

end JaxFem.Gradients
