import Verif.Spec.Variational
import Verif.Spec.Hyper
import Verif.Spec.Inverse

/-!
# Specification: tractions on the boundary of a solid
-/

namespace JaxFem.Traction

open scoped BigOperators

variable {nq nfq nn : Nat}

/-- Vertical component of the field `v` at quadrature point `q` of the boundary face `f = (cell, local face)`. -/
noncomputable def vertical (P : Problem1 ℝ nq nfq nn 3 3) (f : Nat × Nat) (q : Fin nfq) (v : Nat → Fin 3 → ℝ) : ℝ :=
  interp (P.fc.shapeVals f.2 q) (restrict nn v (P.conn.getD f.1 [])) 1

/-- Area that belongs to quadrature point `q` of the boundary face `f`. -/
noncomputable def area (P : Problem1 ℝ nq nfq nn 3 3) (f : Nat × Nat) (q : Fin nfq) : ℝ :=
  nansonScale (coords nn P.points (P.conn.getD f.1 [])) (P.fc.shapeGradsRef f.2 q) (P.fc.normals f.2)
    (P.fc.quadWeights f.2 q)

/-- Work of the vertical tractions `θ` on the field `v`. -/
noncomputable def tractionWork (P : Problem1 ℝ nq nfq nn 3 3) (faces : List (Nat × Nat))
    (θ : Fin faces.length → Fin nfq → ℝ) (v : Nat → Fin 3 → ℝ) : ℝ :=
  ∑ i, ∑ q, θ i q * vertical P faces[i] q v * area P faces[i] q

/-- Value of the field `v` at quadrature point `q` of cell `c`. -/
noncomputable def fieldAt (P : Problem1 ℝ nq nfq nn 3 3) (v : Nat → Fin 3 → ℝ) (c : Fin P.cells.length) (q : Fin nq) :
    Fin 3 → ℝ :=
  interp (P.el.shapeVals q) (restrict nn v (P.cells[c]).nodes)

/-- Integral of `u · v`. -/
noncomputable def product (P : Problem1 ℝ nq nfq nn 3 3) (u v : Nat → Fin 3 → ℝ) : ℝ :=
  ∑ c, ∑ q, (∑ i, fieldAt P u c q i * fieldAt P v c q i) * P.measureAt c q

/-- All shape functions that do not vanish on the faces belong to nodes in `T`. -/
def SupportedOn (P : Problem1 ℝ nq nfq nn 3 3) (faces : List (Nat × Nat)) (T : Finset Nat) : Prop :=
  ∀ f ∈ faces, ∀ q a, P.fc.shapeVals f.2 q a ≠ 0 → (P.conn.getD f.1 []).getD a 0 ∈ T

end JaxFem.Traction
