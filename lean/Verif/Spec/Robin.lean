import Verif.Spec.Variational
import Mathlib.Analysis.SpecialFunctions.Trigonometric.Basic

/-!
# Specification: weak form of Poisson's equation with the flux `-∂u/∂n = 5 u²` at the sides
-/

namespace JaxFem.Robin

variable {nq nfq nn : Nat}

/-- The source. -/
noncomputable def source (x y : ℝ) : ℝ :=
  x * Real.sin (5 * Real.pi * y) + Real.exp (-((x - 1 / 2) ^ 2 + (y - 1 / 2) ^ 2) / (1 / 50))

/-- Gradient of a nodal field at a quadrature point. -/
noncomputable def grad (points : List (Fin 2 → ℝ)) (el : RefElement ℝ nq nn 2) (v : Nat → Fin 1 → ℝ) (c : List Nat) (q : Fin nq) :
    Matrix (Fin 1) (Fin 2) ℝ :=
  physGrad (coords nn points c) (Matrix.of (el.shapeGradsRef q)) (restrict nn v c)

/-- Value of a nodal field at a quadrature point of a face. -/
noncomputable def faceValue (cells : List (List Nat)) (fc : RefFaces ℝ nfq nn 2) (v : Nat → Fin 1 → ℝ) (f : Nat × Nat) (q : Fin nfq) : ℝ :=
  interp (fc.shapeVals f.2 q) (restrict nn v (cells.getD f.1 [])) 0

/-- Measure of a quadrature point of a face (C12). -/
noncomputable def faceMeasure (points : List (Fin 2 → ℝ)) (cells : List (List Nat)) (fc : RefFaces ℝ nfq nn 2) (f : Nat × Nat)
    (q : Fin nfq) : ℝ :=
  nansonScale (coords nn points (cells.getD f.1 [])) (fc.shapeGradsRef f.2 q) (fc.normals f.2) (fc.quadWeights f.2 q)

/-- `∫ ∇u·∇v - ∫ f v + ∫_sides 5 u² v`. -/
noncomputable def form (points : List (Fin 2 → ℝ)) (cells : List (List Nat)) (el : RefElement ℝ nq nn 2) (fc : RefFaces ℝ nfq nn 2)
    (sides : List (Nat × Nat)) (u v : Nat → Fin 1 → ℝ) : ℝ :=
  (cells.map fun c => cellIntegral el points c fun q =>
      grad points el u c q 0 0 * grad points el v c q 0 0 + grad points el u c q 0 1 * grad points el v c q 0 1).sum
    - (cells.map fun c => cellIntegral el points c fun q =>
      source (positionIn (el.shapeVals q) (coords nn points c) 0) (positionIn (el.shapeVals q) (coords nn points c) 1)
        * interp (el.shapeVals q) (restrict nn v c) 0).sum
    + (sides.map fun f => ∑ q, 5 * faceValue cells fc u f q ^ 2 * faceValue cells fc v f q * faceMeasure points cells fc f q).sum

/-- A node of the lower or upper edge of the unit square (up to the tolerance). -/
def AtEnds (points : List (Fin 2 → ℝ)) (n : Nat) : Prop :=
  n < points.length ∧ (|points.getD n 0 1| ≤ 1 / 100000 ∨ |points.getD n 0 1 - 1| ≤ 2 / 100000)

/-- Face `f` of cell `c` exists and all its nodes have an `x` within `tol` of `x₀`. -/
def SideFace (points : List (Fin 2 → ℝ)) (cells faceInds : List (List Nat)) (x₀ tol : ℝ) (c f : Nat) : Prop :=
  ∃ cell face, cells[c]? = some cell ∧ faceInds[f]? = some face ∧
    ∀ a ∈ face, ∃ n p, cell[a]? = some n ∧ points[n]? = some p ∧ |p 0 - x₀| ≤ tol

/-- Requirements on mesh and tables. -/
structure Sound (points : List (Fin 2 → ℝ)) (cells : List (List Nat)) (el : RefElement ℝ nq nn 2) : Prop where
  nonempty : cells ≠ []
  length : ∀ c ∈ cells, c.length = nn
  valid : ∀ c ∈ cells, ∀ n ∈ c, n < points.length
  positive : ∀ c ∈ cells, ∀ q,
    0 < (mapJacobian (coords nn points c) (Matrix.of (el.shapeGradsRef q))).det * el.quadWeights q

end JaxFem.Robin
