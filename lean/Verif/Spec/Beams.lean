import Verif.Spec.Hyper
import Verif.Spec.TopOpt
import Verif.Spec.BC
import Verif.Model.ArcLength
import Verif.Spec.RefShapes

/-!
# Specification: a beam that is clamped on the left and compressed on the right
-/

namespace JaxFem.Beams

open scoped BigOperators

variable {IV : Type} {nq nfq : Nat}

/-- Node `n` is at abscissa `x`. -/
def AtX (points : List (Fin 2 → ℝ)) (x : ℝ) (n : Nat) : Prop := ∃ p, points[n]? = some p ∧ p 0 = x

/-- Faces of the right end: the right sides of the two last cells. -/
def rightFaces : List (Nat × Nat) := [(98, 2), (99, 2)]

/-- Loaded faces at midspan: the lower sides of the two cells beside the middle. -/
def midFaces : List (Nat × Nat) := [(48, 0), (50, 0)]

/-- First Piola–Kirchhoff stress of the neo-Hookean solid in two dimensions with Young's modulus 1000 and Poisson's ratio 0.3,
for the displacement gradient `G`. -/
noncomputable def piola2 (G : Fin 2 → Fin 2 → ℝ) : Fin 2 → Fin 2 → ℝ :=
  neoHookePiola 2 (1000 / (2 * (1 + 3 / 10))) (1000 / (3 * (1 - 2 * (3 / 10)))) (1 + Matrix.of G)

/-- The deformation is invertible at every quadrature point. -/
def Invertible (P : Problem1 IV nq nfq 4 2 2) (u : Nat → Fin 2 → ℝ) : Prop :=
  ∀ cell ∈ P.cells, ∀ q, (P.defGrad u cell.nodes q).det ≠ 0

/-- Work of the stress in the state `u` on the field `w`. -/
noncomputable def stressWork (P : Problem1 IV nq nfq 4 2 2) (u w : Nat → Fin 2 → ℝ) : ℝ :=
  (P.cells.map fun cell => cellIntegral P.el P.points cell.nodes fun q =>
    contract (piola2 (P.gradient u cell.nodes q)) (P.gradient w cell.nodes q)).sum

/-- Integral of component `i` of `w` over the faces. -/
noncomputable def edgeIntegral (P : Problem1 IV nq nfq 4 2 2) (faces : List (Nat × Nat)) (i : Fin 2) (w : Nat → Fin 2 → ℝ) : ℝ :=
  (faces.map fun f => ∑ q, interp (P.fc.shapeVals f.2 q) (restrict 4 w (P.conn.getD f.1 [])) i
    * nansonScale (coords 4 P.points (P.conn.getD f.1 [])) (P.fc.shapeGradsRef f.2 q) (P.fc.normals f.2)
      (P.fc.quadWeights f.2 q)).sum

/-- The tables of the sides used here are those of the bilinear element: side 0 joins corners 0 and 1, side 2 joins corners 1
and 2; `θ` are the quadrature points on the unit interval and `w` their weights, with sum one. -/
structure SideTables (fc : RefFaces ℝ nfq 4 2) (θ w : Fin nfq → ℝ) : Prop where
  sum : ∑ q, w q = 1
  vals : ∀ (f : Nat) (a b : Fin 4), (f, a, b) ∈ [(0, 0, 1), (2, 1, 2)] → ∀ q, fc.shapeVals f q = quad4N (onSegment (quad4V a) (quad4V b) (θ q))
  grads : ∀ (f : Nat) (a b : Fin 4), (f, a, b) ∈ [(0, 0, 1), (2, 1, 2)] → ∀ q, fc.shapeGradsRef f q = quad4G (onSegment (quad4V a) (quad4V b) (θ q))
  weights : ∀ (f : Nat) (a b : Fin 4), (f, a, b) ∈ [(0, 0, 1), (2, 1, 2)] → ∀ q, fc.quadWeights f q = faceWeight2 (w q) (quad4V b - quad4V a)
  normal : ∀ (f : Nat) (a b : Fin 4), (f, a, b) ∈ [(0, 0, 1), (2, 1, 2)] →
    fc.normals f ⬝ᵥ fc.normals f = 1 ∧ fc.normals f ⬝ᵥ (quad4V b - quad4V a) = 0

/-- The beam is in equilibrium with a horizontal force `-h` per length at the right end and a vertical force `-v` per length
at midspan, for all virtual displacements `w` that vanish where `fixed` says so. -/
def Balanced (P : Problem1 IV nq nfq 4 2 2) (fixed : Nat → Prop) (h v : ℝ) (u : Nat → Fin 2 → ℝ) : Prop :=
  ∀ w : Fin (totalDofs P.fes) → ℝ, (∀ n i, fixed n → P.vecField w n i = 0) →
    stressWork P u (P.vecField w) + h * edgeIntegral P rightFaces 0 (P.vecField w)
      + v * edgeIntegral P midFaces 1 (P.vecField w) = 0

/-- `x` is the state before record `i`: rest, or the previous record. -/
def Before {N : Nat} (history : List (ArcRecord (Fin N → ℝ) ℝ)) (i : Nat) (x : ArcRecord (Fin N → ℝ) ℝ) : Prop :=
  (i = 0 ∧ x.u = 0 ∧ x.lam = 0) ∨ ∃ j, i = j + 1 ∧ history[j]? = some x

/-- The linear solver respects equations of the form `x k = b k`. (The matrix may be singular otherwise, as it is at a
bifurcation point.) -/
def RespectsIdentityRows {N : Nat} (spsolve : Matrix (Fin N) (Fin N) ℝ → (Fin N → ℝ) → Fin N → ℝ) : Prop :=
  ∀ A b k, (∀ j, A k j = if k = j then 1 else 0) → spsolve A b k = b k

end JaxFem.Beams
