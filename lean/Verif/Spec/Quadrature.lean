import Mathlib.Analysis.SpecialFunctions.Integrals.Basic
import Verif.Model.Quadrature
import Verif.Spec.Elastic

/-!
# Integrals over reference cells and exactness of quadrature rules
-/

namespace JaxFem.Quadrature

open scoped BigOperators

/-- Integral over the reference cell. -/
noncomputable def cellIntegral (cell : CellType) (f : (Nat → ℝ) → ℝ) : ℝ :=
  match cell with
  | .interval => ∫ x in (0 : ℝ)..1, f (point [x])
  | .quadrilateral => ∫ x in (0 : ℝ)..1, ∫ y in (0 : ℝ)..1, f (point [x, y])
  | .hexahedron => ∫ x in (0 : ℝ)..1, ∫ y in (0 : ℝ)..1, ∫ z in (0 : ℝ)..1, f (point [x, y, z])
  | .triangle => ∫ x in (0 : ℝ)..1, ∫ y in (0 : ℝ)..(1 - x), f (point [x, y])
  | .tetrahedron => ∫ x in (0 : ℝ)..1, ∫ y in (0 : ℝ)..(1 - x), ∫ z in (0 : ℝ)..(1 - x - y), f (point [x, y, z])

/-- Weighted sum over the points of a rule. -/
noncomputable def quadSum (R : Rule) (f : (Nat → ℝ) → ℝ) : ℝ := (R.map fun p => p.2 * f p.1).sum

/-- The rule gives the integral of `f`. -/
def Exact (cell : CellType) (R : Rule) (f : (Nat → ℝ) → ℝ) : Prop := quadSum R f = cellIntegral cell f

/-- A Gauss rule with `m` points on the unit interval: exact for all powers up to `2 m - 1`. -/
def IsGauss (m : Nat) (g : List (ℝ × ℝ)) : Prop :=
  g.length = m ∧ ∀ k < 2 * m, (g.map fun a => a.2 * a.1 ^ k).sum = 1 / (k + 1)

/-- What the library documents of its default rule for a cell and an order, as far as it is used: Gauss rules in every direction, and
from order 3 on rules on simplices that are exact for all monomials up to their order. -/
def Documented (b : Basix) (cell : CellType) (order : Nat) : Prop :=
  match cell with
  | .triangle => 2 < order → ∀ i j : Nat, i + j ≤ order →
      Exact .triangle (b.xiaoGimbutas .triangle order) fun x => x 0 ^ i * x 1 ^ j
  | .tetrahedron => 2 < order → ∀ i j k : Nat, i + j + k ≤ order →
      Exact .tetrahedron (b.xiaoGimbutas .tetrahedron order) fun x => x 0 ^ i * x 1 ^ j * x 2 ^ k
  | _ => IsGauss ((order + 2) / 2) (b.gauss ((order + 2) / 2))

/-- Triangles and tetrahedra. -/
def Simplex (cell : CellType) : Prop := cell = .triangle ∨ cell = .tetrahedron

/-- Mode of a cell that does not deform it at the points of the rule: nodal displacements `U` with zero strain at all points
that are not those of a rigid motion. -/
def SpuriousMode {nq nn dim : Nat} (el : RefElement ℝ nq nn dim) (X U : Fin nn → Fin dim → ℝ) : Prop :=
  (∀ q, symPart (physGrad (Matrix.of X) (Matrix.of (el.shapeGradsRef q)) (Matrix.of U)) = 0) ∧ ¬ RigidMotion X U

end JaxFem.Quadrature
