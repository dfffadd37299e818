import Mathlib.Algebra.BigOperators.Group.Finset.Basic
import Mathlib.Algebra.Field.Defs
import Verif.Model.Elements

/-!
# Polynomials of degree at most two in the coordinates
-/

namespace JaxFem

/-- Dimension of a cell type. -/
def cellDim : CellType → Nat
  | .interval => 1
  | .triangle | .quadrilateral => 2
  | .tetrahedron | .hexahedron => 3

variable {K : Type} [Field K]

/-- The polynomial `c0 + ∑ c1 i * x i + ∑ c2 i j * x i * x j` in `dim` coordinates. -/
def quadPoly (dim : Nat) (c0 : K) (c1 : Nat → K) (c2 : Nat → Nat → K) (x : Nat → K) : K :=
  c0 + (∑ i ∈ Finset.range dim, c1 i * x i) +
    ∑ i ∈ Finset.range dim, ∑ j ∈ Finset.range dim, c2 i j * x i * x j

/-- Its derivative with respect to coordinate `d`. -/
def quadPolyGrad (dim : Nat) (c1 : Nat → K) (c2 : Nat → Nat → K) (x : Nat → K) (d : Nat) : K :=
  c1 d + ∑ j ∈ Finset.range dim, (c2 d j + c2 j d) * x j

end JaxFem
