import Mathlib.Data.List.Rotate
import Mathlib.Algebra.BigOperators.Fin
import Verif.Spec.RefShapes

/-!
Independent description of conforming meshes of triangles, quadrilaterals, tetrahedra and hexahedra: around an interior node
every side of a cell is covered once in either orientation.
-/

namespace JaxFem.Patch

/-- Sides of a polygon, each directed from a corner to the next one. -/
def polyEdges (cell : List Nat) : List (Nat × Nat) :=
  (List.range cell.length).map fun a => (cell.getD a 0, cell.getD ((a + 1) % cell.length) 0)

/-- Every side that ends at node `n` is traversed as often in one direction as in the other.  In a consistently oriented
conforming mesh of a plane region these are the nodes in the interior. -/
def ClosedEdges (conn : List (List Nat)) (n : Nat) : Prop :=
  ∀ m, (conn.flatMap polyEdges).countP (fun e => decide (e = (n, m)))
    = (conn.flatMap polyEdges).countP fun e => decide (e = (m, n))

/-- Faces of a tetrahedron, corners counterclockwise seen from outside. -/
def tetFaces (cell : List Nat) : List (List Nat) :=
  [[1, 2, 3], [0, 3, 2], [0, 1, 3], [0, 2, 1]].map fun f => f.map fun a => cell.getD a 0

/-- Faces of a hexahedron (bottom corners 0 1 2 3, top corners 4 5 6 7), corners counterclockwise seen from outside. -/
def hexFaces (cell : List Nat) : List (List Nat) :=
  [[0, 3, 2, 1], [4, 5, 6, 7], [0, 1, 5, 4], [1, 2, 6, 5], [2, 3, 7, 6], [3, 0, 4, 7]].map fun f => f.map fun a => cell.getD a 0

/-- Every face with the corner `n` occurs as often as the same face seen from the other side (corners in the opposite cyclic
order).  In a consistently oriented conforming mesh these are the nodes in the interior. -/
def ClosedFaces (faces : List Nat → List (List Nat)) (conn : List (List Nat)) (n : Nat) : Prop :=
  ∀ f : List Nat, n ∈ f → (conn.flatMap faces).countP (fun g => decide (g ~r f))
    = (conn.flatMap faces).countP fun g => decide (g ~r f.reverse)

/-- The first-order elements with a quadrature rule that is good enough, and the meaning of an interior node of their meshes:
simplices with any rule, quadrilaterals with a rule that integrates `1`, `x`, `y`, hexahedra with a rule that integrates
products of quadratic polynomials. -/
inductive FirstOrder {nq : Nat} : {nn dim : Nat} → RefElement ℝ nq nn dim → (List (List Nat) → Nat → Prop) → Prop
  | tri3 (p : Fin nq → Fin 2 → ℝ) (w : Fin nq → ℝ) : FirstOrder (tabulate tri3N tri3G p w) ClosedEdges
  | quad4 (p : Fin nq → Fin 2 → ℝ) (w : Fin nq → ℝ) (h : ∑ q, w q = 1) (h0 : ∑ q, w q * p q 0 = 1 / 2)
      (h1 : ∑ q, w q * p q 1 = 1 / 2) : FirstOrder (tabulate quad4N quad4G p w) ClosedEdges
  | tet4 (p : Fin nq → Fin 3 → ℝ) (w : Fin nq → ℝ) : FirstOrder (tabulate tet4N tet4G p w) (ClosedFaces tetFaces)
  | hex8 (p : Fin nq → Fin 3 → ℝ) (w : Fin nq → ℝ)
      (h : ∀ i j k : Fin 3, ∑ q, w q * (p q 0 ^ (i : Nat) * p q 1 ^ (j : Nat) * p q 2 ^ (k : Nat))
        = 1 / (((i : Nat) + 1) * ((j : Nat) + 1) * ((k : Nat) + 1))) :
      FirstOrder (tabulate hex8N hex8G p w) (ClosedFaces hexFaces)

end JaxFem.Patch
