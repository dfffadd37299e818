import Verif.Spec.Elements
import Verif.Model.Tabulate

/-!
# Traces on facets

A facet is given by its vertices (positions in half units). `IsFacetNode vs eta pos` says that the affine
(bilinear) map of the facet takes the facet position `eta` to `pos`.
-/

namespace JaxFem

/-- Weights of the facet vertices at the facet position `eta` (half units), in quarters: barycentric for an
interval and a triangle, bilinear for a quadrilateral (vertices in tensor order). -/
def facetWeights : CellType → List Nat → List Nat
  | .interval, [a] => [2 * (2 - a), 2 * a]
  | .triangle, [a, b] => [2 * (2 - a - b), 2 * a, 2 * b]
  | .quadrilateral, [a, b] => [(2 - a) * (2 - b), a * (2 - b), (2 - a) * b, a * b]
  | _, _ => []

/-- Positions of the nodes of degree `deg` on a facet. -/
def facetPositions : CellType → Nat → List (List Nat)
  | .interval, 1 => [[0], [2]]
  | .interval, 2 => [[0], [1], [2]]
  | .triangle, 1 => [[0, 0], [2, 0], [0, 2]]
  | .triangle, 2 => [[0, 0], [2, 0], [0, 2], [1, 0], [0, 1], [1, 1]]
  | .quadrilateral, 1 => [[0, 0], [2, 0], [0, 2], [2, 2]]
  | .quadrilateral, 2 => [[0, 0], [2, 0], [0, 2], [2, 2], [1, 0], [0, 1], [2, 1], [1, 2], [1, 1]]
  | _, _ => []

/-- `pos` is the point of the facet with vertices `vs` (of shape `cell`) at facet position `eta`. -/
def IsFacetNode (cell : CellType) (vs : List (List Nat)) (eta pos : List Nat) : Prop :=
  ∀ d, d < pos.length → 4 * pos.getD d 0 =
    ((facetWeights cell eta).zip vs |>.map fun p => p.1 * p.2.getD d 0).sum

instance (cell : CellType) (vs : List (List Nat)) (eta pos : List Nat) : Decidable (IsFacetNode cell vs eta pos) :=
  inferInstanceAs (Decidable (∀ d, d < pos.length → _))

/-- Ways in which the vertices of a facet can be matched with those of the same facet seen from the neighbouring
cell: vertex `k` is vertex `σ[k]` of the neighbour (all permutations of an interval and of a triangle, the
rotations and reflections of a quadrilateral with vertices in tensor order). -/
def facetMatchings : CellType → List (List Nat)
  | .interval => [[0, 1], [1, 0]]
  | .triangle => [[0, 1, 2], [0, 2, 1], [1, 0, 2], [1, 2, 0], [2, 0, 1], [2, 1, 0]]
  | .quadrilateral => [[0, 1, 2, 3], [1, 0, 3, 2], [2, 3, 0, 1], [3, 2, 1, 0], [0, 2, 1, 3], [2, 0, 3, 1],
      [1, 3, 0, 2], [3, 1, 2, 0]]
  | _ => []

/-- Facet positions seen from both sides are the same point: equal weights of the matched vertices. -/
def SamePosition (cell : CellType) (σ eta eta' : List Nat) : Prop :=
  ∀ k, k < σ.length → (facetWeights cell eta).getD k 0 = (facetWeights cell eta').getD (σ.getD k 0) 0

instance (cell : CellType) (σ eta eta' : List Nat) : Decidable (SamePosition cell σ eta eta') :=
  inferInstanceAs (Decidable (∀ k, k < σ.length → _))

/-- Facet points seen from both sides are the same: equal first-order functions of the matched vertices. -/
def SamePoint {K : Type} [Field K] (cell : CellType) (σ : List Nat) (xi xi' : Nat → K) : Prop :=
  ∀ k, k < σ.length → lagrangeFn cell 1 ((basixVertices cell).getD k []) xi =
    lagrangeFn cell 1 ((basixVertices cell).getD (σ.getD k 0) []) xi'

/-- Vertices of facet `f` of the reference cell. -/
def facetVertices (cell : CellType) (f : Nat) : List (List Nat) :=
  ((basixFacets cell).getD f []).map fun v => (basixVertices cell).getD v []

/-- Point with facet coordinates `xi` on facet `f` of the reference cell: start at the first vertex and move along the
edges to the second and (for two-dimensional facets) the third one.  Vertex coordinates are stored doubled. -/
def facetPoint {K : Type} [Field K] (cell : CellType) (f : Nat) (xi : Nat → K) (d : Nat) : K :=
  let v : Nat → K := fun k => (((facetVertices cell f).getD k []).getD d 0 : Nat) / 2
  v 0 + xi 0 * (v 1 - v 0) + if (facetVertices cell f).length = 2 then 0 else xi 1 * (v 2 - v 0)

end JaxFem
