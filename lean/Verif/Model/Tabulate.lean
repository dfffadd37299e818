import Verif.Model.Elements
import Verif.Model.Kernel

/-!
# Tabulation of the elements on cells and facets

Model of `get_shape_vals_and_grads` (`basis.py:141-175`) and of `get_face_shape_vals_and_grads`
(`basis.py:178-250`, values, gradients, facet points). The functions of basix are given by their documented
formulas: the Lagrange functions of degree 1 and 2 (the theorems confirm that these are the nodal basis at the
points of `basixPoints`) and the serendipity functions of degree 2, whose degrees of freedom are the values at the
vertices and the *mean values* on the edges. Points are functions of the coordinate number.
-/

namespace JaxFem

variable {K : Type} [Field K]

/-- Lagrange function on the unit interval for the node at `pos / 2`. -/
def lag1 (deg pos : Nat) (x : K) : K :=
  if deg = 1 then (if pos = 0 then 1 - x else if pos = 2 then x else 0)
  else if pos = 0 then (1 - x) * (1 - 2 * x) else if pos = 1 then 4 * x * (1 - x)
  else if pos = 2 then x * (2 * x - 1) else 0

/-- Factor of a Lagrange function on a simplex belonging to one barycentric coordinate `l`, for a node with
barycentric coordinate `pos / 2`. -/
def bary (deg pos : Nat) (l : K) : K :=
  if pos = 0 then 1
  else if deg = 1 then (if pos = 2 then l else 0)
  else if pos = 1 then 2 * l else if pos = 2 then l * (2 * l - 1) else 0

/-- Lagrange function of degree `deg` on a cell for the node at position `pos` (in half units). -/
def lagrangeFn (cell : CellType) (deg : Nat) (pos : List Nat) (p : Nat → K) : K :=
  match cell with
  | .interval => lag1 deg (pos.getD 0 0) (p 0)
  | .quadrilateral => lag1 deg (pos.getD 0 0) (p 0) * lag1 deg (pos.getD 1 0) (p 1)
  | .hexahedron => lag1 deg (pos.getD 0 0) (p 0) * lag1 deg (pos.getD 1 0) (p 1) * lag1 deg (pos.getD 2 0) (p 2)
  | .triangle => bary deg (2 - pos.getD 0 0 - pos.getD 1 0) (1 - p 0 - p 1) * bary deg (pos.getD 0 0) (p 0) *
      bary deg (pos.getD 1 0) (p 1)
  | .tetrahedron => bary deg (2 - pos.getD 0 0 - pos.getD 1 0 - pos.getD 2 0) (1 - p 0 - p 1 - p 2) *
      bary deg (pos.getD 0 0) (p 0) * bary deg (pos.getD 1 0) (p 1) * bary deg (pos.getD 2 0) (p 2)

/-- Derivative of `lag1`. -/
def dlag1 (deg pos : Nat) (x : K) : K :=
  if deg = 1 then (if pos = 0 then -1 else if pos = 2 then 1 else 0)
  else if pos = 0 then 4 * x - 3 else if pos = 1 then 4 - 8 * x
  else if pos = 2 then 4 * x - 1 else 0

/-- Derivative of `bary`. -/
def dbary (deg pos : Nat) (l : K) : K :=
  if pos = 0 then 0
  else if deg = 1 then (if pos = 2 then 1 else 0)
  else if pos = 1 then 2 else if pos = 2 then 4 * l - 1 else 0

/-- Partial derivative of `lagrangeFn` with respect to coordinate `d`. -/
def lagrangeGrad (cell : CellType) (deg : Nat) (pos : List Nat) (p : Nat → K) (d : Nat) : K :=
  let a := pos.getD 0 0
  let b := pos.getD 1 0
  let c := pos.getD 2 0
  match cell with
  | .interval => if d = 0 then dlag1 deg a (p 0) else 0
  | .quadrilateral => if d = 0 then dlag1 deg a (p 0) * lag1 deg b (p 1)
      else if d = 1 then lag1 deg a (p 0) * dlag1 deg b (p 1) else 0
  | .hexahedron => if d = 0 then dlag1 deg a (p 0) * lag1 deg b (p 1) * lag1 deg c (p 2)
      else if d = 1 then lag1 deg a (p 0) * dlag1 deg b (p 1) * lag1 deg c (p 2)
      else if d = 2 then lag1 deg a (p 0) * lag1 deg b (p 1) * dlag1 deg c (p 2) else 0
  | .triangle =>
    let l := 1 - p 0 - p 1
    let z := 2 - a - b
    if d = 0 then (bary deg z l * dbary deg a (p 0) - dbary deg z l * bary deg a (p 0)) * bary deg b (p 1)
    else if d = 1 then (bary deg z l * dbary deg b (p 1) - dbary deg z l * bary deg b (p 1)) * bary deg a (p 0)
    else 0
  | .tetrahedron =>
    let l := 1 - p 0 - p 1 - p 2
    let z := 2 - a - b - c
    if d = 0 then (bary deg z l * dbary deg a (p 0) - dbary deg z l * bary deg a (p 0)) *
      (bary deg b (p 1) * bary deg c (p 2))
    else if d = 1 then (bary deg z l * dbary deg b (p 1) - dbary deg z l * bary deg b (p 1)) *
      (bary deg a (p 0) * bary deg c (p 2))
    else if d = 2 then (bary deg z l * dbary deg c (p 2) - dbary deg z l * bary deg c (p 2)) *
      (bary deg a (p 0) * bary deg b (p 1))
    else 0

/-- Factor of a serendipity function of degree 2 in one coordinate: linear at the two ends, a bubble of mean value
one at the middle. -/
def ser1 (pos : Nat) (x : K) : K :=
  if pos = 0 then 1 - x else if pos = 1 then 6 * x * (1 - x) else if pos = 2 then x else 0

/-- Its derivative. -/
def dser1 (pos : Nat) (x : K) : K :=
  if pos = 0 then -1 else if pos = 1 then 6 - 12 * x else if pos = 2 then 1 else 0

/-- Distance from the end `pos / 2` of the unit interval. -/
def away (pos : Nat) (x : K) : K := if pos = 0 then x else 1 - x

/-- Its derivative. -/
def daway (pos : Nat) : K := if pos = 0 then 1 else -1

/-- Serendipity function of degree 2 for the vertex or the edge at position `pos` (in half units): dual to the
values at the vertices and to the mean values on the edges. -/
def serendipityFn (cell : CellType) (pos : List Nat) (p : Nat → K) : K :=
  let a := pos.getD 0 0
  let b := pos.getD 1 0
  let c := pos.getD 2 0
  match cell with
  | .quadrilateral => ser1 a (p 0) * ser1 b (p 1) *
      (if 1 ∈ pos then 1 else 1 - 3 * away a (p 0) - 3 * away b (p 1))
  | .hexahedron => ser1 a (p 0) * ser1 b (p 1) * ser1 c (p 2) *
      (if 1 ∈ pos then 1 else 1 - 3 * away a (p 0) - 3 * away b (p 1) - 3 * away c (p 2))
  | _ => 0

/-- Partial derivative of `serendipityFn` with respect to coordinate `d`. -/
def serendipityGrad (cell : CellType) (pos : List Nat) (p : Nat → K) (d : Nat) : K :=
  let a := pos.getD 0 0
  let b := pos.getD 1 0
  let c := pos.getD 2 0
  match cell with
  | .quadrilateral =>
    let m : K := if 1 ∈ pos then 1 else 1 - 3 * away a (p 0) - 3 * away b (p 1)
    if d = 0 then dser1 a (p 0) * ser1 b (p 1) * m
      + ser1 a (p 0) * ser1 b (p 1) * (if 1 ∈ pos then 0 else -3 * daway a)
    else if d = 1 then ser1 a (p 0) * dser1 b (p 1) * m
      + ser1 a (p 0) * ser1 b (p 1) * (if 1 ∈ pos then 0 else -3 * daway b)
    else 0
  | .hexahedron =>
    let m : K := if 1 ∈ pos then 1 else 1 - 3 * away a (p 0) - 3 * away b (p 1) - 3 * away c (p 2)
    let s := ser1 a (p 0) * ser1 b (p 1) * ser1 c (p 2)
    if d = 0 then dser1 a (p 0) * ser1 b (p 1) * ser1 c (p 2) * m + s * (if 1 ∈ pos then 0 else -3 * daway a)
    else if d = 1 then ser1 a (p 0) * dser1 b (p 1) * ser1 c (p 2) * m + s * (if 1 ∈ pos then 0 else -3 * daway b)
    else if d = 2 then ser1 a (p 0) * ser1 b (p 1) * dser1 c (p 2) * m + s * (if 1 ∈ pos then 0 else -3 * daway c)
    else 0
  | _ => 0

/-- Basix function number `k` (`basix.create_element`, `element.tabulate`, `basis.py:168-169`). -/
def basixShape (info : ElementInfo) (k : Nat) (p : Nat → K) : K :=
  match info.family with
  | .P => lagrangeFn info.ele info.degree ((basixPoints info).getD k []) p
  | .serendipity => serendipityFn info.ele ((basixPoints info).getD k []) p

/-- Its derivative with respect to coordinate `d` (`element.tabulate(1, …)`). -/
def basixGrad (info : ElementInfo) (d k : Nat) (p : Nat → K) : K :=
  match info.family with
  | .P => lagrangeGrad info.ele info.degree ((basixPoints info).getD k []) p d
  | .serendipity => serendipityGrad info.ele ((basixPoints info).getD k []) p d

/-- `shape_values` (`basis.py:169-170`) at a point: the reordered functions. -/
def shapeValue (info : ElementInfo) (i : Nat) (p : Nat → K) : K :=
  reorderedShape (fun k => basixShape info k p) info.reOrder i

/-- `shape_grads_ref` (`basis.py:169-171`) at a point: the derivatives in the same order. -/
def shapeGrad (info : ElementInfo) (i : Nat) (p : Nat → K) (d : Nat) : K :=
  reorderedShape (fun k => basixGrad info d k p) info.reOrder i

/-- `values` (`basis.py:211-213`): first-order Lagrange functions of the facet. -/
def facetValue (info : ElementInfo) (k : Nat) (xi : Nat → K) : K :=
  lagrangeFn info.faceEle 1 ((basixVertices info.faceEle).getD k []) xi

/-- `mapped_point` (`basis.py:224-226`) of facet `f` for the facet point `xi`. -/
def mappedPoint (info : ElementInfo) (f : Nat) (xi : Nat → K) : Nat → K := fun d =>
  (((basixFacets info.ele).getD f []).mapIdx fun k v =>
    ((((basixVertices info.ele).getD v []).getD d 0 : Nat) : K) / 2 * facetValue info k xi).sum

/-- `face_shape_vals` (`basis.py:244-246`) at the facet point `xi`. -/
def faceShapeValue (info : ElementInfo) (f i : Nat) (xi : Nat → K) : K :=
  shapeValue info i (mappedPoint info f xi)

/-- `face_shape_grads_ref` (`basis.py:246-247`) at the facet point `xi`. -/
def faceShapeGrad (info : ElementInfo) (f i : Nat) (xi : Nat → K) (d : Nat) : K :=
  shapeGrad info i (mappedPoint info f xi) d

/-- A point given by `Fin` coordinates as a function of the coordinate number. -/
def extend {dim : Nat} (p : Fin dim → K) (d : Nat) : K := if h : d < dim then p ⟨d, h⟩ else 0

/-- The result of `get_shape_vals_and_grads` (`basis.py:141-175`) for quadrature points `pts` and weights `w`. -/
def tabulateInfo {nq nn dim : Nat} (info : ElementInfo) (pts : Fin nq → Fin dim → K) (w : Fin nq → K) :
    RefElement K nq nn dim where
  shapeVals q a := shapeValue info a (extend (pts q))
  shapeGradsRef q a d := shapeGrad info a (extend (pts q)) d
  quadWeights := w

/-- The values and gradients of `get_face_shape_vals_and_grads` (`basis.py:178-250`) for facet points `pts`. -/
def tabulateFaces {nfq nn dim fdim : Nat} (info : ElementInfo) (pts : Fin nfq → Fin fdim → K)
    (w : Nat → Fin nfq → K) (normals : Nat → Fin dim → K) : RefFaces K nfq nn dim where
  shapeVals f q a := faceShapeValue info f a (extend (pts q))
  shapeGradsRef f q a d := faceShapeGrad info f a (extend (pts q)) d
  quadWeights := w
  normals := normals

end JaxFem
