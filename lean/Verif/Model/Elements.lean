import Verif.Arr

/-!
# Element tables and node reordering

`basis.py:19-124,141-250`. Cell data of basix (vertices, facets, positions of the degrees of freedom)
are the documented ones.
-/

namespace JaxFem

/-- `basix.CellType` as used. -/
inductive CellType where
  | interval | triangle | quadrilateral | tetrahedron | hexahedron
  deriving DecidableEq, Repr

/-- `basix.ElementFamily` as used. -/
inductive Family where
  | P | serendipity
  deriving DecidableEq, Repr

/-- The tuple returned by `get_elements`. -/
structure ElementInfo where
  family : Family
  ele : CellType
  faceEle : CellType
  quadratureOrder : Nat
  degree : Nat
  reOrder : List Nat
  deriving DecidableEq, Repr

/-- `get_elements(ele_type)` (`basis.py:19-114`). -/
def getElements (eleType : String) : Except Err ElementInfo :=
  if eleType = "HEX8" then
    .ok ⟨.P, .hexahedron, .quadrilateral, 2, 1, [0, 1, 3, 2, 4, 5, 7, 6]⟩
  else if eleType = "HEX27" then
    .ok ⟨.P, .hexahedron, .quadrilateral, 10, 2, [0, 1, 3, 2, 4, 5, 7, 6, 8, 11, 13, 9, 16, 18, 19,
      17, 10, 12, 15, 14, 22, 23, 21, 24, 20, 25, 26]⟩
  else if eleType = "HEX20" then
    .ok ⟨.serendipity, .hexahedron, .quadrilateral, 2, 2,
      [0, 1, 3, 2, 4, 5, 7, 6, 8, 11, 13, 9, 16, 18, 19, 17, 10, 12, 15, 14]⟩
  else if eleType = "TET4" then
    .ok ⟨.P, .tetrahedron, .triangle, 0, 1, [0, 1, 2, 3]⟩
  else if eleType = "TET10" then
    .ok ⟨.P, .tetrahedron, .triangle, 2, 2, [0, 1, 2, 3, 9, 6, 8, 7, 5, 4]⟩
  else if eleType = "QUAD4" then
    .ok ⟨.P, .quadrilateral, .interval, 2, 1, [0, 1, 3, 2]⟩
  else if eleType = "QUAD8" then
    .ok ⟨.serendipity, .quadrilateral, .interval, 2, 2, [0, 1, 3, 2, 4, 6, 7, 5]⟩
  else if eleType = "TRI3" then
    .ok ⟨.P, .triangle, .interval, 0, 1, [0, 1, 2]⟩
  else if eleType = "TRI6" then
    .ok ⟨.P, .triangle, .interval, 2, 2, [0, 1, 2, 5, 3, 4]⟩
  else .error .notImplemented

/-- `onp.argwhere(re_order == ind)`: the positions holding `ind`. -/
def positions (reOrder : List Nat) (ind : Nat) : List Nat :=
  (List.range reOrder.length).filter fun i => reOrder.getD i 0 == ind

/-- `reorder_inds(inds, re_order)` (`basis.py:117-124`) for an array of shape `(n, m)`. `onp.array` of a
ragged list raises, and so does `reshape` when the number of found positions is not `n·m`. -/
def reorderInds (inds : List (List Nat)) (m : Nat) (reOrder : List Nat) : Except Err (List (List Nat)) :=
  let newInds := inds.flatten.map (positions reOrder)
  if newInds.all fun l => l.length == (newInds.headD []).length then
    let flat := newInds.flatten
    if flat.length = inds.length * m then .ok (chunks m inds.length flat) else .error .value
  else .error .value

/-- `basix.geometry(cell)`: vertices of the reference cell, in half units (so that edge midpoints are
integral). -/
def basixVertices : CellType → List (List Nat)
  | .interval => [[0], [2]]
  | .triangle => [[0, 0], [2, 0], [0, 2]]
  | .quadrilateral => [[0, 0], [2, 0], [0, 2], [2, 2]]
  | .tetrahedron => [[0, 0, 0], [2, 0, 0], [0, 2, 0], [0, 0, 2]]
  | .hexahedron => [[0, 0, 0], [2, 0, 0], [0, 2, 0], [2, 2, 0], [0, 0, 2], [2, 0, 2], [0, 2, 2], [2, 2, 2]]

/-- `basix.topology(cell)[1]`: edges. -/
def basixEdges : CellType → List (List Nat)
  | .interval => [[0, 1]]
  | .triangle => [[1, 2], [0, 2], [0, 1]]
  | .quadrilateral => [[0, 1], [0, 2], [1, 3], [2, 3]]
  | .tetrahedron => [[2, 3], [1, 3], [1, 2], [0, 3], [0, 2], [0, 1]]
  | .hexahedron => [[0, 1], [0, 2], [0, 4], [1, 3], [1, 5], [2, 3], [2, 6], [3, 7], [4, 5], [4, 6],
      [5, 7], [6, 7]]

/-- Quadrilateral faces (only these carry a degree-2 Lagrange point). -/
def basixQuadFaces : CellType → List (List Nat)
  | .quadrilateral => [[0, 1, 2, 3]]
  | .hexahedron => [[0, 1, 2, 3], [0, 1, 4, 5], [0, 2, 4, 6], [1, 3, 5, 7], [2, 3, 6, 7], [4, 5, 6, 7]]
  | _ => []

/-- `[f[0] for f in basix.cell.sub_entity_connectivity(cell)[dim - 1]]`: facets. -/
def basixFacets : CellType → List (List Nat)
  | .interval => [[0], [1]]
  | .triangle => basixEdges .triangle
  | .quadrilateral => basixEdges .quadrilateral
  | .tetrahedron => [[1, 2, 3], [0, 2, 3], [0, 1, 3], [0, 1, 2]]
  | .hexahedron => basixQuadFaces .hexahedron

/-- Centre of the entity with the given vertices (in half units). -/
def entityCentre (vs : List (List Nat)) (ent : List Nat) : List Nat :=
  let ps := ent.map fun v => vs.getD v []
  (ps.headD []).mapIdx fun i _ => (ps.map fun p => p.getD i 0).sum / ps.length

/-- Location of each basix degree of freedom: vertices, then (degree 2) edge midpoints, then for the
Lagrange family the centres of quadrilateral faces and of the hexahedron. For the serendipity family
the functional on an edge is the mean over the edge; its location is the midpoint. -/
def basixPoints (info : ElementInfo) : List (List Nat) :=
  let vs := basixVertices info.ele
  let edges := if info.degree = 2 then (basixEdges info.ele).map (entityCentre vs) else []
  let inner := if info.degree = 2 ∧ info.family = .P then
    (basixQuadFaces info.ele).map (entityCentre vs) ++
      (if info.ele = .hexahedron then [entityCentre vs (List.range 8)] else [])
    else []
  vs ++ edges ++ inner

/-- `face_inds` of `get_face_shape_vals_and_grads` (`basis.py:206-238`). -/
def elementFaceInds (info : ElementInfo) : Except Err (List (List Nat)) :=
  let facets := basixFacets info.ele
  reorderInds facets (facets.headD []).length info.reOrder

/-- `element.tabulate(...)[:, :, re_order, :]` (`basis.py:169,242`): function number `i` of the code is
basix function number `re_order[i]`. -/
def reorderedShape {α : Type} (phi : Nat → α) (reOrder : List Nat) (i : Nat) : α := phi (reOrder.getD i 0)

/-- `get_meshio_cell_type(ele_type)` (`generate_mesh.py:83-117`). -/
def getMeshioCellType (eleType : String) : Except Err String :=
  if eleType = "TET4" then .ok "tetra"
  else if eleType = "TET10" then .ok "tetra10"
  else if eleType = "HEX8" then .ok "hexahedron"
  else if eleType = "HEX27" then .ok "hexahedron27"
  else if eleType = "HEX20" then .ok "hexahedron20"
  else if eleType = "TRI3" then .ok "triangle"
  else if eleType = "TRI6" then .ok "triangle6"
  else if eleType = "QUAD4" then .ok "quad"
  else if eleType = "QUAD8" then .ok "quad8"
  else .error .notImplemented

end JaxFem
