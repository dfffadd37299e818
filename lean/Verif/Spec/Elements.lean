/-!
# Node numbering of the meshes (VTK / meshio / Abaqus)

Reference positions in half units, written down from the numbering of the mesh formats: corners
(counterclockwise, bottom then top), then mid-side nodes, then (27-node hexahedron) face centres
x-, x+, y-, y+, z-, z+ and the centre.
-/

namespace JaxFem

/-- meshio names of the cell types and the reference positions of their nodes. -/
def meshNodes : List (String × String × List (List Nat)) :=
  let tri := [[0, 0], [2, 0], [0, 2]]
  let quad := [[0, 0], [2, 0], [2, 2], [0, 2]]
  let tet := [[0, 0, 0], [2, 0, 0], [0, 2, 0], [0, 0, 2]]
  let hex := [[0, 0, 0], [2, 0, 0], [2, 2, 0], [0, 2, 0], [0, 0, 2], [2, 0, 2], [2, 2, 2], [0, 2, 2]]
  let hexE := [[1, 0, 0], [2, 1, 0], [1, 2, 0], [0, 1, 0], [1, 0, 2], [2, 1, 2], [1, 2, 2], [0, 1, 2],
    [0, 0, 1], [2, 0, 1], [2, 2, 1], [0, 2, 1]]
  [("TRI3", "triangle", tri),
   ("TRI6", "triangle6", tri ++ [[1, 0], [1, 1], [0, 1]]),
   ("QUAD4", "quad", quad),
   ("QUAD8", "quad8", quad ++ [[1, 0], [2, 1], [1, 2], [0, 1]]),
   ("TET4", "tetra", tet),
   ("TET10", "tetra10", tet ++ [[1, 0, 0], [1, 1, 0], [0, 1, 0], [0, 0, 1], [1, 0, 1], [0, 1, 1]]),
   ("HEX8", "hexahedron", hex),
   ("HEX20", "hexahedron20", hex ++ hexE),
   ("HEX27", "hexahedron27", hex ++ hexE ++
     [[0, 1, 1], [2, 1, 1], [1, 0, 1], [1, 2, 1], [1, 1, 0], [1, 1, 2], [1, 1, 1]])]

end JaxFem
