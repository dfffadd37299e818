import Verif.Model.Kernel
import Mathlib.Data.Real.Basic

/-!
# Small mesh tools

Cylinder clean-up (`generate_mesh.py:352-361`), orientation check of TET4 meshes
(`generate_mesh.py:58-80`) and orientation repair of triangles (`applications/stokes/example.py:110-167`,
the same text in `applications/wave/example.py:77-129`).
-/

namespace JaxFem

/-- `points = onp.vstack((points[1:14], points[15:]))` (`generate_mesh.py:357`). -/
def cylinderPoints {P : Type} (points : List P) : List P := slice points 1 14 ++ points.drop 15

/-- `onp.where(cells > 14, cells - 2, cells - 1)` (`generate_mesh.py:358`); the connectivity of meshio
is a signed integer array. -/
def cylinderCells (cells : List (List Int)) : List (List Int) :=
  cells.map fun c => c.map fun i => if i > 14 then i - 2 else i - 1

/-- NumPy indexing with a possibly negative integer; `none` is an `IndexError`. -/
def pyGet {P : Type} (points : List P) (i : Int) : Option P :=
  if 0 ≤ i then points[i.toNat]? else if -(points.length : Int) ≤ i then points[(points.length + i).toNat]?
  else none

section Tet
variable {K : Type} [Field K]

/-- `np.cross` of 3-vectors. -/
def cross3 (u v : Fin 3 → K) : Fin 3 → K :=
  ![u 1 * v 2 - u 2 * v 1, u 2 * v 0 - u 0 * v 2, u 0 * v 1 - u 1 * v 0]

/-- `quality(pts)` (`generate_mesh.py:71-77`). -/
def tetQuality (pts : Fin 4 → Fin 3 → K) : K :=
  let v1 := pts 1 - pts 0
  let v2 := pts 2 - pts 0
  let v12 := cross3 v1 v2
  let v3 := pts 3 - pts 0
  ∑ i, v12 i * v3 i

/-- `check_mesh_TET4(points, cells)` (`generate_mesh.py:58-80`); unpacking raises for cells that do not
have four nodes. -/
def checkMeshTET4 (points : List (Fin 3 → K)) (cells : List (List Nat)) : Except Err (List K) :=
  if cells.all fun c => c.length == 4 then
    .ok (cells.map fun c => tetQuality (physicalCoos 4 points c))
  else .error .value

end Tet

section Tri
variable {K : Type} [Field K] [LinearOrder K]

/-- `orientation(p1, p2, p3)` (`stokes/example.py:119-135`). -/
def orientation (p1 p2 p3 : K × K) : Nat :=
  let val := (p2.2 - p1.2) * (p3.1 - p2.1) - (p2.1 - p1.1) * (p3.2 - p2.2)
  if val > 0 then 1 else if val < 0 then 2 else 0

/-- `cell[[...]]`. -/
def takeInds (cell : List Nat) (inds : List Nat) : List Nat := inds.map fun i => cell.getD i 0

/-- Body of the loop of `transform_cells` (`stokes/example.py:141-165`); `exit()` is an error. -/
def transformCell (points : List (K × K)) (eleType : String) (cell : List Nat) : Except Err (List Nat) :=
  let pt := fun i => points.getD (cell.getD i 0) (0, 0)
  let o := orientation (pt 0) (pt 1) (pt 2)
  if o = 0 then .error .runtime
  else if o = 1 then
    if eleType = "TRI3" then .ok (takeInds cell [0, 2, 1])
    else if eleType = "TRI6" then .ok (takeInds cell [0, 2, 1, 5, 4, 3])
    else .error .runtime
  else .ok cell

/-- `transform_cells(cells, points, ele_type)` (`stokes/example.py:137-167`); `onp.stack` of an empty list
raises. -/
def transformCells (cells : List (List Nat)) (points : List (K × K)) (eleType : String) :
    Except Err (List (List Nat)) := do
  let newCells ← cells.mapM (transformCell points eleType)
  if newCells = [] then .error .value else .ok newCells

end Tri

end JaxFem
