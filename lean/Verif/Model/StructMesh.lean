import Mathlib.Algebra.Field.Basic
import Mathlib.Data.Fin.VecNotation
import Verif.Arr

/-!
# Structured meshes

Model of `rectangle_mesh` and `box_mesh` (`jax_fem/generate_mesh.py`, lines 120-189), following the
NumPy index manipulations: arrays of shape `(a, b)` are lists of rows, `[:-1]` is `dropLast`, `[1:]`
is `tail`.
-/

namespace JaxFem

variable {K : Type} [Field K]

/-- `onp.linspace(0, L, N + 1)`: `i * (L / N)` for `i = 0..N` (`generate_mesh.py:135-136`,
`170-172`). For `N = 0` NumPy returns `[0.]`. -/
def linspace (L : K) (N : Nat) : List K := (List.range (N + 1)).map fun i : Nat => (i : K) * (L / N)

/-- `onp.meshgrid(x, y, indexing='ij')`, `stack`, `reshape(-1, 2)` (`generate_mesh.py:137-139`). -/
def gridPoints2 (x y : List K) : List (Fin 2 → K) := x.flatMap fun a => y.map fun b => ![a, b]

/-- `onp.meshgrid(x, y, z, indexing='ij')`, `stack`, `reshape(-1, 3)` (`generate_mesh.py:173-175`). -/
def gridPoints3 (x y z : List K) : List (Fin 3 → K) :=
  x.flatMap fun a => y.flatMap fun b => z.map fun c => ![a, b, c]

/-- `onp.stack(arrays, axis=-1).reshape(-1, len(arrays))` of already flattened arrays
(`generate_mesh.py:146`, `186-187`): row `n` collects entry `n` of every array. -/
def stackLast (arrs : List (List Nat)) : List (List Nat) :=
  (List.range (arrs.headD []).length).map fun n => arrs.map fun a => a.getD n 0

/-- `points_inds.reshape(Nx + 1, Ny + 1)` (`generate_mesh.py:140-141`). -/
def gridInds2 (Nx Ny len : Nat) : List (List Nat) := chunks (Ny + 1) (Nx + 1) (List.range len)

/-- Cells of `rectangle_mesh` (`generate_mesh.py:140-146`). -/
def rectCells (Nx Ny len : Nat) : List (List Nat) :=
  let g := gridInds2 Nx Ny len
  let inds1 := g.dropLast.map List.dropLast
  let inds2 := g.tail.map List.dropLast
  let inds3 := g.tail.map List.tail
  let inds4 := g.dropLast.map List.tail
  stackLast [inds1.flatten, inds2.flatten, inds3.flatten, inds4.flatten]

/-- `rectangle_mesh` (`generate_mesh.py:120-148`): points and cells. -/
def rectangleMesh (Nx Ny : Nat) (Lx Ly : K) : List (Fin 2 → K) × List (List Nat) :=
  let points := gridPoints2 (linspace Lx Nx) (linspace Ly Ny)
  (points, rectCells Nx Ny points.length)

/-- `points_inds.reshape(Nx + 1, Ny + 1, Nz + 1)` (`generate_mesh.py:176-177`). -/
def gridInds3 (Nx Ny Nz len : Nat) : List (List (List Nat)) :=
  (chunks ((Ny + 1) * (Nz + 1)) (Nx + 1) (List.range len)).map (chunks (Nz + 1) (Ny + 1))

/-- Slice one axis: `[:-1]` if `hi = false`, `[1:]` if `hi = true`. -/
def cut {α : Type} (hi : Bool) (l : List α) : List α := if hi then l.tail else l.dropLast

/-- `points_inds_xyz[sx, sy, sz]` flattened, each slice being `[:-1]` or `[1:]`
(`generate_mesh.py:178-185`). -/
def subGrid3 (g : List (List (List Nat))) (sx sy sz : Bool) : List Nat :=
  ((cut sx g).map fun p => ((cut sy p).map (cut sz)).flatten).flatten

/-- Cells of `box_mesh` (`generate_mesh.py:176-187`). -/
def boxCells (Nx Ny Nz len : Nat) : List (List Nat) :=
  let g := gridInds3 Nx Ny Nz len
  stackLast [subGrid3 g false false false, subGrid3 g true false false, subGrid3 g true true false,
    subGrid3 g false true false, subGrid3 g false false true, subGrid3 g true false true,
    subGrid3 g true true true, subGrid3 g false true true]

/-- `box_mesh` (`generate_mesh.py:151-189`): points and cells. -/
def boxMesh (Nx Ny Nz : Nat) (Lx Ly Lz : K) : List (Fin 3 → K) × List (List Nat) :=
  let points := gridPoints3 (linspace Lx Nx) (linspace Ly Ny) (linspace Lz Nz)
  (points, boxCells Nx Ny Nz points.length)

end JaxFem
