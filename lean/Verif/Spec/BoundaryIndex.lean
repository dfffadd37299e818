import Mathlib.Data.List.Range

/-!
# Specification: numbering of the rectangle in the comments of `boundary_index/example.py`
-/

namespace JaxFem.BoundaryIndex

/-- Number of the node in column `i` and row `j` (`example.py:35-43`). -/
def node (Ny i j : Nat) : Nat := i * (Ny + 1) + j

/-- Number of the cell in column `i` and row `j`. -/
def cell (Ny i j : Nat) : Nat := i * Ny + j

/-- End nodes of the local face `f` of the cell in column `i` and row `j`, as drawn in `example.py:45-51`: 0 below, 1 left, 2 right,
3 above. -/
def sideEnds (Ny i j : Nat) : Nat → Nat × Nat
  | 0 => (node Ny i j, node Ny (i + 1) j)
  | 1 => (node Ny i j, node Ny i (j + 1))
  | 2 => (node Ny (i + 1) j, node Ny (i + 1) (j + 1))
  | _ => (node Ny i (j + 1), node Ny (i + 1) (j + 1))

/-- The node numbers in `S` (those that exist) are those of the right edge. -/
def NamesRight (Nx Ny : Nat) (S : List Nat) : Prop := ∀ i ≤ Nx, ∀ j ≤ Ny, node Ny i j ∈ S ↔ i = Nx

/-- The node numbers in `S` (those that exist) are those of the top edge. -/
def NamesTop (Nx Ny : Nat) (S : List Nat) : Prop := ∀ i ≤ Nx, ∀ j ≤ Ny, node Ny i j ∈ S ↔ j = Ny

end JaxFem.BoundaryIndex
