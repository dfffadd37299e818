import Verif.Arr
import Mathlib.LinearAlgebra.Matrix.NonsingularInverse
import Mathlib.Algebra.Order.Field.Basic
import Mathlib.Algebra.BigOperators.Fin

/-!
# Partitioned assembly (`applications/parallel/example.py`)

Model of `element_stiffness` (88-120), `element_load` (122-138), `global_dof` (154-159),
`unit_square_triangle_mesh` (172-202) and of the assembly, boundary condition and right-hand side part of
`main` (285-339). `f` and the coordinates are arbitrary, arithmetic is exact over an ordered field.

What `DMPlex.distribute` hands to a rank is input of the model: local vertices with their coordinates and
section offsets, local cells (the vertices found in the closure, in whatever order), and the ownership range.
`setValues(..., ADD_VALUES)` from all ranks accumulates; the order in which the contributions of the ranks
arrive is arbitrary. `zeroRows` is a collective operation: when only some ranks call it, the ranks execute
different collective operations (`Err.runtime`).
-/

namespace JaxFem
namespace Parallel

variable {K : Type} [Field K] [LinearOrder K] [IsStrictOrderedRing K]

/-- Signed double area, the expression inside `abs` (98, 133-136). -/
def cross2 (v : Fin 3 → Fin 2 → K) : K :=
  (v 1 0 - v 0 0) * (v 2 1 - v 0 1) - (v 1 1 - v 0 1) * (v 2 0 - v 0 0)

/-- `area` (98). -/
def area (v : Fin 3 → Fin 2 → K) : K := 1 / 2 * |cross2 v|

/-- `ref_grads` (100-106). -/
def refGrads (K : Type) [Field K] : Matrix (Fin 3) (Fin 2) K := !![-1, -1; 1, 0; 0, 1]

/-- `J` (108-113). -/
def jac (v : Fin 3 → Fin 2 → K) : Matrix (Fin 2) (Fin 2) K :=
  !![v 1 0 - v 0 0, v 2 0 - v 0 0; v 1 1 - v 0 1, v 2 1 - v 0 1]

/-- `element_stiffness` (88-120). -/
noncomputable def elementStiffness (v : Fin 3 → Fin 2 → K) : Matrix (Fin 3) (Fin 3) K :=
  let grads := refGrads K * (jac v)⁻¹
  area v • (grads * grads.transpose)

/-- `element_load` (122-138). -/
def elementLoad (v : Fin 3 → Fin 2 → K) (f : K → K → K) : Fin 3 → K :=
  let fc := f ((v 0 0 + v 1 0 + v 2 0) / 3) ((v 0 1 + v 1 1 + v 2 1) / 3)
  fun _ => area v / 3 * fc

/-- `global_dof` (154-159). -/
def globalDof (off : Int) : Int := if off < 0 then -off - 1 else off

/-- A local vertex of a rank: section offset and coordinates. -/
structure LVertex (K : Type) where
  off : Int
  xy : Fin 2 → K

/-- What a rank holds. -/
structure Rank (K : Type) where
  verts : List (LVertex K)
  cells : List (List Nat)
  rstart : Int
  rend : Int

/-- Data of one pass of the assembly loop (300-312): degrees of freedom and vertex coordinates. -/
structure Contribution (K : Type) where
  dofs : Fin 3 → Int
  xy : Fin 3 → Fin 2 → K

/-- One pass of the assembly loop (300-306). A cell whose closure does not have three vertices raises. -/
def contribution (r : Rank K) (cell : List Nat) : Except Err (Contribution K) :=
  if cell.length = 3 then
    match r.verts[cell.getD 0 0]?, r.verts[cell.getD 1 0]?, r.verts[cell.getD 2 0]? with
    | some a, some b, some c =>
      .ok ⟨![globalDof a.off, globalDof b.off, globalDof c.off], ![a.xy, b.xy, c.xy]⟩
    | _, _, _ => .error .index
  else .error .runtime

/-- The contributions of a rank. -/
def contributions (r : Rank K) : Except Err (List (Contribution K)) := r.cells.mapM (contribution r)

/-- Matrix and right-hand side; indices without a contribution are zero. -/
structure Sys (K : Type) where
  mat : Int → Int → K
  rhs : Int → K

/-- Arrival of one contribution (`ADD_VALUES`, 308-311). -/
noncomputable def addContribution (f : K → K → K) (s : Sys K) (c : Contribution K) : Sys K :=
  ⟨fun i j => s.mat i j + ∑ a, ∑ b, if c.dofs a = i ∧ c.dofs b = j then elementStiffness c.xy a b else 0,
   fun i => s.rhs i + ∑ a, if c.dofs a = i then elementLoad c.xy f a else 0⟩

/-- The assembled system for contributions arriving in the order `sched` (300-316). -/
noncomputable def assembled (f : K → K → K) (sched : List (Contribution K)) : Sys K :=
  sched.foldl (addContribution f) ⟨fun _ _ => 0, fun _ => 0⟩

/-- The coordinate test (322-327) with tolerance `tol`. -/
def onBoundary (tol : K) (xy : Fin 2 → K) : Bool :=
  decide (|xy 0| < tol) || decide (|xy 0 - 1| < tol) || decide (|xy 1| < tol) || decide (|xy 1 - 1| < tol)

/-- `boundary_dofs` of a rank (319-331). -/
def boundaryDofs (tol : K) (r : Rank K) : List Int :=
  (r.verts.filter fun v => onBoundary tol v.xy && decide (r.rstart ≤ globalDof v.off) &&
    decide (globalDof v.off < r.rend)).map fun v => globalDof v.off

/-- `zeroRows` with diagonal one and `setValue(dof, 0)` for the degrees of freedom of all ranks (332-339). -/
noncomputable def applyBC (s : Sys K) (dofs : List Int) : Sys K :=
  ⟨fun i j => if i ∈ dofs then (if i = j then 1 else 0) else s.mat i j, fun i => if i ∈ dofs then 0 else s.rhs i⟩

/-- The linear system built by all ranks (300-339) when the contributions arrive in the order `sched`. -/
noncomputable def buildSystem (f : K → K → K) (tol : K) (ranks : List (Rank K)) (sched : List (Contribution K)) :
    Except Err (Sys K) :=
  let dofs := ranks.map (boundaryDofs tol)
  if (∃ l ∈ dofs, l = []) ∧ ∃ l ∈ dofs, l ≠ [] then .error .runtime
  else .ok (applyBC (assembled f sched) dofs.flatten)

/-- `unit_square_triangle_mesh` (180-189): coordinates. -/
def squareCoords (nx ny : Nat) (lower upper : Fin 2 → K) : List (Fin 2 → K) :=
  (List.range (nx + 1)).flatMap fun (i : Nat) => (List.range (ny + 1)).map fun (j : Nat) =>
    ![lower 0 + (upper 0 - lower 0) * ((i : K) / nx), lower 1 + (upper 1 - lower 1) * ((j : K) / ny)]

/-- `unit_square_triangle_mesh` (190-201): cells. -/
def squareCells (nx ny : Nat) : List (List Nat) :=
  (List.range nx).flatMap fun i => (List.range ny).flatMap fun j =>
    let nvy := ny + 1
    let v00 := i * nvy + j
    let v10 := (i + 1) * nvy + j
    let v11 := (i + 1) * nvy + (j + 1)
    let v01 := i * nvy + (j + 1)
    [[v00, v10, v11], [v00, v11, v01]]

end Parallel
end JaxFem
