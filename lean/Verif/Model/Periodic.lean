import Verif.Arr
import Mathlib.Data.Matrix.Basic

/-!
# The projection matrix for periodic boundary conditions

`applications/periodic_bc/example.py:51-117`.
-/

namespace JaxFem

/-- The node pairing of one periodic condition (`example.py:60-80`). `locA`, `locB` say whether node
number `n` satisfies the location functions; `near a b` is `dist < EPS` for the image of node `a` and
node `b`. `onp.array` of a ragged list raises `ValueError`; `assert` compares the lengths. -/
def pairNodes (numNodes : Nat) (locA locB : Nat → Bool) (near : Nat → Nat → Bool) :
    Except Err (List Nat × List Nat) :=
  let nodeIndsA := (List.range numNodes).filter locA
  let nodeIndsB := (List.range numNodes).filter locB
  let ordered := nodeIndsA.map fun a => nodeIndsB.filter (near a)
  if ordered.all fun l => l.length == (ordered.headD []).length then
    let flat := ordered.flatten
    if nodeIndsA.length = flat.length then .ok (nodeIndsA, flat) else .error .assertion
  else .error .value

/-- `reduced_inds_map[reduced_inds_map == 1] = onp.arange(M)` (`example.py:101`): the `j`-th masked
entry becomes `f j`. -/
def fillOnes (f : Nat → Int) : List Int → Nat → List Int
  | [], _ => []
  | x :: xs, j => if x = 1 then f j :: fillOnes f xs (j + 1) else x :: fillOnes f xs j

/-- `reduced_inds_map` (`example.py:92-101`). Boolean-mask assignment raises `ValueError` when the
number of masked entries differs from `M`, unless `M = 1` (broadcast). `inds_B` out of range raises
`IndexError`; the subtraction `M = N - len(inds_B)` is negative only if indices repeat. -/
def reducedIndsMap (N : Nat) (indsA indsB : List Nat) : Except Err (List Int) :=
  if indsB.all (fun b => decide (b < N)) then
    let map0 : List Int := List.replicate N 1
    let map1 := (indsA.zip indsB).foldl (fun m p => m.set p.2 (-((p.1 : Int) + 1))) map0
    let count := map1.count 1
    let M : Int := (N : Int) - indsB.length
    let size := M.toNat  -- `onp.arange` of a negative number is empty
    if count = size then .ok (fillOnes (fun j => j) map1 0)
    else if size = 1 then .ok (fillOnes (fun _ => 0) map1 0)
    else .error .value
  else .error .index

/-- The column index of row `i` (`example.py:106-113`); a wrong master number raises `IndexError`. -/
def columnOf (map : List Int) (i : Nat) : Except Err Int :=
  match map[i]? with
  | none => .error .index
  | some r =>
    if r < 0 then
      match map[(-r - 1).toNat]? with
      | none => .error .index
      | some c => .ok c
    else .ok r

/-- `periodic_boundary_conditions` from the index pairs on (`example.py:82-117`): the columns of the
ones, row by row, and the shape. `csr_array` raises `ValueError` for negative or too large column
indices (and for a negative shape). -/
def periodicMatrix (N : Nat) (indsA indsB : List Nat) : Except Err (List Nat × Nat × Nat) := do
  let map ← reducedIndsMap N indsA indsB
  let cols ← (List.range N).mapM (columnOf map)
  let M : Int := (N : Int) - indsB.length
  if 0 ≤ M ∧ ∀ c ∈ cols, 0 ≤ c ∧ c < M then .ok (cols.map Int.toNat, N, M.toNat) else .error .value

/-- One periodic condition: the two location functions and the mapping test as in `pairNodes`, and
the component. -/
structure PeriodicCond where
  locA : Nat → Bool
  locB : Nat → Bool
  near : Nat → Nat → Bool
  comp : Nat

/-- The index lists of all conditions (`example.py:60-91`); `hstack` of an empty list raises
`ValueError`. -/
def periodicInds (numNodes vec : Nat) (conds : List PeriodicCond) : Except Err (List Nat × List Nat) := do
  let pairs ← conds.mapM fun c => pairNodes numNodes c.locA c.locB c.near
  if conds.isEmpty then .error .value
  else
    let indsA := (pairs.zip conds).map fun pc => pc.1.1.map fun n => n * vec + pc.2.comp
    let indsB := (pairs.zip conds).map fun pc => pc.1.2.map fun n => n * vec + pc.2.comp
    .ok (indsA.flatten, indsB.flatten)

/-- `periodic_boundary_conditions` (`example.py:50-116`). -/
def periodicBoundaryConditions (numNodes vec : Nat) (conds : List PeriodicCond) :
    Except Err (List Nat × Nat × Nat) := do
  let inds ← periodicInds numNodes vec conds
  periodicMatrix (numNodes * vec) inds.1 inds.2

/-- Entry `(i, j)` of the sparse matrix with ones at `(i, cols[i])`. -/
def pEntry (cols : List Nat) (i j : Nat) : Nat := if cols[i]? = some j then 1 else 0

end JaxFem
