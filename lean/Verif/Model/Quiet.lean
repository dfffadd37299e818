import Verif.Model.Boundary
import Mathlib.Data.List.Sort

/-!
# Element activation (`applications/quiet_element/example.py`)

Model of `hash_map_for_faces` (95-143), `initialize_hash_map` (146-164), `update_hash_map` (167-177),
`get_active_face_truth_tab` (180-221), `get_quiet_point_inds_set` (224-243) and of the time loop
(302-345) as far as it concerns activation.

Python sets have no order; `set(all_faces) - set(inner_faces)` is modelled as the list of the elements of
`all_faces` that are not in `inner_faces` (the theorems only speak about membership, and the truth table is
proved for every ordering). Truth tables are lists of booleans; a mesh is a list of cells (lists of node
indices) with the table `face_inds`. The node coordinates matter only through the test "all nodes of this
face are at the height of the laser", a parameter of the model.
-/

namespace JaxFem
namespace Quiet

/-- The mutable data: `hash_map`, `inner_faces`, `all_faces`. -/
structure Tables where
  hash : List (List Nat × (Nat × Nat))
  inner : List (Nat × Nat)
  all : List (Nat × Nat)
deriving Repr, DecidableEq

/-- `hash_map[key]` if `key in hash_map.keys()` (135-136). -/
def Tables.look (t : Tables) (key : List Nat) : Option (Nat × Nat) := (t.hash.find? (·.1 == key)).map Prod.snd

/-- Body of the inner loop (134-140). -/
def stepFace (t : Tables) (cf : Nat × Nat) (key : List Nat) : Tables :=
  match t.look key with
  | some first => { t with inner := t.inner ++ [first] ++ [cf], all := t.all ++ [cf] }
  | none => { t with hash := t.hash ++ [(key, cf)], all := t.all ++ [cf] }

/-- Loop over the faces of one cell (133-140). -/
def stepCell (cellsFace : List (List (List Nat))) (t : Tables) (c : Nat) : Tables :=
  ((cellsFace.getD c []).zipIdx).foldl (fun t p => stepFace t (c, p.2) p.1) t

/-- The outer loop (130-140). -/
def stepCells (active : List Bool) (cellsFace : List (List (List Nat))) (t : Tables) (cellInds : List Nat) : Tables :=
  cellInds.foldl (fun t c => if active.getD c false then stepCell cellsFace t c else t) t

/-- `external_faces` (142). -/
def Tables.external (t : Tables) : List (Nat × Nat) := (t.all.filter (fun x => !t.inner.contains x)).dedup

/-- `cells_face`: sorted node numbers of every face (155-158). -/
def cellsFaceOf (cells faceInds : List (List Nat)) : List (List (List Nat)) :=
  cells.map fun cell => faceInds.map fun f => (f.map (cell.getD · 0)).insertionSort (· ≤ ·)

/-- `initialize_hash_map` (146-164). -/
def initTables (cells faceInds : List (List Nat)) (active : List Bool) : Tables :=
  let cf := cellsFaceOf cells faceInds
  stepCells active cf ⟨[], [], []⟩ (List.range cf.length)

/-- `update_hash_map` (167-177): fails when the number of active cells decreases; otherwise processes the
cells whose state differs. -/
def updateTables (cellsFace : List (List (List Nat))) (old new : List Bool) (t : Tables) : Except Err Tables :=
  if old.count true ≤ new.count true then
    .ok (stepCells new cellsFace t ((List.range old.length).filter fun c => old.getD c false != new.getD c false))
  else .error .assertion

/-- `get_active_face_truth_tab` (180-221). `bnd` is `boundary_inds_list[0]`, `top` the test on the
coordinates of a face (213-214). The dictionary (201-203) maps a pair to its last position. -/
def faceTruthTab (bnd : List (Nat × Nat)) (top : Nat × Nat → Bool) (external : List (Nat × Nat)) :
    Except Err (List (Bool × Bool)) :=
  external.foldlM (fun tab face =>
    match (bnd.zipIdx.filter (·.1 == face)).getLast? with
    | none => .error .value
    | some (_, i) => .ok (tab.set i (true, (tab.getD i (false, false)).2 || top face)))
    (bnd.map fun _ => (false, false))

/-- `get_quiet_point_inds_set` (224-243), in increasing order. -/
def quietPoints (numPoints : Nat) (cells : List (List Nat)) (active : List Bool) : List Nat :=
  let activePoints := ((cells.zip active).filter Prod.snd).flatMap Prod.fst
  (List.range numPoints).filter fun p => !activePoints.contains p

/-- Variables of the time loop (299-345) concerning activation. The truth tables of faces and the set of
quiet points are unbound before the first birth. -/
structure Sim where
  active : List Bool
  tables : Tables
  external : List (Nat × Nat)
  faceTab : Option (List (Bool × Bool))
  quiet : Option (List Nat)

/-- State before the time loop (287-300). -/
def simInit (cells faceInds : List (List Nat)) (active : List Bool) : Sim :=
  let t := initTables cells faceInds active
  ⟨active, t, t.external, none, none⟩

/-- `active_cell_truth_tab | (flag_1 & flag_2)` (313-315). -/
def orTab (active flag : List Bool) : List Bool := List.zipWith (· || ·) active flag

/-- One time step with the laser on, up to the call of `set_params` (311-325), for the marked cells `flag`
and the height test `top`. Reading an unbound variable raises (`Err.runtime`). -/
def laserOn (numPoints : Nat) (cells faceInds : List (List Nat)) (bnd : List (Nat × Nat)) (s : Sim)
    (flag : List Bool) (top : Nat × Nat → Bool) : Except Err Sim := do
  let active := orTab s.active flag
  let s' ← (if active = s.active then .ok s
    else do
      let t ← updateTables (cellsFaceOf cells faceInds) s.active active s.tables
      let tab ← faceTruthTab bnd top t.external
      .ok ⟨active, t, t.external, some tab, some (quietPoints numPoints cells active)⟩ : Except Err Sim)
  match s'.faceTab, s'.quiet with
  | some _, some _ => .ok s'
  | _, _ => .error .runtime

/-- Consecutive time steps with the laser on; steps with the laser off (333-343) do not change any of these
variables, but raise in the same way when they come before the first birth. -/
def laserSteps (numPoints : Nat) (cells faceInds : List (List Nat)) (bnd : List (Nat × Nat)) :
    Sim → List (List Bool × (Nat × Nat → Bool)) → Except Err Sim
  | s, [] => .ok s
  | s, (flag, top) :: rest => do
    laserSteps numPoints cells faceInds bnd (← laserOn numPoints cells faceInds bnd s flag top) rest

end Quiet
end JaxFem
