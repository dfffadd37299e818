import Verif.Arr

/-!
# Boundary selection

`fe.py:220-258` (`Dirichlet_boundary_conditions`), `fe.py:271-322`
(`get_boundary_conditions_inds`) and `generate_mesh.py:30-55` (`Mesh.count_selected_faces`).
Points are of an arbitrary type `P` (in the code: rows of `points`).
-/

namespace JaxFem

/-- A user location function with its number of arguments (`__code__.co_argcount`,
`fe.py:244,302`). Functions with one argument get the point, with two arguments the point and the
node index; other counts are rejected. The result is taken as a boolean. -/
inductive LocFn (P : Type) where
  | one (f : P → Bool)
  | two (f : P → Nat → Bool)
  | other (numArgs : Nat)

/-- `fe.py:244-250` and `fe.py:302-308`: dispatch on the number of arguments. -/
def LocFn.resolve {P : Type} : LocFn P → Except Err (P → Nat → Bool)
  | .one f => .ok fun p _ => f p
  | .two f => .ok f
  | .other _ => .error .value

/-- One pass of the loop `fe.py:243-257`: node indices, component indices and values of one entry.
`points[node_inds]` uses indices obtained from `argwhere` over the same point list, so they are in
range. -/
def dirichletEntry {P K : Type} (points : List P) (loc : LocFn P) (vec : Nat) (val : P → K) :
    Except Err (List Nat × List Nat × List K) := do
  let f ← loc.resolve
  let nodeInds := argwhere (points.mapIdx fun i p => f p i)
  let vecInds := nodeInds.map fun _ => 1 * vec
  let values := (nodeInds.filterMap fun n => points[n]?).map val
  pure (nodeInds, vecInds, values)

/-- The loop `fe.py:243-257` over the three lists (equal lengths have been asserted). -/
def dirichletLoop {P K : Type} (points : List P) :
    List (LocFn P) → List Nat → List (P → K) →
      Except Err (List (List Nat) × List (List Nat) × List (List K))
  | loc :: locs, vec :: vecs, val :: vals => do
    let e ← dirichletEntry points loc vec val
    let r ← dirichletLoop points locs vecs vals
    pure (e.1 :: r.1, e.2.1 :: r.2.1, e.2.2 :: r.2.2)
  | _, _, _ => pure ([], [], [])

/-- `FiniteElement.Dirichlet_boundary_conditions` (`fe.py:220-258`); the argument is `None` or
`[location_fns, vecs, value_fns]`. -/
def dirichletBC {P K : Type} (points : List P)
    (info : Option (List (LocFn P) × List Nat × List (P → K))) :
    Except Err (List (List Nat) × List (List Nat) × List (List K)) :=
  match info with
  | none => .ok ([], [], [])
  | some (locs, vecs, vals) =>
    if locs.length = vals.length ∧ vals.length = vecs.length then
      dirichletLoop points locs vecs vals
    else .error .assertion

/-- `np.take(points, cells, axis=0)` followed by `np.take(_, face_inds, axis=1)` for one cell and
one face, paired with the node numbers from `np.take(cells, face_inds, axis=1)`
(`fe.py:296-298`). Entries with invalid indices are left out (the code has no check; the theorems
assume valid connectivity). -/
def facePoints {P : Type} (points : List P) (cell face : List Nat) : List (P × Nat) :=
  face.filterMap fun a => (cell[a]?).bind fun n => (points[n]?).map fun p => (p, n)

/-- `vvmap_on_boundary` (`fe.py:310-316`): for each cell and each local face whether all its vertices
satisfy the location function. -/
def boundaryFlags {P : Type} (points : List P) (cells faceInds : List (List Nat))
    (f : P → Nat → Bool) : List (List Bool) :=
  cells.map fun cell => faceInds.map fun face => (facePoints points cell face).all fun x => f x.1 x.2

/-- The loop of `get_boundary_conditions_inds` (`fe.py:301-320`). -/
def boundaryLoop {P : Type} (points : List P) (cells faceInds : List (List Nat)) :
    List (LocFn P) → Except Err (List (List (Nat × Nat)))
  | [] => pure []
  | loc :: locs => do
    let f ← loc.resolve
    let r ← boundaryLoop points cells faceInds locs
    pure (argwhere2 (boundaryFlags points cells faceInds f) :: r)

/-- `FiniteElement.get_boundary_conditions_inds` (`fe.py:271-322`). -/
def boundaryInds {P : Type} (points : List P) (cells faceInds : List (List Nat))
    (locs : Option (List (LocFn P))) : Except Err (List (List (Nat × Nat))) :=
  match locs with
  | none => .ok []
  | some l => boundaryLoop points cells faceInds l

/-- `Mesh.count_selected_faces` (`generate_mesh.py:30-55`). The location function is called with the
point only: a function of two arguments raises `TypeError`. -/
def countSelectedFaces {P : Type} (points : List P) (cells faceInds : List (List Nat)) :
    LocFn P → Except Err Nat
  | .one f =>
    let flags := cells.map fun cell => faceInds.map fun face =>
      (face.filterMap fun a => (cell[a]?).bind fun n => points[n]?).all f
    .ok (argwhere2 flags).length
  | _ => .error .type

end JaxFem
