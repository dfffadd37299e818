import Verif.Model.Refresh

/-!
# Specification for C84

The bookkeeping of a history: which points every finite element holds, at which points the geometry was
last computed and which boundary values are in force.
-/

namespace JaxFem.Refresh

variable {dim : Nat}

/-- Bookkeeping: `held i` are the points of element `i`, `geo i` the points of the geometry, `bc i` the
boundary conditions. -/
structure Book (dim : Nat) where
  held : Nat → Points dim
  geo : Nat → Points dim
  bc : Nat → BCLists

/-- Effect of one operation on the bookkeeping: only a refresh changes the geometry, only an update
changes boundary conditions, and the latter are evaluated at the held points, not at those of the
geometry. `n` is the number of variables. -/
noncomputable def Book.next (n : Nat) (k : Book dim) : Op dim → Book dim
  | .refresh none => { k with geo := k.held }
  | .refresh (some l) => { k with geo := fun i => l.getD i [] }
  | .updateBC i info => match dirichletBC (k.held i) info with
    | .ok b => if i < n then { k with bc := Function.update k.bc i b } else k
    | .error _ => k
  | .assignPoints i x => if i < n then { k with held := Function.update k.held i x } else k

/-- The bookkeeping after a history. -/
noncomputable def Book.after (n : Nat) (k : Book dim) (ops : List (Op dim)) : Book dim :=
  ops.foldl (Book.next n) k

/-- Every refresh with explicit points gives points for every variable. -/
def Complete (n : Nat) (ops : List (Op dim)) : Prop :=
  ∀ op ∈ ops, ∀ l, op = .refresh (some l) → n ≤ l.length

/-- The variables placed at the points `x`. -/
def placed (vars : List (CVar dim)) (x : Nat → Points dim) : List (CVar dim) :=
  vars.mapIdx fun i v => { v with points := x i }

/-- The arrays of the object are those of a problem with the variables `vars` and boundary subsets
`bs`. -/
def GeometryOf (o : Obj dim) (vars : List (CVar dim)) (bs : List BoundaryInds) : Prop :=
  ∃ pk, pack vars bs = .ok pk ∧ o.cellInputs = pk.cells ∧ o.faceInputs = pk.faces ∧
    o.fes.length = vars.length ∧
    ∀ (i : Nat) (v : CVar dim) (f : FEObj dim), vars[i]? = some v → o.fes[i]? = some f →
      f.shapeGrads = v.shapeGrads ∧ f.JxW = v.jxw ∧ f.vGradsJxW = v.vGradsJxW

end JaxFem.Refresh
