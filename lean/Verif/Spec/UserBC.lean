import Verif.Model.UserBC
import Verif.Spec.Boundary
import Verif.Spec.BC

/-!
# Specification of the user's Dirichlet conditions
-/

namespace JaxFem.UserBC

variable {P K : Type}

/-- A condition: where, which component, which value. -/
abbrev Cond (P K : Type) := LocFn P × Nat × (P → K)

/-- The condition speaks about component `c` at node `n`. -/
def Concerns (points : List P) (it : Cond P K) (n c : Nat) : Prop := it.2.1 = c ∧ OnDirichlet points it.1 n

/-- What an ordered list of conditions demands for component `c` at node `n`: nothing, if no condition speaks about it;
otherwise the last condition that does decides. -/
inductive Demands (points : List P) (its : List (Cond P K)) (n c : Nat) : Option K → Prop
  | free : (∀ it ∈ its, ¬Concerns points it n c) → Demands points its n c none
  | value (pre : List (Cond P K)) (it : Cond P K) (post : List (Cond P K)) (p : P) : its = pre ++ it :: post →
      it.2.1 = c → points[n]? = some p → it.1.holds p n → (∀ it' ∈ post, ¬Concerns points it' n c) →
      Demands points its n c (some (it.2.2 p))

/-- The information is readable: equally many location functions, components and value functions, and location functions
with one or two arguments. -/
def Readable : Option (List (LocFn P) × List Nat × List (P → K)) → Prop
  | none => True
  | some (locs, vecs, vals) => locs.length = vals.length ∧ vals.length = vecs.length ∧ ∀ loc ∈ locs, loc.supported

/-- The conditions in the order given. -/
def conds : Option (List (LocFn P) × List Nat × List (P → K)) → List (Cond P K)
  | none => []
  | some (locs, vecs, vals) => locs.zip (vecs.zip vals)

/-- Two conditions that speak about the same component of a node never demand different values. -/
def Compatible (points : List P) (its : List (Cond P K)) : Prop :=
  ∀ it ∈ its, ∀ it' ∈ its, ∀ n c p, points[n]? = some p → Concerns points it n c → Concerns points it' n c →
    it.2.2 p = it'.2.2 p

/-- Points of the meshes of the variables. -/
def Args.meshes : Args P K → List (List P)
  | .single points _ => [points]
  | .multi points _ => points

/-- Information meant for variable `i`, if it has been given. -/
def Args.given : Args P K → Nat → Option (Info P K)
  | .single _ info, i => if i = 0 then some info else none
  | .multi _ none, _ => some none
  | .multi _ (some infos), i => infos[i]?

/-- The variables fit the arguments: one variable per mesh, with as many nodes as the mesh has points, and the conditions
name existing components ("each integer must be in the range of 0 to vec - 1", `fe.py:63-65`). -/
structure Suits (fes : List FE) (a : Args P K) : Prop where
  len : a.meshes.length = fes.length
  nodes : ∀ (i : Nat) fe pts, fes[i]? = some fe → a.meshes[i]? = some pts → pts.length = fe.numTotalNodes
  comps : ∀ (i : Nat) fe info, fes[i]? = some fe → a.given i = some info → ∀ it ∈ conds info, it.2.1 < fe.vec

end JaxFem.UserBC
